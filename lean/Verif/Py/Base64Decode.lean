import Verif.Py.Core
import Mathlib.Tactic.Ring
/-!
# Python 2 primitives: `str.encode('base64')` and `str.decode('base64')`

From CPython 2.7: `base64.encodestring` and `binascii.b2a_base64`; `base64.decodestring` and `binascii.a2b_base64`.  `binascii.Error`
is `PyErr.other "binascii.Error"`.
-/
namespace Verif.Py.Base64

/-- The alphabet: `A-Z`, `a-z`, `0-9`, `+`, `/`. -/
def stdChar (d : Nat) : Nat :=
  if d < 26 then 65 + d
  else if d < 52 then 97 + (d - 26)
  else if d < 62 then 48 + (d - 52)
  else if d = 62 then 43
  else 47

/-- `binascii.b2a_base64`, without the line feed at the end: three bytes are four characters; `=` fills the last four. -/
def b2a : List Nat → List Nat
  | [] => []
  | [a] => [stdChar (a / 4), stdChar (a % 4 * 16), 61, 61]
  | [a, b] => [stdChar (a / 4), stdChar (a % 4 * 16 + b / 16), stdChar (b % 16 * 4), 61]
  | a :: b :: c :: r =>
    stdChar (a / 4) :: stdChar (a % 4 * 16 + b / 16) :: stdChar (b % 16 * 4 + c / 64) :: stdChar (c % 64) :: b2a r

/-- `base64.encodestring`: a line for each 57 bytes. -/
def encodestring (s : List Nat) : List Nat :=
  if s = [] then [] else b2a (s.take 57) ++ 10 :: encodestring (s.drop 57)
termination_by s.length
decreasing_by
  rename_i h
  have : 0 < s.length := List.length_pos_iff.mpr h
  simp only [List.length_drop]; omega

/-- `table_a2b_base64`, without `=`. -/
def value (c : Nat) : Option Nat :=
  if 65 ≤ c ∧ c ≤ 90 then some (c - 65)
  else if 97 ≤ c ∧ c ≤ 122 then some (c - 97 + 26)
  else if 48 ≤ c ∧ c ≤ 57 then some (c - 48 + 52)
  else if c = 43 then some 62
  else if c = 47 then some 63
  else none

/-- `binascii_find_valid`: the next character that is of the alphabet or `=`. -/
def nextValid (s : List Nat) : Option Nat := s.find? fun c => (value c).isSome || c == 61

/-- The loop of `binascii.a2b_base64`: `quad` is `quad_pos`, `left` is `leftchar`, `bits` is `leftbits`. -/
def a2bGo (quad left bits : Nat) : List Nat → Except PyErr (List Nat)
  | [] => if bits ≠ 0 then .error (.other "binascii.Error") else .ok []
  | c :: s =>
    if c = 61 then
      if quad < 2 ∨ (quad = 2 ∧ nextValid s ≠ some 61) then a2bGo quad left bits s else .ok []
    else
      match value c with
      | none => a2bGo quad left bits s
      | some v =>
        if 8 ≤ bits + 6 then
          (a2bGo ((quad + 1) % 4) ((left * 64 + v) % 2 ^ (bits - 2)) (bits - 2) s).map
            (((left * 64 + v) / 2 ^ (bits - 2) % 256) :: ·)
        else a2bGo ((quad + 1) % 4) (left * 64 + v) (bits + 6) s

/-- `binascii.a2b_base64` -/
def a2b (s : List Nat) : Except PyErr (List Nat) := a2bGo 0 0 0 s

end Verif.Py.Base64
