import Mathlib.Tactic.Ring
/-!
# Python primitives: `base64.urlsafe_b64encode` and `str.encode('hex')`

From CPython 2.7: `binascii.b2a_base64` and the translation of `+` and `/` to `-` and `_`.
-/
namespace Verif.Py.Base64

/-- The alphabet: `A-Z`, `a-z`, `0-9`, `-`, `_`. -/
def char (d : Nat) : Nat :=
  if d < 26 then 65 + d
  else if d < 52 then 97 + (d - 26)
  else if d < 62 then 48 + (d - 52)
  else if d = 62 then 45
  else 95

/-- `base64.urlsafe_b64encode`: three bytes are four characters; `=` fills the last four. -/
def encode : List Nat → List Nat
  | [] => []
  | [a] => [char (a / 4), char (a % 4 * 16), 61, 61]
  | [a, b] => [char (a / 4), char (a % 4 * 16 + b / 16), char (b % 16 * 4), 61]
  | a :: b :: c :: r =>
    char (a / 4) :: char (a % 4 * 16 + b / 16) :: char (b % 16 * 4 + c / 64) :: char (c % 64) :: encode r

/-- A hexadecimal digit, lower case. -/
def hexChar (d : Nat) : Nat := if d < 10 then 48 + d else 97 + (d - 10)

/-- `str.encode('hex')` -/
def hex : List Nat → List Nat
  | [] => []
  | a :: r => hexChar (a / 16) :: hexChar (a % 16) :: hex r

end Verif.Py.Base64
