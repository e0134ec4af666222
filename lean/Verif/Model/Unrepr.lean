import Verif.Py.Literal
import Verif.Model.Structlike
/-!
# Model of `epsilon/unrepr.py`, and of the `__repr__`s of `Caseless`, juice boxes and records whose contents are plain data

Which characters beyond ASCII are printable is a parameter.  Class names are given.
-/
namespace Verif.Unrepr
open Verif.Py Verif.Py.Literal

abbrev Str := List Nat

/-- `unrepr` (`unrepr.py:1`): `ast.literal_eval`. -/
def unrepr (s : Str) : Option Val := literalEval s

/-- `Caseless.__repr__` (`caseless.py:46-47`). -/
def caselessRepr (printable : Nat → Bool) (cls : Str) (cased : Val) : Str := cls ++ 40 :: repr printable cased ++ [41]

/-- The boxes with a `__repr__` of their own. -/
inductive BoxKind where
  | tls | quit | switch | negotiate
  deriving DecidableEq, Repr

def BoxKind.name : BoxKind → Str
  | .tls => [84, 76, 83]
  | .quit => [81, 117, 105, 116]
  | .switch => [83, 119, 105, 116, 99, 104]
  | .negotiate => [78, 101, 103, 111, 116, 105, 97, 116, 101]

/-- `__repr__` of `TLSBox`, `QuitBox`, `_SwitchBox`, `NegotiateBox` (`juice.py:98-99`, `118-119`, `127-128`, `142-143`): the `repr` of
the dictionary in `Name(**…)`. -/
def boxRepr (printable : Nat → Bool) (k : BoxKind) (items : List (Val × Val)) : Str :=
  k.name ++ [40, 42, 42] ++ repr printable (.dict items) ++ [41]

/-- The attributes in `__repr__` of a record (`structlike.py:109-112`). -/
def reprFields (printable : Nat → Bool) : List (Str × Val) → Str
  | [] => []
  | f :: l => f.1 ++ 61 :: repr printable f.2 ++ (if l.isEmpty then [] else [44, 32]) ++ reprFields printable l

/-- `StructBehavior.__repr__` (`structlike.py:98-114`) of a record whose attributes are plain data; `Model/Structlike` has records in
records. -/
def recordRepr (printable : Nat → Bool) (cls : Str) (fields : List (Str × Val)) : Str :=
  cls ++ 40 :: reprFields printable fields ++ [41]

/-! ## Python reading a call back -/

/-- The arguments of a call: one value, `**` and a dictionary, or keywords. -/
inductive Args where
  | one (v : Val)
  | star (items : List (Val × Val))
  | kws (fields : List (Str × Val))

/-- Characters of identifiers: ASCII letters, digits, `_`, and (more than Python allows) everything beyond ASCII. -/
def isIdent (c : Nat) : Bool := isDigit c || (65 ≤ c && c ≤ 90) || (97 ≤ c && c ≤ 122) || c == 95 || 128 ≤ c

/-- `n=v, …` up to `)`. -/
def readKws : Nat → Str → Option (List (Str × Val) × Str)
  | 0, _ => none
  | fuel + 1, s =>
    let s := skipSpace s
    if s.head? = some 41 then some ([], s.tail)
    else
      let n := s.takeWhile isIdent
      match s.dropWhile isIdent with
      | 61 :: t =>
        if n = [] then none
        else
          match readVal (t.length + 1) 1 t with
          | none => none
          | some (v, r) =>
            match skipSpace r with
            | [] => none
            | c :: u =>
              if c = 41 then some ([(n, v)], u)
              else if c = 44 then (readKws fuel u).map fun x => ((n, v) :: x.1, x.2)
              else none
      | _ => none

/-- The closing parenthesis, and nothing after it. -/
def closed (r : Option (Val × Str)) : Option Val :=
  match r with
  | some (v, r) => if skipSpace r = [41] then some v else none
  | none => none

/-- The arguments, after the opening parenthesis. -/
def readArgs (s : Str) : Option Args :=
  if s.take 2 = [42, 42] then
    match closed (readVal (s.length + 1) 1 (s.drop 2)) with
    | some (.dict d) => some (.star d)
    | _ => none
  else if s.head? = some 41 ∨ (s.takeWhile isIdent ≠ [] ∧ (s.dropWhile isIdent).head? = some 61) then
    match readKws (s.length + 1) s with
    | some (l, []) => some (.kws l)
    | _ => none
  else (closed (readVal (s.length + 1) 1 s)).map Args.one

/-- A call: the name that is called, and the arguments. -/
def readCall (s : Str) : Option (Str × Args) :=
  match s.dropWhile isIdent with
  | 40 :: t => (readArgs t).map fun a => (s.takeWhile isIdent, a)
  | _ => none

end Verif.Unrepr
