import Verif.Py.Split
import Verif.Py.Text
/-!
# Model of `asTwistedVersion` (`/repo/epsilon/__init__.py:4-9`)
-/
namespace Verif.Version
open Verif.Py

abbrev Str := List Nat

/-- A `twisted.python.versions.Version`; its optional prerelease argument is never given. -/
structure Version where
  package : Str
  major : Nat
  minor : Nat
  micro : Nat
  deriving DecidableEq, Repr

/-- A character of the class `[0-9.]`. -/
def inClass (c : Nat) : Bool := isDigit c || c == 46

/-- `re.match(r"[0-9.]*", versionString).group()` -/
def leading (s : Str) : Str := s.takeWhile inClass

/-- `int` of a text that has only digits (other characters do not occur here); the empty text raises `ValueError`. -/
def int (s : Str) : Except PyErr Nat := if s = [] then .error .valueError else .ok (digitsVal s)

/-- `map(int, …)`, consumed from left to right. -/
def ints : List Str → Except PyErr (List Nat)
  | [] => .ok []
  | s :: r =>
    match int s with
    | .error e => .error e
    | .ok n =>
      match ints r with
      | .error e => .error e
      | .ok ns => .ok (n :: ns)

/-- `asTwistedVersion` (`__init__.py:4-9`).  `Version` needs exactly `major`, `minor` and `micro`; fewer are a
`TypeError`. -/
def asTwistedVersion (package versionString : Str) : Except PyErr Version :=
  match ints ((splitSep [46] (leading versionString)).take 3) with
  | .error e => .error e
  | .ok [a, b, c] => .ok ⟨package, a, b, c⟩
  | .ok _ => .error .typeError

end Verif.Version
