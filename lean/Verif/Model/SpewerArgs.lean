import Verif.Py.Core
/-!
# Model of `epsilon/spewer.py`: the arguments of a call
-/
namespace Verif.Spewer
open Verif.Py

/-- The parts of a code object used. -/
structure Code where
  argcount : Nat
  flags : Nat
  varnames : List (List Nat)

/-- `"*** undefined ***"` -/
def undefined : List Nat :=
  [42, 42, 42, 32, 117, 110, 100, 101, 102, 105, 110, 101, 100, 32, 42, 42, 42]

/-- A local variable's value: a string, or any other object. -/
inductive Local where
  | str (s : List Nat)
  | obj (n : Nat)
  deriving DecidableEq, Repr

/-- The loop (`spewer.py:62-64`), for `k` indices from `i`. -/
def extractLoop (co : Code) (locals_ : Dict (List Nat) Local) : Nat → Nat → Dict (List Nat) Local →
    Except PyErr (Dict (List Nat) Local)
  | 0, _, result => .ok result
  | k + 1, i, result =>
    match co.varnames[i]? with
    | none => .error .indexError
    | some name => extractLoop co locals_ k (i + 1) (result.set name ((locals_.get? name).getD (.str undefined)))

/-- `extractArgs` (`spewer.py:55-65`). -/
def extractArgs (co : Code) (locals_ : Dict (List Nat) Local) : Except PyErr (Dict (List Nat) Local) :=
  let n := co.argcount
  let n := if co.flags &&& 4 ≠ 0 then n + 1 else n
  let n := if co.flags &&& 8 ≠ 0 then n + 1 else n
  extractLoop co locals_ n 0 []

end Verif.Spewer
