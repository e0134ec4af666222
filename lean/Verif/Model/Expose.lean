import Verif.Py.Core
/-!
# Model of `epsilon/expose.py`

Objects are numbers, so that `is` is equality.  A class is its method resolution order: the list of the dictionaries.
Keys are any type; the name of a function is turned into a key by `nameKey`.
-/
namespace Verif.Expose
open Verif.Py

variable {κ : Type} [DecidableEq κ]

/-- What is decorated: the object, and its `__name__` if it is a plain function. -/
structure Decorated (κ : Type) where
  obj : Nat
  funcName : Option κ

/-- `Exposer._exposed`; empty in a new one (`Exposer.__init__`, `expose.py:70-75`) -/
abbrev Exposed (κ : Type) := Dict κ (List Nat)

/-- `NameRequired`, `MethodNotExposed` (`expose.py:47-59`) -/
def nameRequired : PyErr := .other "NameRequired"
def methodNotExposed : PyErr := .other "MethodNotExposed"

/-- The decorator made by `expose(key)` applied to an object (`expose.py:103-113`). -/
def expose (exposed : Exposed κ) (key : Option κ) (f : Decorated κ) : Except PyErr (Exposed κ) :=
  match (match key with | some k => some k | none => f.funcName) with
  | none => .error nameRequired
  | some rkey =>
    let exposed := if Dict.has exposed rkey then exposed else Dict.set exposed rkey []
    .ok (Dict.set exposed rkey ((Dict.get? exposed rkey).getD [] ++ [f.obj]))

/-- The loop over the items of one class (`expose.py:134-140`): the answer, or the names seen. -/
def scanItems {ν : Type} [DecidableEq ν] (rightFuncs : List Nat) : List (ν × Nat) → List ν → Except PyErr Nat ⊕ List ν
  | [], seen => .inr seen
  | (name, value) :: items, seen =>
    if value ∈ rightFuncs then
      if name ∈ seen then .inl (.error methodNotExposed) else .inl (.ok value)
    else scanItems rightFuncs items (seen ++ [name])

/-- The loop over the classes (`expose.py:133-141`). -/
def scanMro {ν : Type} [DecidableEq ν] (rightFuncs : List Nat) : List (Dict ν Nat) → List ν → Except PyErr Nat
  | [], _ => .error methodNotExposed
  | d :: mro, seen =>
    match scanItems rightFuncs d seen with
    | .inl r => r
    | .inr seen => scanMro rightFuncs mro seen

/-- `Exposer.get(obj, key)` (`expose.py:117-141`); the answer is the object that is then bound to `obj`. -/
def get {ν : Type} [DecidableEq ν] (exposed : Exposed κ) (mro : List (Dict ν Nat)) (key : κ) : Except PyErr Nat :=
  match Dict.get? exposed key with
  | none => .error methodNotExposed
  | some rightFuncs => scanMro rightFuncs mro []

end Verif.Expose
