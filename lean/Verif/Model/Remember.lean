import Verif.Py.Core
/-!
# Model of `epsilon/remember.py`

Values are `none` for Python's `None`, or objects.  Creation functions are arbitrary programs that may read remembered
attributes of any instance before they return or raise; what they do may differ from call to call.
-/
namespace Verif.Remember
open Verif.Py

abbrev Name := List Nat
abbrev Value := Option Nat

/-- A `remembered` descriptor: the `__name__` of its creation function, and the function. -/
structure Desc where
  name : Name
  fn : Nat
  deriving DecidableEq, Repr

/-- What a creation function does. -/
inductive Prog where
  | ret (v : Value)
  | raise (e : PyErr)
  /-- read the attribute `d` of the instance `i`, then go on -/
  | access (i : Nat) (d : Desc) (k : Except PyErr Value → Prog)

structure St where
  /-- the `__dict__` of each instance -/
  store : Nat → Dict Name Value
  /-- the creation functions that have returned: instance, descriptor, value -/
  log : List (Nat × Desc × Value)
  /-- how many have been called -/
  tick : Nat

/-- The creation functions: what the call number `tick` of `d` on instance `i` does. -/
abbrev Bodies := Desc → Nat → Nat → Prog

/-- `"_remembered_" + self.creationFunction.__name__` (`remember.py:29`) -/
def rememberName (n : Name) : Name := [95, 114, 101, 109, 101, 109, 98, 101, 114, 101, 100, 95] ++ n

/-- Run a program, given the meaning of reading an attribute.  `none`: it did not end. -/
def runP (get : St → Nat → Desc → Option (St × Except PyErr Value)) : Prog → St → Option (St × Except PyErr Value)
  | .ret v, st => some (st, .ok v)
  | .raise e, st => some (st, .error e)
  | .access i d k, st =>
    match get st i d with
    | none => none
    | some (st, r) => runP get (k r) st

/-- `remembered.__get__` (`remember.py:24-35`), with a bound on the depth of recursion. -/
def get (body : Bodies) : Nat → St → Nat → Desc → Option (St × Except PyErr Value)
  | 0, _, _, _ => none
  | fuel + 1, st, i, d =>
    match (Dict.get? (st.store i) (rememberName d.name)).getD none with
    | some v => some (st, .ok (some v))
    | none =>
      match runP (get body fuel) (body d i st.tick) { st with tick := st.tick + 1 } with
      | none => none
      | some (st, .error e) => some (st, .error e)
      | some (st, .ok v) =>
        some ({ st with
          store := fun j => if j = i then Dict.set (st.store i) (rememberName d.name) v else st.store j
          log := st.log ++ [(i, d, v)] }, .ok v)

/-- Accesses one after the other. -/
def history (body : Bodies) (fuel : Nat) : List (Nat × Desc) → St → Option (St × List (Except PyErr Value))
  | [], st => some (st, [])
  | (i, d) :: as, st =>
    match get body fuel st i d with
    | none => none
    | some (st, r) =>
      match history body fuel as st with
      | none => none
      | some (st, rs) => some (st, r :: rs)

/-- Nothing has happened yet; the instances may have other attributes. -/
def start (dicts : Nat → Dict Name Value) : St := ⟨dicts, [], 0⟩

end Verif.Remember
