import Verif.Py.Core
/-!
# Model of `epsilon/hotfixes/trial_assertwarns.py`

The function under test is any function of the state of the `warnings` module.
-/
namespace Verif.AssertWarns
open Verif.Py

/-- A string, or another object; objects are equal when they are identical. -/
inductive Val where
  | str (s : List Nat)
  | obj (n : Nat)
  deriving DecidableEq, Repr

/-- What `warnings.warn_explicit` is bound to: the function of the standard library, the `warnExplicit` closure of some call
of `failUnlessWarns`, or anything else. -/
inductive Hook where
  | original
  | recorder (i : Nat)
  | other (n : Nat)
  deriving DecidableEq, Repr

structure World where
  /-- `warnings.warn_explicit` -/
  hook : Hook
  /-- the lists `warningsShown`, in the order of the calls of `failUnlessWarns` -/
  shown : List (List (List Val))
  /-- the warnings that went on to the standard library -/
  delivered : List (List Val)

/-- A function called without arguments (`f(*args, **kwargs)` with the arguments put in). -/
abbrev Callable := World → World × Except PyErr Val

/-- The call `warnings.warn_explicit(*args)`, or one with keyword arguments (`kw`), which `warnExplicit`
(`trial_assertwarns.py:26-27`) does not take.  A function other than a recorder passes the warning on. -/
def warnExplicit (args : List Val) (kw : Bool) (w : World) : World × Except PyErr Unit :=
  match w.hook with
  | .recorder i => if kw then (w, .error .typeError) else ({ w with shown := w.shown.modify i (· ++ [args]) }, .ok ())
  | _ => ({ w with delivered := w.delivered ++ [args] }, .ok ())

/-- The call `warnings.warn(...)`, `args` being the message, the category, and the file and line it finds.  CPython's `_warnings`
module does not go through the attribute `warnings.warn_explicit`. -/
def warn (args : List Val) (w : World) : World := { w with delivered := w.delivered ++ [args] }

/-- The checks after the call (`trial_assertwarns.py:36-57`).  `self.fail` and the other assertions raise
`AssertionError`. -/
def check (category message : Val) (filename : List Nat) (warningsShown : List (List Val)) (result : Val) : Except PyErr Val :=
  match warningsShown with
  | [] => .error .assertionError
  | first :: others =>
    if others.any (fun other => other.take 2 != first.take 2) then .error .assertionError
    else
      match first.take 4 with
      | [gotMessage, gotCategory, gotFilename, _] =>
        if gotMessage ≠ message then .error .assertionError
        else if gotCategory ≠ category then .error .assertionError
        else
          match gotFilename with
          | .obj _ => .error .typeError
          | .str g => if g <+: filename then .ok result else .error .assertionError
      | _ => .error .valueError

/-- `failUnlessWarns` (`trial_assertwarns.py:8-57`). -/
def failUnlessWarns (category message : Val) (filename : List Nat) (f : Callable) : Callable := fun w =>
  let i := w.shown.length
  let r := f { w with hook := .recorder i, shown := w.shown ++ [[]] }
  let w1 := { r.1 with hook := w.hook }
  match r.2 with
  | .error e => (w1, .error e)
  | .ok result => (w1, check category message filename (w1.shown.getD i []) result)

end Verif.AssertWarns
