import Verif.Model.GenRun
/-!
# C144: what is said about runs of generators
-/
namespace Verif.GenRun
open Verif.Py
open Verif.DeferredGenerator (Val Res)

/-- All that were waiting for `d`, in the order in which they began to. -/
def waitsOn (d : D) (l : List Ev) : List W :=
  l.filterMap fun | .waits w d' => if d' = d then some w else none | _ => none

/-- All waits. -/
def allWaits (l : List Ev) : List W :=
  l.filterMap fun | .waits w _ => some w | _ => none

/-- What `d` has been fired with. -/
def firedBy (d : D) (l : List Ev) : List Res :=
  l.filterMap fun | .fired d' r => if d' = d then some r else none | _ => none

/-- What generator `i` is waiting for: it has not been called since it began to wait. -/
def pending (i : Nat) (l : List Ev) : Option (W × D) :=
  l.foldl (fun p e => match e with
    | .waits w d => if w.1 = i then some (w, d) else p
    | .next j _ => if j = i then none else p
    | _ => p) none

/-- The last value that generator `i` has yielded; `None` if it has waited since, or has not yielded any. -/
def lastYield (i : Nat) (l : List Ev) : Val :=
  l.foldl (fun p e => match e with
    | .waits w _ => if w.1 = i then none else p
    | .yielded j v => if j = i then v else p
    | _ => p) none

end Verif.GenRun
