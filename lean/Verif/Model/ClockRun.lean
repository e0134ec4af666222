import Verif.Model.DelayedCall
/-!
# Model of a `Clock` with the hotfix in use (`/repo/epsilon/hotfixes/internet_task_clock.py`, with `delayedcall_seconds.py`)

`Model/DelayedCall` has one `callLater`.  Here calls are scheduled, cancelled, reset, delayed and made, in any order, on Python 2.
Of Twisted's `Clock`: `seconds` gives `rightNow`; `advance(amount)` adds the amount and then, while there are calls and the first
one's `getTime()` is not after `seconds()`, takes it from the list, sets `called` and calls its function.  `advance` is split in
two operations, `advance` and one `turn` of the loop, so that what the called functions do (also another `advance`) comes
between two turns.

The list's `remove` compares by identity, since `DelayedCall` defines no equality.
-/
namespace Verif.ClockRun
open Verif.Py Verif.DelayedCall

/-- The clock; the calls that were cancelled or made; and, as a ghost, which calls were made and when, oldest first. -/
structure St where
  clock : Clock
  gone : List (Nat × Call)
  made : List (Nat × Int)

/-- A new `Clock` that shows `t`. -/
def St.new (t : Int) : St := ⟨⟨t, [], 0⟩, [], []⟩

/-- What happens. -/
inductive Op
  | later (when_ : Int)
  | cancel (i : Nat)
  | reset (i : Nat) (secondsFromNow : Int)
  | delay (i : Nat) (secondsLater : Int)
  | advance (amount : Int)
  | turn
  deriving DecidableEq, Repr

/-- The call `i` in a list. -/
def get (l : List (Nat × Call)) (i : Nat) : Option Call := (l.find? fun x => x.1 == i).map Prod.snd

/-- An operation on the call `i`, with the canceller `self.calls.remove` and the resetter `lambda c: None`
(`internet_task_clock.py:14-15`).  A call that was never scheduled cannot be asked. -/
def touch (k : St) (i : Nat) (o : DelayedCall.Op) : St × Option PyErr :=
  match get k.clock.calls i with
  | some c =>
    let r := step c o
    if r.2.1 = [.canceller] then
      ({ k with clock := { k.clock with calls := k.clock.calls.filter fun x => x.1 != i }, gone := (i, r.1) :: k.gone }, r.2.2)
    else
      ({ k with clock := { k.clock with calls := k.clock.calls.map fun x => if x.1 = i then (i, r.1) else x } }, r.2.2)
  | none =>
    match get k.gone i with
    | some c => (k, (step c o).2.2)
    | none => (k, none)

/-- One turn of the loop in `Clock.advance` (Twisted). -/
def turn (k : St) : St :=
  match k.clock.calls with
  | [] => k
  | (i, c) :: rest =>
    if getTime c ≤ k.clock.now then
      { clock := { k.clock with calls := rest }, gone := (i, (step c .made).1) :: k.gone, made := k.made ++ [(i, k.clock.now)] }
    else k

/-- One operation, and what it raises.  A call's clock is `self.seconds` of the clock (`internet_task_clock.py:16`), so what
`base.seconds` says does not matter; it is 0 here. -/
def act (k : St) : Op → St × Option PyErr
  | .later w => ({ k with clock := (callLater true k.clock w).1 }, none)
  | .cancel i => touch k i .cancel
  | .reset i s => touch k i (.reset 0 k.clock.now s)
  | .delay i s => touch k i (.delay s)
  | .advance a => ({ k with clock := { k.clock with now := k.clock.now + a } }, none)
  | .turn => (turn k, none)

/-- A history. -/
def runOps (k : St) : List Op → St
  | [] => k
  | o :: os => runOps (act k o).1 os

end Verif.ClockRun
