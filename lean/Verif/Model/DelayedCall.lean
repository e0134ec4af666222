import Verif.Py.Core
/-!
# Model of `/repo/epsilon/hotfixes/delayedcall_seconds.py` and `internet_task_clock.py`

Times are integers (say, microseconds); for the rounding of floating-point times see `Model/DelayedCallFloat`.
-/
namespace Verif.DelayedCall
open Verif.Py

/-- A `DelayedCall` (`delayedcall_seconds.py:19-27`); `own` says whether it was given a clock (`seconds`). -/
structure Call where
  time : Int
  delayed : Int
  cancelled : Bool
  called : Bool
  own : Bool
  deriving DecidableEq, Repr

/-- `__init__` (`delayedcall_seconds.py:19-27`). -/
def new (time : Int) (own : Bool) : Call := ⟨time, 0, false, false, own⟩

/-- `getTime` (`delayedcall_seconds.py:36`). -/
def getTime (c : Call) : Int := c.time + c.delayed

/-- `active` (`delayedcall_seconds.py:114`). -/
def active (c : Call) : Bool := !(c.cancelled || c.called)

/-- `activate_delay` (`delayedcall_seconds.py:103-105`). -/
def activateDelay (c : Call) : Call := { c with time := c.time + c.delayed, delayed := 0 }

/-- What is done to a call: by its holder, or (`made`, `activate`) by the reactor that owns it.  `reset` comes with the
readings of `base.seconds` and of the call's own clock. -/
inductive Op
  | cancel
  | reset (base own secondsFromNow : Int)
  | delay (secondsLater : Int)
  | activate
  | made
  deriving DecidableEq, Repr

/-- The owner is told of a reset or a cancellation. -/
inductive Notice
  | resetter
  | canceller
  deriving DecidableEq, Repr

/-- The error of the guards, if any (`delayedcall_seconds.py:46-49,67-70,93-96`). -/
def refused (c : Call) : Option PyErr :=
  if c.cancelled then some (.other "AlreadyCancelled") else if c.called then some (.other "AlreadyCalled") else none

/-- The time that `reset` asks for (`delayedcall_seconds.py:72-75`). -/
def newTime (c : Call) (base own secondsFromNow : Int) : Int :=
  if c.own then own + secondsFromNow else base + secondsFromNow

/-- `cancel` (`delayedcall_seconds.py:46-55`), `reset` (`67-81`), `delay` (`93-101`), `activate_delay`, and the assignment
`called = 1` of the reactor.  The canceller and resetter are taken not to raise and not to touch the call. -/
def step (c : Call) : Op → Call × List Notice × Option PyErr
  | .cancel =>
    match refused c with
    | some e => (c, [], some e)
    | none => ({ c with cancelled := true }, [.canceller], none)
  | .reset base own secondsFromNow =>
    match refused c with
    | some e => (c, [], some e)
    | none =>
      let newTime := newTime c base own secondsFromNow
      if newTime < c.time then ({ c with delayed := 0, time := newTime }, [.resetter], none)
      else ({ c with delayed := newTime - c.time }, [], none)
  | .delay secondsLater =>
    match refused c with
    | some e => (c, [], some e)
    | none =>
      let c' := { c with delayed := c.delayed + secondsLater }
      if c'.delayed < 0 then (activateDelay c', [.resetter], none) else (c', [], none)
  | .activate => (activateDelay c, [], none)
  | .made => ({ c with called := true }, [], none)

/-- `__le__` (`delayedcall_seconds.py:116-117`): the order of the owner's heap. -/
def le (a b : Call) : Bool := a.time ≤ b.time

/-- A history. -/
def run : Call → List Op → Call
  | c, [] => c
  | c, o :: os => run (step c o).1 os

/-! ## `Clock.callLater` -/

/-- A `twisted.internet.task.Clock`: the time and the pending calls, each with its identity. -/
structure Clock where
  now : Int
  calls : List (Nat × Call)
  next : Nat
  deriving Repr

/-- The comparison given to `sort` (`internet_task_clock.py:18`): `cmp(a.getTime(), b.getTime()) <= 0`. -/
def before (a b : Nat × Call) : Bool := getTime a.2 ≤ getTime b.2

/-- `callLater` (`internet_task_clock.py:7-19`).  On Python 3 `list.sort` takes no positional argument; by then the call has
been appended.  On Python 2 `list.sort` is stable. -/
def callLater (python2 : Bool) (k : Clock) (when_ : Int) : Clock × Except PyErr Nat :=
  let dc := new (k.now + when_) true
  let calls := k.calls ++ [(k.next, dc)]
  if python2 then ({ k with calls := calls.mergeSort before, next := k.next + 1 }, .ok k.next)
  else ({ k with calls := calls, next := k.next + 1 }, .error .typeError)

end Verif.DelayedCall
