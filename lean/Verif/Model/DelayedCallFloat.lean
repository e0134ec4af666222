import Verif.Py.Core
import Verif.Py.FloatOrder
/-!
# Model of `/repo/epsilon/hotfixes/delayedcall_seconds.py` with floating-point times

`Model/DelayedCall` counts time in integers.  Here times are finite doubles, given as their exact rational values, and every `+`
and `-` rounds (`Py/Float`).  Infinities and NaNs are not modelled, nor is overflow (no time comes near `2 ** 1024`).
-/
namespace Verif.DelayedCallFloat
open Verif.Py

/-- A `DelayedCall` (`delayedcall_seconds.py:19-27`); `own` says whether it was given a clock (`seconds`). -/
structure Call where
  time : Rat
  delayed : Rat
  cancelled : Bool
  called : Bool
  own : Bool
  deriving DecidableEq

/-- `__init__` (`delayedcall_seconds.py:19-27`). -/
def new (time : Rat) (own : Bool) : Call := ⟨time, 0, false, false, own⟩

/-- `getTime` (`delayedcall_seconds.py:29-36`). -/
def getTime (c : Call) : Rat := fadd c.time c.delayed

/-- What is done to a call, as in `Model/DelayedCall`: `reset` comes with the readings of `base.seconds` and of the call's own
clock. -/
inductive Op
  | cancel
  | reset (base own secondsFromNow : Rat)
  | delay (secondsLater : Rat)
  | activate
  | made
  deriving DecidableEq

/-- The owner is told of a reset or a cancellation. -/
inductive Notice
  | resetter
  | canceller
  deriving DecidableEq

/-- The error of the guards, if any (`delayedcall_seconds.py:46-49,67-70,93-96`). -/
def refused (c : Call) : Option PyErr :=
  if c.cancelled then some (.other "AlreadyCancelled") else if c.called then some (.other "AlreadyCalled") else none

/-- `activate_delay` (`delayedcall_seconds.py:103-105`). -/
def activateDelay (c : Call) : Call := { c with time := fadd c.time c.delayed, delayed := 0 }

/-- The time that `reset` asks for (`delayedcall_seconds.py:72-75`). -/
def newTime (c : Call) (base own secondsFromNow : Rat) : Rat :=
  if c.own then fadd own secondsFromNow else fadd base secondsFromNow

/-- `cancel` (`delayedcall_seconds.py:46-55`), `reset` (`67-81`), `delay` (`93-101`), `activate_delay`, and the assignment
`called = 1` of the reactor.  The canceller and resetter are taken not to raise and not to touch the call. -/
def step (c : Call) : Op → Call × List Notice × Option PyErr
  | .cancel =>
    match refused c with
    | some e => (c, [], some e)
    | none => ({ c with cancelled := true }, [.canceller], none)
  | .reset base own secondsFromNow =>
    match refused c with
    | some e => (c, [], some e)
    | none =>
      let newTime := newTime c base own secondsFromNow
      if newTime < c.time then ({ c with delayed := 0, time := newTime }, [.resetter], none)
      else ({ c with delayed := fsub newTime c.time }, [], none)
  | .delay secondsLater =>
    match refused c with
    | some e => (c, [], some e)
    | none =>
      let c' := { c with delayed := fadd c.delayed secondsLater }
      if c'.delayed < 0 then (activateDelay c', [.resetter], none) else (c', [], none)
  | .activate => (activateDelay c, [], none)
  | .made => ({ c with called := true }, [], none)

/-- A history. -/
def run : Call → List Op → Call
  | c, [] => c
  | c, o :: os => run (step c o).1 os

end Verif.DelayedCallFloat
