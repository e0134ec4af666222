import Verif.Py.Core
/-!
# Model of `epsilon/hotfixes/timeoutmixin_calllater.py`

Time is an integer in an arbitrary unit.  The reactor is its list of pending `DelayedCall`s, each with the time it is
scheduled for; the only calls in it are those of one `TimeoutMixin` instance.  A turn of the reactor happens at some time,
runs the calls that were due when it began, and leaves calls made meanwhile for the next turn
(`twisted.internet.base.ReactorBase.runUntilCurrent`).  What `timeoutConnection` does to the timeout is a parameter.
-/
namespace Verif.Timeout
open Verif.Py

/-- What a user of the mixin can do. -/
inductive Op where
  | set (period : Option Int)
  | reset
  deriving DecidableEq, Repr

/-- What happened, for the statement of the property. -/
inductive Ev where
  | set (period : Option Int)
  | reset
  | timeout
  deriving DecidableEq, Repr

structure St where
  now : Int
  /-- the reactor's pending calls -/
  calls : List (Nat × Int)
  /-- the number of calls made so far -/
  made : Nat
  /-- `self.timeOut` -/
  timeOut : Option Int
  /-- `self.__timeoutCall` -/
  call : Option Nat
  /-- ghost: the operations that returned, and the time-outs, with their times, oldest first -/
  log : List (Int × Ev)
  deriving DecidableEq, Repr

/-- A new instance (`timeoutmixin_calllater.py:8-10`). -/
def St.new (now : Int) : St := ⟨now, [], 0, none, none, []⟩

/-- `DelayedCall.reset(period)`; `AlreadyCalled` or `AlreadyCancelled` when it is not pending. -/
def resetCall (st : St) (id : Nat) (period : Int) : Except PyErr St :=
  if st.calls.any (·.1 == id) then
    .ok { st with calls := st.calls.map fun c => if c.1 = id then (id, st.now + period) else c }
  else .error (.other "AlreadyCalled")

/-- `DelayedCall.cancel()` -/
def cancelCall (st : St) (id : Nat) : Except PyErr St :=
  if st.calls.any (·.1 == id) then .ok { st with calls := st.calls.filter fun c => c.1 != id }
  else .error (.other "AlreadyCalled")

/-- `reactor.callLater(period, …)` (`timeoutmixin_calllater.py:12-13`); it refuses negative delays. -/
def callLater (st : St) (period : Int) : Except PyErr (Nat × St) :=
  if period < 0 then .error .assertionError
  else .ok (st.made, { st with calls := st.calls ++ [(st.made, st.now + period)], made := st.made + 1 })

/-- `resetTimeout` (`timeoutmixin_calllater.py:16-19`) -/
def resetTimeout (st : St) : Except PyErr St :=
  match st.call, st.timeOut with
  | some id, some p => resetCall st id p
  | _, _ => .ok st

/-- `setTimeout` (`timeoutmixin_calllater.py:21-40`): the previous period and the new state.  An exception leaves the new
period behind. -/
def setTimeout (st : St) (period : Option Int) : Except PyErr (Option Int) × St :=
  let prev := st.timeOut
  let st := { st with timeOut := period }
  match st.call with
  | some id =>
    match period with
    | none =>
      match cancelCall st id with
      | .error e => (.error e, st)
      | .ok st => (.ok prev, { st with call := none })
    | some p =>
      match resetCall st id p with
      | .error e => (.error e, st)
      | .ok st => (.ok prev, st)
  | none =>
    match period with
    | none => (.ok prev, st)
    | some p =>
      match callLater st p with
      | .error e => (.error e, st)
      | .ok (id, st) => (.ok prev, { st with call := some id })

/-- One operation, recorded when it returns. -/
def runOp (st : St) : Op → St
  | .set p =>
    match setTimeout st p with
    | (.ok _, st) => { st with log := st.log ++ [(st.now, .set p)] }
    | (.error _, st) => st
  | .reset =>
    match resetTimeout st with
    | .ok st => { st with log := st.log ++ [(st.now, .reset)] }
    | .error _ => st

/-- `__timedOut` (`timeoutmixin_calllater.py:42-44`), with what `timeoutConnection` does; that of the mixin itself
(`timeoutmixin_calllater.py:47-51`) does nothing to the timeout (the empty script): it asks the transport to lose the connection. -/
def timedOut (script : List Op) (st : St) : St :=
  script.foldl runOp { st with call := none, log := st.log ++ [(st.now, .timeout)] }

/-- The calls of a turn that were due when it began: each is run unless it has been cancelled meanwhile. -/
def runDue (script : Nat → List Op) : List (Nat × Int) → St → St
  | [], st => st
  | c :: cs, st =>
    if st.calls.any (·.1 == c.1) then
      runDue script cs (timedOut (script c.1) { st with calls := st.calls.filter fun d => d.1 != c.1 })
    else runDue script cs st

/-- A turn of the reactor. -/
def turn (script : Nat → List Op) (st : St) : St :=
  runDue script (st.calls.filter fun c => c.2 ≤ st.now) st

/-- A history: time passes, turns happen, operations are called. -/
inductive Step where
  | wait (dt : Nat)
  | turn
  | op (o : Op)
  deriving DecidableEq, Repr

def step (script : Nat → List Op) (st : St) : Step → St
  | .wait dt => { st with now := st.now + dt }
  | .turn => turn script st
  | .op o => runOp st o

def run (script : Nat → List Op) (steps : List Step) (st : St) : St := steps.foldl (step script) st

end Verif.Timeout
