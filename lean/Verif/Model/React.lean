import Verif.Py.Core
/-!
# Model of `epsilon/react.py`

The reactor is Twisted's `ReactorBase`, reduced to what `react` uses: `stop()` raises `ReactorNotRunning` unless the
reactor has been started and not yet been stopped; after `stop()` the loop goes on to its end and then fires the
`shutdown` event, whose `before` triggers come first; `callWhenRunning` runs its argument at once after the start, and
else queues it.  The application's doings are events that can happen at any time.
-/
namespace Verif.React
open Verif.Py

inductive Phase where
  /-- not yet running -/
  | created
  | running
  /-- `stop()` has been called; the `shutdown` event has not reached `react`'s trigger -/
  | stopRequested
  /-- `react`'s `before` trigger has run -/
  | shuttingDown
  | done
  deriving DecidableEq, Repr

/-- What `callWhenRunning` has queued. -/
inductive Queued where
  | reactStop
  | appStop
  | appFire (ok : Bool)
  deriving DecidableEq, Repr

structure St where
  phase : Phase
  queue : List Queued
  /-- `stopping` -/
  stopping : Bool
  /-- `main`'s Deferred has fired, with success or failure -/
  fired : Option Bool
  /-- the errors logged by `err` -/
  logged : Nat
  /-- in which phase `react`'s `reactor.stop` was called -/
  stops : List Phase
  deriving DecidableEq, Repr

/-- `reactor.stop` as called on behalf of `react`; in the wrong phase it raises, which stays in the Deferred or in the
event trigger. -/
def reactStop (st : St) : St :=
  { st with
    phase := if st.phase = .running then .stopRequested else st.phase
    stops := st.stops ++ [st.phase] }

/-- `reactor.callWhenRunning(reactor.stop)` (`react.py:31`) -/
def callStopWhenRunning (st : St) : St :=
  if st.phase = .created then { st with queue := st.queue ++ [.reactStop] } else reactStop st

/-- The Deferred fires: `err` logs a failure and turns it into a success (`react.py:28`), then `cbFinish`
(`react.py:29-32`).  A second firing raises `AlreadyCalledError` and does nothing. -/
def fireD (ok : Bool) (st : St) : St :=
  if st.fired.isSome then st
  else
    let st := { st with fired := some ok, logged := if ok then st.logged else st.logged + 1 }
    if st.stopping then st else callStopWhenRunning st

/-- The application calls `reactor.stop()`. -/
def appStop (st : St) : St := if st.phase = .running then { st with phase := .stopRequested } else st

def runQueued (q : Queued) (st : St) : St :=
  match q with
  | .reactStop => reactStop st
  | .appStop => appStop st
  | .appFire ok => fireD ok st

/-- What can happen. -/
inductive Ev where
  /-- the application queues something with `callWhenRunning`, or it runs at once -/
  | appWhenRunning (q : Queued)
  | appStop
  | appFire (ok : Bool)
  /-- `reactor.run()` starts the reactor -/
  | start
  /-- the `shutdown` event gets to the trigger `stopping.append` (`react.py:26`) -/
  | beginShutdown
  | finish
  deriving DecidableEq, Repr

def step (st : St) : Ev → St
  | .appWhenRunning q =>
    if q = .reactStop then st
    else if st.phase = .created then { st with queue := st.queue ++ [q] } else runQueued q st
  | .appStop => appStop st
  | .appFire ok => fireD ok st
  | .start =>
    if st.phase = .created then st.queue.foldl (fun st q => runQueued q st) { st with phase := .running, queue := [] }
    else st
  | .beginShutdown => if st.phase = .stopRequested then { st with phase := .shuttingDown, stopping := true } else st
  | .finish => if st.phase = .shuttingDown then { st with phase := .done } else st

/-- The state when `react` has added its trigger. -/
def begin : St := ⟨.created, [], false, none, 0, []⟩

def run (es : List Ev) : St := es.foldl step begin

end Verif.React
