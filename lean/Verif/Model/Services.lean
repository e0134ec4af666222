import Verif.Py.Core
/-!
# Model of the services of `epsilon/cooperator.py` and `epsilon/process.py`

Of Twisted: `Service.startService` sets `running = 1`, `Service.stopService` sets `running = 0`, and a new service has `running = 0`. What a `Cooperator` or a `StandardIO` does is not modelled, only what is asked
of it; nothing raises.
-/
namespace Verif.Services
open Verif.Py

/-- What is asked of the objects the services use. -/
inductive Event where
  /-- `self.coop.start()` -/
  | coopStart
  /-- `self.coop.stop()` -/
  | coopStop
  /-- `self.coop.coiterate(iterator)` -/
  | coiterate (iterator : Nat)
  /-- `coiterate(i)` of Twisted: the global cooperator -/
  | globalCoiterate (iterator : Nat)
  /-- `StandardIO(self.protocol)` -/
  | stdio (protocol : Nat)
  deriving DecidableEq, Repr

inductive Kind where
  /-- A `SchedulingService` -/
  | scheduling
  /-- A `StandardIOService` with its protocol -/
  | standardIO (protocol : Nat)
  /-- A service that overrides neither method -/
  | plain
  deriving DecidableEq, Repr

/-- A service, with what it has asked for. -/
structure Service where
  kind : Kind
  running : Bool
  log : List Event
  deriving DecidableEq, Repr

/-- `SchedulingService.__init__` (`cooperator.py:18-19`): the `Cooperator` is made with `started=False`, and nothing is asked of it;
`StandardIOService` has the `__init__` of `record`. -/
def new (k : Kind) : Service := ⟨k, false, []⟩

/-- `SchedulingService.startService` (`cooperator.py:24-25`) and `StandardIOService.startService` (`process.py:63-67`): neither calls the
method it overrides. -/
def startService (s : Service) : Service :=
  match s.kind with
  | .scheduling => { s with log := s.log ++ [.coopStart] }
  | .standardIO p => { s with log := s.log ++ [.stdio p] }
  | .plain => { s with running := true }

/-- `SchedulingService.stopService` (`cooperator.py:27-28`); a `StandardIOService` has Twisted's. -/
def stopService (s : Service) : Service :=
  match s.kind with
  | .scheduling => { s with log := s.log ++ [.coopStop] }
  | _ => { s with running := false }

/-- `SchedulingService.addIterator` (`cooperator.py:21-22`). -/
def addIterator (s : Service) (i : Nat) : Except PyErr Service :=
  match s.kind with
  | .scheduling => .ok { s with log := s.log ++ [.coiterate i] }
  | _ => .error .attributeError

/-- `iterateInReactor` (`cooperator.py:5-11`): the delay is not used. -/
def iterateInReactor (i : Nat) (_delay : Option Nat) : List Event := [.globalCoiterate i]

/-- Uses of a service. -/
inductive Op where
  | start
  | stop
  | add (iterator : Nat)
  deriving DecidableEq, Repr

def step (s : Service) : Op → Except PyErr Service
  | .start => .ok (startService s)
  | .stop => .ok (stopService s)
  | .add i => addIterator s i

def run : Service → List Op → Except PyErr Service
  | s, [] => .ok s
  | s, o :: os =>
    match step s o with
    | .ok s' => run s' os
    | .error e => .error e

end Verif.Services
