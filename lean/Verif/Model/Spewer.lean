import Verif.Py.Core
/-!
# Model of `/repo/epsilon/spewer.py`
-/
namespace Verif.Spewer
open Verif.Py

/-! ## `SignalService` -/

/-- What happens when a signal arrives: a Python function is called, the default, nothing, or something that was not
installed from Python. -/
inductive Handler
  | fn (n : Nat)
  | dfl
  | ign
  | foreign
  deriving DecidableEq, Repr

/-- A value given to `signal.signal` or returned by it. -/
inductive Val
  | fn (n : Nat)
  | dfl
  | ign
  | none
  deriving DecidableEq, Repr

/-- What a value means as a handler; `None` is none. -/
def Val.handler : Val → Option Handler
  | .fn n => some (.fn n)
  | .dfl => some .dfl
  | .ign => some .ign
  | .none => Option.none

/-- What `signal.signal` returns for the previous handler. -/
def Handler.val : Handler → Val
  | .fn n => .fn n
  | .dfl => .dfl
  | .ign => .ign
  | .foreign => .none

/-- Handlers by signal number. -/
abbrev Table := Nat → Handler

/-- `signal.signal(sig, value)`: `refuse` gives the error for numbers that are not signals or cannot be handled; a value
that is neither callable nor `SIG_DFL` nor `SIG_IGN` (here: `None`) is a `TypeError`. -/
def signal (refuse : Nat → Option PyErr) (t : Table) (sig : Nat) (v : Val) : Except PyErr (Table × Val) :=
  match refuse sig with
  | some e => .error e
  | none =>
    match v.handler with
    | none => .error .typeError
    | some h => .ok (fun s => if s = sig then h else t s, (t sig).val)

/-- The process's handlers and a `SignalService` (`__init__`, `spewer.py:112-113`, keeps `sigmap`); `old` is `oldsigmap`, `none` when there
is no such attribute. -/
structure State where
  table : Table
  sigmap : Dict Nat Val
  old : Option (Dict Nat Val)
  running : Bool

/-- The loop of `startService` (`spewer.py:118-119`), with the table and `oldsigmap` so far. -/
def startLoop (refuse : Nat → Option PyErr) : List (Nat × Val) → Table → Dict Nat Val → Table × Dict Nat Val × Option PyErr
  | [], t, o => (t, o, none)
  | (sig, v) :: r, t, o =>
    match signal refuse t sig v with
    | .error e => (t, o, some e)
    | .ok (t', w) => startLoop refuse r t' (o.set sig w)

/-- `startService` (`spewer.py:115-119`). -/
def startService (refuse : Nat → Option PyErr) (s : State) : State × Option PyErr :=
  match startLoop refuse s.sigmap s.table [] with
  | (t, o, e) => ({ s with table := t, old := some o, running := true }, e)

/-- The loop of `stopService` (`spewer.py:122-123`). -/
def stopLoop (refuse : Nat → Option PyErr) : List (Nat × Val) → Table → Table × Option PyErr
  | [], t => (t, none)
  | (sig, v) :: r, t =>
    match signal refuse t sig v with
    | .error e => (t, some e)
    | .ok (t', _) => stopLoop refuse r t'

/-- `stopService` (`spewer.py:121-125`). -/
def stopService (refuse : Nat → Option PyErr) (s : State) : State × Option PyErr :=
  match s.old with
  | none => (s, some .attributeError)
  | some o =>
    match stopLoop refuse o s.table with
    | (t, some e) => ({ s with table := t }, some e)
    | (t, none) => ({ s with table := t, old := none, running := false }, none)

/-! ## `Tracer` and `Spewer` -/

/-- A tracer and the trace functions of `sys` and `threading`: is it this tracer's `trace`? -/
structure Tracing where
  installed : Bool
  sys : Bool
  threading : Bool
  deriving DecidableEq, Repr

/-- `install` (`spewer.py:17-20`). -/
def install (_ : Tracing) : Tracing × Option PyErr := (⟨true, true, true⟩, none)

/-- `uninstall` (`spewer.py:22-25`): there is no `threading.setttrace`. -/
def uninstall (t : Tracing) : Tracing × Option PyErr := (⟨false, false, t.threading⟩, some .attributeError)

/-- `toggle` (`spewer.py:27-31`). -/
def toggle (t : Tracing) : Tracing × Option PyErr := if t.installed then uninstall t else install t

/-- What a `trace_…` method returns: `skip`, `None`, or something else. -/
inductive Ret
  | skip
  | none
  | other (n : Nat)
  deriving DecidableEq, Repr

/-- What `trace` returns: `None`, itself, or what the method returned (`spewer.py:33-40`). -/
inductive TraceRet
  | none
  | self
  | other (n : Nat)
  deriving DecidableEq, Repr

def trace : Ret → TraceRet
  | .skip => .none
  | .none => .self
  | .other n => .other n

/-- The events a trace function is told of. -/
inductive Event
  | call
  | line
  | ret
  | exc
  deriving DecidableEq, Repr

/-- `callDepth` after an event (`spewer.py:76,101,108`). -/
def depth (d : Int) : Event → Int
  | .call => d + 1
  | .line => d
  | .ret => max 0 (d - 1)
  | .exc => max 0 (d - 1)

/-- The indentation with which an event is printed (`spewer.py:88-93,96-100,104-107`): calls after counting themselves,
the others before. -/
def indent (d : Int) : Event → Option Int
  | .call => some (d + 1)
  | .line => none
  | .ret => some d
  | .exc => some d

end Verif.Spewer
