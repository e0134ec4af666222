import Verif.Model.Spewer
import Verif.Model.SpewerArgs
import Verif.Py.Split
/-!
# Model of `epsilon/spewer.py`: tracing a program

The interpreter tells the trace function of `sys.settrace` of the events of a program as CPython does (`Python/sysmodule.c`:
`trace_trampoline`, `call_trampoline`).  The program is the tree of its calls; what else it does is not seen by a tracer.
One thread; the events of generators, `opcode` events and changes of the trace function by the program itself are not modelled.
-/
namespace Verif.SpewerTrace
open Verif.Py
open Verif.Spewer (Local Code Ret TraceRet extractArgs trace)

abbrev Str := List Nat

/-- A frame, as far as the Spewer looks at it. -/
structure Frame where
  name : Str
  code : Code
  locals : Dict Str Local

/-- Events, with the `arg` of the returns and exceptions. -/
inductive Event where
  | call
  | line
  | ret (v : Local)
  | exc (v : Local)
  deriving DecidableEq, Repr

/-- How a call ends: it returns, or an exception leaves it. -/
inductive Leave where
  | ret (v : Local)
  | exc (v : Local)
  deriving DecidableEq, Repr

mutual
/-- What a frame does that a tracer is told of: a line, an exception raised in the frame itself, a call. -/
inductive Act where
  | line
  | raised (v : Local)
  | call (c : Call)
inductive Call where
  | mk (frame : Frame) (body : List Act) (leave : Leave)
end

/-- Python's `None` -/
def pyNone : Local := .obj 0

/-- The `trace_…` methods of a tracer with the state `S`. -/
abbrev Methods (S : Type) := Event → Frame → S → Except PyErr Ret × S

/-- `frame.f_trace`: the tracer's own `trace`, or another function. -/
inductive Fn where
  | self
  | other (n : Nat)
  deriving DecidableEq, Repr

/-- The tracer, whether it is still the trace function of `sys`, and what other functions it returned were told. -/
structure St (S : Type) where
  tracer : S
  tracing : Bool
  others : List (Nat × Event)

/-- `Tracer.trace` (`spewer.py:33-40`) -/
def traceOf {S : Type} (M : Methods S) (ev : Event) (fr : Frame) (s : S) : Except PyErr TraceRet × S :=
  match M ev fr s with
  | (.error e, s) => (.error e, s)
  | (.ok r, s) => (.ok (trace r), s)

/-- `trace_trampoline`: a call is told to the trace function of `sys`, everything else to that of the frame; a result other than `None`
is the trace function of the frame from then on; an exception ends all tracing and is raised in the program. -/
def fire {S : Type} (M : Methods S) (f : Option Fn) (ev : Event) (fr : Frame) (st : St S) : Except PyErr (Option Fn) × St S :=
  match (if ev = .call then some .self else f) with
  | none => (.ok none, st)
  | some (.other n) => (.ok f, { st with others := st.others ++ [(n, ev)] })
  | some .self =>
    match traceOf M ev fr st.tracer with
    | (.error e, s) => (.error e, { st with tracer := s, tracing := false })
    | (.ok .none, s) => (.ok f, { st with tracer := s })
    | (.ok .self, s) => (.ok (some .self), { st with tracer := s })
    | (.ok (.other n), s) => (.ok (some (.other n)), { st with tracer := s })

/-- The `arg` of the return event: `None` if an exception leaves the frame. -/
def Leave.arg : Leave → Local
  | .ret v => v
  | .exc _ => pyNone

/-- how a call ends -/
def Call.leave : Call → Leave
  | .mk _ _ l => l

/-- An exception that leaves a call is also an event of the caller's frame. -/
def afterCall {S : Type} (M : Methods S) (fr : Frame) (f : Option Fn) (l : Leave) (st : St S) : Except PyErr (Option Fn) × St S :=
  match l with
  | .ret _ => (.ok f, st)
  | .exc v => fire M f (.exc v) fr st

mutual
/-- A call.  An error is one raised by the trace function: what the program does then is up to the program. -/
def runCall {S : Type} (M : Methods S) : Call → St S → Except PyErr Unit × St S
  | .mk fr body leave, st =>
    match fire M none .call fr st with
    | (.error e, st) => (.error e, st)
    | (.ok f, st) =>
      match runActs M fr body f st with
      | (.error e, st) => (.error e, st)
      | (.ok f, st) =>
        match fire M f (.ret leave.arg) fr st with
        | (.error e, st) => (.error e, st)
        | (.ok _, st) => (.ok (), st)

/-- The body of a frame with the trace function `f`. -/
def runActs {S : Type} (M : Methods S) (fr : Frame) : List Act → Option Fn → St S → Except PyErr (Option Fn) × St S
  | [], f, st => (.ok f, st)
  | a :: as, f, st =>
    match runAct M fr a f st with
    | (.error e, st) => (.error e, st)
    | (.ok f, st) => runActs M fr as f st

/-- One of the things a frame does. -/
def runAct {S : Type} (M : Methods S) (fr : Frame) : Act → Option Fn → St S → Except PyErr (Option Fn) × St S
  | .line, f, st => fire M f .line fr st
  | .raised v, f, st => fire M f (.exc v) fr st
  | .call c, f, st =>
    match runCall M c st with
    | (.error e, st) => (.error e, st)
    | (.ok _, st) => afterCall M fr f c.leave st
end

/-! ## `Tracer` and `Spewer` -/

/-- `Tracer.trace_CALL` and the others (`spewer.py:42-52`) -/
def tracerMethods (S : Type) : Methods S := fun _ _ s => (.ok .none, s)

/-- What the Spewer asks Python and Twisted. -/
structure World where
  /-- `reflect.safe_repr` -/
  safeRepr : Local → Str
  /-- `reflect.qual(v.__class__)` -/
  qual : Local → Str
  /-- the order of `dict.iteritems` -/
  order : Dict Str Local → List (Str × Local)
  /-- `'%X' % id(threading.currentThread())` -/
  thread : Str
  /-- Python 3 -/
  py3 : Bool

/-- `formatArgs` (`spewer.py:68-69`); the dictionaries of Python 3 have no `iteritems`. -/
def formatArgs (w : World) (args : Dict Str Local) : Except PyErr Str :=
  if w.py3 then .error .attributeError
  else .ok (joinSep [44, 32] ((w.order args).map fun kv => joinSep [61] [kv.1, w.safeRepr kv.2]))

/-- `callDepth`, and the lines printed -/
structure Spew where
  depth : Int
  out : List Str

/-- `'self'` -/
def nSelf : Str := [115, 101, 108, 102]

/-- `n * ' '` -/
def spaces (n : Int) : Str := List.replicate n.toNat 32

/-- `k` (`spewer.py:78-86`) -/
def ofSelf (w : World) (fr : Frame) : Str :=
  match fr.locals.get? nSelf with
  | none => []
  | some v => if v = pyNone then [] else w.qual v ++ [46]

/-- `Spewer.trace_CALL` (`spewer.py:75-93`) -/
def traceCall (w : World) (fr : Frame) (s : Spew) : Except PyErr Ret × Spew :=
  let s := { s with depth := s.depth + 1 }
  match extractArgs fr.code fr.locals with
  | .error e => (.error e, s)
  | .ok args =>
    match formatArgs w args with
    | .error e => (.error e, s)
    | .ok t => (.ok .none, { s with out := s.out ++ [w.thread ++ [32] ++ spaces s.depth ++ ofSelf w fr ++ fr.name ++ [40] ++ t ++ [41]] })

/-- `Spewer.trace_RETURN` (`spewer.py:95-101`) -/
def traceReturn (w : World) (arg : Local) (s : Spew) : Except PyErr Ret × Spew :=
  (.ok .none, ⟨max 0 (s.depth - 1),
    if arg ≠ pyNone then s.out ++ [w.thread ++ [32] ++ spaces s.depth ++ [60, 61, 32] ++ w.safeRepr arg] else s.out⟩)

/-- `Spewer.trace_EXCEPTION` (`spewer.py:103-108`) -/
def traceException (w : World) (arg : Local) (s : Spew) : Except PyErr Ret × Spew :=
  (.ok .none, ⟨max 0 (s.depth - 1), s.out ++ [w.thread ++ [32] ++ spaces s.depth ++ [94, 45, 32] ++ w.safeRepr arg]⟩)

/-- The methods of `Spewer`; `trace_LINE` is inherited (`spewer.py:45-46`). -/
def spewer (w : World) : Methods Spew
  | .call, fr, s => traceCall w fr s
  | .line, fr, s => tracerMethods Spew .line fr s
  | .ret v, _, s => traceReturn w v s
  | .exc v, _, s => traceException w v s

end Verif.SpewerTrace
