import Verif.Py.Core
/-!
# Model of the TLS buffer of juice (`epsilon/juice.py:805-859`)

A box is anything; `serialize` is an arbitrary function that may raise.  The transport is the trace of what was done to
it.  `certificate.options` and `transport.startTLS` do not raise.
-/
namespace Verif.JuiceTls
open Verif.Py

variable {Box : Type}

/-- What the transport sees: a box written, or TLS started. -/
inductive Ev (Box : Type) where
  | write (b : Box)
  | tls
  deriving DecidableEq, Repr

structure St (Box : Type) where
  /-- `_startingTLSBuffer` -/
  buffer : Option (List Box)
  /-- `hostCertificate is not None` -/
  certified : Bool
  /-- `__locked` -/
  locked : Bool
  wire : List (Ev Box)
  /-- log: exceptions raised -/
  raised : List PyErr
  deriving DecidableEq, Repr

def St.new : St Box := ⟨none, false, false, [], []⟩

/-- `sendPacket` (`juice.py:805-818`): whether it returned, and the state. -/
def sendPacket (ser : Box → Option PyErr) (st : St Box) (b : Box) : Bool × St Box :=
  if st.locked then (false, { st with raised := st.raised ++ [.assertionError] })
  else match st.buffer with
    | some l => (true, { st with buffer := some (l ++ [b]) })
    | none =>
      match ser b with
      | some e => (false, { st with raised := st.raised ++ [e] })
      | none => (true, { st with wire := st.wire ++ [.write b] })

/-- `for box in stlsb: self.sendPacket(box)` (`juice.py:850-851`): the first exception ends the loop. -/
def flush (ser : Box → Option PyErr) : St Box → List Box → St Box
  | st, [] => st
  | st, b :: l =>
    match sendPacket ser st b with
    | (true, st) => flush ser st l
    | (false, st) => st

/-- `startTLS` (`juice.py:843-859`). -/
def startTLS (ser : Box → Option PyErr) (st : St Box) : St Box :=
  if st.certified then { st with raised := st.raised ++ [.runtimeError] }
  else
    let st := { st with certified := true, wire := st.wire ++ [Ev.tls] }
    match st.buffer with
    | none => st
    | some l => flush ser { st with buffer := none } l

inductive Op (Box : Type) where
  | send (b : Box)
  /-- `prepareTLS` (`juice.py:840-841`) -/
  | prepare
  | start
  /-- `_lock` (`juice.py:774-780`) -/
  | lock
  /-- `TLSBox.sendTo` (`juice.py:107-114`): send the box, then `startTLS` -/
  | sendTls (b : Box)

def step (ser : Box → Option PyErr) (st : St Box) : Op Box → St Box
  | .send b => (sendPacket ser st b).2
  | .prepare => { st with buffer := some [] }
  | .start => startTLS ser st
  | .lock => { st with locked := true }
  | .sendTls b =>
    match sendPacket ser st b with
    | (true, st) => startTLS ser st
    | (false, st) => st

def run (ser : Box → Option PyErr) (st : St Box) (ops : List (Op Box)) : St Box := ops.foldl (step ser) st

end Verif.JuiceTls
