import Verif.Model.JuiceDispatch
/-!
# Model of version negotiation between two connected peers (`epsilon/juice.py`)

The boxes of `Negotiate` commands between two `Juice` peers, with the version each peer has set.  That boxes arrive as sent,
in order, and that an answer reaches the request it answers is C94 and C95; the answer chosen is `negotiateLoop` of C35.
`command_NEGOTIATE` returns at once, so the answer is sent while the request is being received.  Simplifications: other
boxes do not touch the version and are left out.  A peer that answers `error` then drops the connection; the model lets
both go on, so its histories include those in which nothing more is delivered, with what was not delivered left in flight.
-/
namespace Verif.Renegotiate
open Verif.Py Verif.JuiceArgs Verif.JuiceDispatch

inductive Msg where
  /-- the request `n`, offering one version -/
  | request (n : Nat) (version : Int)
  | answer (n : Nat) (version : Int)
  /-- `UNHANDLED`: the peer does not have the version -/
  | error (n : Nat)
  deriving DecidableEq, Repr

structure Side where
  /-- `protocolVersion` (`juice.py:920`) -/
  version : Int
  /-- how many requests were sent -/
  count : Nat
  /-- log: the requests and the versions they asked for -/
  asked : List (Nat × Int)
  /-- log: the Deferreds that fired; `none` is a failure -/
  fired : List (Nat × Option Int)
  /-- log: the calls that raised `AssertionError` -/
  refused : Nat
  deriving DecidableEq, Repr

/-- Both peers; `chan s` holds what `s` has written and its peer has not received. -/
structure World where
  side : Bool → Side
  chan : Bool → List Msg

def World.new : World := ⟨fun _ => ⟨0, 0, [], [], 0⟩, fun _ => []⟩

def World.put (w : World) (s : Bool) (p : Side) (out : List Msg) : World :=
  ⟨fun b => if b = s then p else w.side b, fun b => if b = s then w.chan b ++ out else w.chan b⟩

/-- `renegotiateVersion` (`juice.py:928-935`); `V` is `VERSIONS` at this end. -/
def renegotiate (V : List Int) (w : World) (s : Bool) (v : Int) : World :=
  let p := w.side s
  if v ∈ V then
    w.put s { p with count := p.count + 1, asked := p.asked ++ [(p.count, v)] } [.request p.count v]
  else w.put s { p with refused := p.refused + 1 } []

/-- A message is received: `command_NEGOTIATE` (`juice.py:937-942`) and `NegotiateBox.sendTo` (`146-149`), which sends the
answer and then sets the version; or the callback of `renegotiateVersion` (`935`), `_setProtocolVersion` (`922-926`). -/
def received (V : List Int) (w : World) (s : Bool) : Msg → World
  | .request n v =>
    match negotiateLoop V [.int v] with
    | some (.int u) => w.put s { w.side s with version := u } [.answer n u]
    | _ => w.put s (w.side s) [.error n]
  | .answer n u => w.put s { w.side s with version := u, fired := (w.side s).fired ++ [(n, some u)] } []
  | .error n => w.put s { w.side s with fired := (w.side s).fired ++ [(n, none)] } []

def deliver (V : Bool → List Int) (w : World) (s : Bool) : World :=
  match w.chan (!s) with
  | [] => w
  | m :: rest => received (V s) { w with chan := fun b => if b = !s then rest else w.chan b } s m

inductive Op where
  | renegotiate (s : Bool) (v : Int)
  | deliver (s : Bool)

def step (V : Bool → List Int) (w : World) : Op → World
  | .renegotiate s v => renegotiate (V s) w s v
  | .deliver s => deliver V w s

def run (V : Bool → List Int) (ops : List Op) : World := ops.foldl (step V) World.new

end Verif.Renegotiate
