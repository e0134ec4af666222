import Verif.Model.JuiceRpc
/-!
# Model of two juice peers joined by byte streams (`epsilon/juice.py`, `epsilon/liner.py`)

The parser of `JuiceWire`, the requests and answers of `JuiceRpc`, and `JuiceBox.serialize` put together: each peer writes
serialised boxes, the other receives the bytes in pieces of any size, and each box parsed is given to `juiceBoxReceived`.
While a box is being handled the application may already send commands and answer earlier ones or this one (a handler
that returns a result at once); the reactions are an arbitrary function of what it has seen.

Simplifications, as in `JuiceRpc`: the transport closes only by `BOp.lose` (when an answer cannot be sent `_puke` asks it
to; when that happens is up to the scheduler) or when an exception escapes from `dataReceived`.
-/
namespace Verif.JuiceBytes
open Verif.Py Verif.Juice Verif.JuiceRpc

/-- What an application may do with its own end. -/
inductive Local where
  /-- `sendBoxCommand` -/
  | send (command : Str) (box : Box) (requiresAnswer : Bool)
  /-- the Deferred of pending command `m` fires -/
  | respond (m : Nat) (r : Reply)
  /-- `_lock` -/
  | lock

def Local.at (s : Bool) : Local → Op
  | .send c b ra => .send s c b ra
  | .respond m r => .respond s m r
  | .lock => .lock s

/-- The end `p` acts: its new state, and the boxes it hands to `transport.write`. -/
def act (p : Side) (op : Local) : Side × List Box :=
  let w := step ⟨fun _ => p, fun _ => []⟩ (op.at true)
  (w.side true, w.chan true)

/-- One end, and the bytes it has written that have not yet been received. -/
abbrev Peer := Side × Bytes

/-- `self.transport.write(completeBox.serialize())` (`juice.py:816-818`): what cannot be serialised raises. -/
def emit (a : Peer) (b : Box) : Peer :=
  match serialize b with
  | .ok x => (a.1, a.2 ++ x)
  | .error e => ({ a.1 with raised := a.1.raised ++ [e] }, a.2)

def perform (a : Peer) (op : Local) : Peer := (act a.1 op).2.foldl emit ((act a.1 op).1, a.2)

/-- `juiceBoxReceived` (`juice.py:329-380`, `798-803`) on a parsed box, then what the application does about it.  An
exception it raises is the one it logs.  (After `connectionLost` nothing is received.) -/
def handler (react : Side → Box → List Local) (a : Peer) (box : Box) : Outcome Peer :=
  match a.1.outstanding with
  | none => ⟨a, false, false, some .attributeError⟩
  | some d =>
    let p := juiceBoxReceived a.1 d box
    match p.raised.drop a.1.raised.length with
    | e :: _ => ⟨(p, a.2), false, false, some e⟩
    | [] => ⟨(react p box).foldl perform (p, a.2), false, false, none⟩

/-- Both ends. -/
structure World where
  conn : Bool → St Peer

def World.new : World := ⟨fun _ => St.init (Side.new, [])⟩

def World.set (w : World) (s : Bool) (c : St Peer) : World := ⟨fun b => if b = s then c else w.conn b⟩

/-- The application at `s` acts. -/
def World.act (w : World) (s : Bool) (op : Local) : World :=
  w.set s { w.conn s with app := perform (w.conn s).app op }

/-- `dataReceived` (`juice.py:861-866`, `liner.py:36-63`) at `s` with the next (at most) `n` bytes.  When an exception
escapes from it the transport is closed. -/
def World.receive (U : Uni) (w : World) (s : Bool) (n : Nat) (react : Side → Box → List Local) : World :=
  let c := w.conn s
  let o := w.conn (!s)
  if c.app.1.outstanding = none ∨ c.disconnecting = true ∨ o.app.2.take n = [] then w
  else
    let w := w.set (!s) { o with app := (o.app.1, o.app.2.drop n) }
    match dataReceived U (handler react) c (o.app.2.take n) with
    | (c', none) => w.set s c'
    | (c', some _) => w.set s { c' with disconnecting := true }

/-- `connectionLost` (`juice.py:868-878`). -/
def World.lose (w : World) (s : Bool) (reason : Nat) : World :=
  let c := w.conn s
  w.set s { c with app := ((connectionLost ⟨fun _ => c.app.1, fun _ => []⟩ true reason).side true, c.app.2) }

/-- Everything that can happen. -/
inductive BOp where
  | act (s : Bool) (op : Local)
  | bytes (s : Bool) (n : Nat) (react : Side → Box → List Local)
  | lose (s : Bool) (reason : Nat)

def stepB (U : Uni) (w : World) : BOp → World
  | .act s op => w.act s op
  | .bytes s n react => w.receive U s n react
  | .lose s reason => w.lose s reason

def runB (U : Uni) (ops : List BOp) : World := ops.foldl (stepB U) World.new

end Verif.JuiceBytes
