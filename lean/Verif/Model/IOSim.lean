import Verif.Py.Core
/-!
# Model of the simulated network `epsilon/test/iosim.py`, `epsilon/test/utils.py`

Two protocols, the client (`false`) and the server (`true`), with arbitrary code: what they do with their transports is up to
whoever runs the machine, and may happen at any moment, in particular inside every call that `IOPump.pump` makes to them.  The
machine goes through `pump` from call to call.  On Python 3; the wrappers are `FileWrapper`s and the files `BytesIO`s.
-/
namespace Verif.IOSim
open Verif.Py

abbrev Bytes := List Nat
/-- The client is `false`, the server is `true`. -/
abbrev Side := Bool

/-- What is seen, in order. -/
inductive Ev where
  /-- the protocol wrote to its transport, or asked it to close -/
  | wrote (x : Side) (d : Bytes)
  | lose (x : Side)
  /-- the protocol's `dataReceived`, `connectionLost`, and its producer's `resumeProducing` were called -/
  | received (x : Side) (d : Bytes)
  | lost (x : Side)
  | resumed (x : Side)
  /-- `pump` began to move data -/
  | pumping
  /-- `pump` and `flush` returned -/
  | pumped (moved : Bool)
  | flushed (moved : Bool)
  /-- an exception came out of what was going on -/
  | raised (e : PyErr)
  deriving DecidableEq, Repr

/-- `FileWrapper` (`utils.py:8-22`) with its file.  Writing goes to the end of the file: `readAndDestroy` leaves it empty. -/
structure Tr where
  file : Bytes := []
  disconnecting : Bool := false
  disconnected : Bool := false
  producer : Bool := false
  deriving DecidableEq, Repr

/-- Where `pump` is, with the data it has read (`sData` and `cData`): before each of the calls it may make, or in the last. -/
inductive Pc where
  | idle
  | clientProducer (s c : Bytes)
  | serverProducer (s c : Bytes)
  | toServer (s c : Bytes)
  | toClient (s c : Bytes)
  | decide (s c : Bytes)
  | last
  deriving DecidableEq, Repr

structure St where
  client : Tr := {}
  server : Tr := {}
  pc : Pc := .idle
  /-- `flush`: the rounds that remain after this one, and `result` -/
  flush : Option (Nat × Bool) := none
  debug : Bool := false
  log : List Ev := []
  deriving DecidableEq, Repr

def St.say (s : St) (e : Ev) : St := { s with log := s.log ++ [e] }
def St.tr (s : St) (x : Side) : Tr := if x then s.server else s.client
def St.setTr (s : St) (x : Side) (t : Tr) : St := if x then { s with server := t } else { s with client := t }

/-- What a protocol can do to its transport. -/
inductive Action where
  | write (d : Bytes)
  | writeSequence (l : List Bytes)
  | loseConnection
  | registerProducer (streaming : Bool)
  | unregisterProducer
  | stopConsuming
  deriving DecidableEq, Repr

/-- `FileWrapper` (`utils.py:24-62`).  `writeSequence` joins the pieces with a `str`: a `TypeError`, or for no pieces an empty
`str`, which the file refuses with an exception that `write` catches. -/
def act (s : St) (x : Side) : Action → St
  | .write d => (s.setTr x { s.tr x with file := (s.tr x).file ++ d }).say (.wrote x d)
  | .writeSequence l => if l = [] then s else s.say (.raised .typeError)
  | .loseConnection => (s.setTr x { s.tr x with disconnecting := true }).say (.lose x)
  | .registerProducer streaming =>
    let s := s.setTr x { s.tr x with producer := true }
    if streaming then s else s.say (.resumed x)
  | .unregisterProducer => s.setTr x { s.tr x with producer := false }
  | .stopConsuming => (s.setTr x { s.tr x with producer := false, disconnecting := true }).say (.lose x)

/-- The beginning of `pump` (`iosim.py:53-60`): `readAndDestroy` of both files (`12-22`). -/
def start (s : St) : St :=
  St.say { s with
    pc := .clientProducer s.server.file s.client.file
    server := { s.server with file := [] }
    client := { s.client with file := [] } } .pumping

/-- `pump` returns (`iosim.py:75-92`), and `flush` (`37-50`) with it, if it was called from there. -/
def finish (s : St) (moved : Bool) : St :=
  let s := St.say { s with pc := .idle } (.pumped moved)
  match s.flush with
  | none => s
  | some (n, result) =>
    if moved then
      match n with
      | 0 => St.say { s with flush := none } (.raised .assertionError)
      | n + 1 => start { s with flush := some (n, true) }
    else St.say { s with flush := none } (.flushed result)

/-- An exception leaves `pump` and `flush`. -/
def abort (s : St) (e : PyErr) : St := St.say { s with pc := .idle, flush := none } (.raised e)

/-- `FileWrapper._checkProducer` (`utils.py:31-35`). -/
def checkProducer (s : St) (x : Side) : St := if (s.tr x).producer then s.say (.resumed x) else s

/-- The other side is told that `x` has closed the connection (`iosim.py:77-91`). -/
def disconnect (s : St) (x : Side) : St :=
  let s := s.setTr x { s.tr x with disconnected := true }
  let s := s.setTr (!x) { s.tr (!x) with disconnecting := true }
  St.say { s with pc := .last } (.lost (!x))

/-- On to the next call of `pump` (`iosim.py:59-92`).  With `debug` it prints the data, adding `bytes` to a `str`. -/
def go (s : St) : St :=
  match s.pc with
  | .idle => s
  | .clientProducer sd cd => checkProducer { s with pc := .serverProducer sd cd } false
  | .serverProducer sd cd => checkProducer { s with pc := .toServer sd cd } true
  | .toServer sd cd =>
    if s.debug && (cd ≠ [] || sd ≠ []) then abort s .typeError
    else
      let s := { s with pc := .toClient sd cd }
      if cd ≠ [] then s.say (.received true cd) else s
  | .toClient sd cd =>
    let s := { s with pc := .decide sd cd }
    if sd ≠ [] then s.say (.received false sd) else s
  | .decide sd cd =>
    if cd ≠ [] || sd ≠ [] then finish s true
    else if s.server.disconnecting && !s.server.disconnected then disconnect s true
    else if s.client.disconnecting && !s.client.disconnected then disconnect s false
    else finish s false
  | .last => finish s true

inductive Input where
  | act (x : Side) (a : Action)
  /-- someone calls `pump()` -/
  | pump
  /-- someone calls `flush()` -/
  | flush
  | go
  /-- the call that is going on raises -/
  | raise (e : PyErr)
  deriving DecidableEq, Repr

/-- One step; what is not possible changes nothing.  Nobody pumps inside a pump. -/
def step (s : St) : Input → St
  | .act x a => act s x a
  | .pump => if s.pc = .idle then start s else s
  | .flush => if s.pc = .idle then start { s with flush := some (999, false) } else s
  | .go => go s
  | .raise e => if s.pc = .idle then s else abort s e

def exec (s : St) (is : List Input) : St := is.foldl step s

end Verif.IOSim
