import Verif.Py.Core
/-!
# Model of `epsilon/hotfixes/loopbackasync_reentrancy.py`

`install` (lines 24-26) replaces `_loopbackAsyncContinue` in `twisted.protocols.loopback`.  What it does there can only be seen
together with the two functions of Twisted it works with, `_LoopbackQueue.put` and `_loopbackAsyncBody`; these are not in
/repo, and are modelled from Twisted's source (8.2) as they are known: they are trusted.  Producers (`_pollProducer`) are left
out.

Protocol code is arbitrary: each call of it (`makeConnection`, `dataReceived`, `connectionLost`, or something that the reactor
calls) is a list of actions, chosen anew for each call by whoever runs the machine.  The machine has an explicit stack of calls,
so that re-entrance can be talked about, and runs one action or one turn of a loop at a time.
-/
namespace Verif.Loopback

inductive Side where
  | server | client
  deriving DecidableEq, Repr

def Side.other : Side → Side
  | server => client
  | client => server

/-- What protocol code does with its transport: `write(data)`, `loseConnection()`. -/
inductive Act where
  | write (data : List Nat) | lose
  deriving DecidableEq, Repr

/-- `_LoopbackQueue`: what waits (`None` is put by `loseConnection`), the flag `disconnect`, and `_notificationDeferred`. -/
structure Queue where
  items : List (Option (List Nat)) := []
  disconnect : Bool := false
  notification : Option Nat := none
  deriving DecidableEq, Repr

/-- Where `loopbackAsync` and `_loopbackAsyncBody` are.  `pump s` delivers what `s` wrote; `flush s` does so once more since `s`
wants to disconnect. -/
inductive Pc where
  | connect (s : Side) | pump (s : Side) | test | flush (s : Side) | lost (s : Side) | done
  deriving DecidableEq, Repr

/-- A call on the stack: protocol code of a side with what is left to do, or the body of the loop (with whether something was
delivered in this turn). -/
inductive Frame where
  | app (who : Side) (todo : List Act)
  | body (pc : Pc) (sent : Bool)
  deriving DecidableEq, Repr

/-- What is seen from outside: a side wrote, asked for the end of the connection, received data, lost the connection; or a
Deferred was fired twice (`AlreadyCalledError`). -/
inductive Ev where
  | wrote (s : Side) (data : List Nat) | closing (s : Side) | recv (s : Side) (data : List Nat) | lost (s : Side) | alreadyCalled
  deriving DecidableEq, Repr

structure St where
  q : Side → Queue := fun _ => {}
  /-- Deferreds that were fired; all made so far are below `next`. -/
  fired : List Nat := []
  next : Nat := 0
  /-- Calls of `_loopbackAsyncBody` that the reactor is to make (`deferLater`). -/
  scheduled : Nat := 0
  stack : List Frame := [.body (.connect .server) false]
  log : List Ev := []

def St.setQ (s : St) (w : Side) (q : Queue) : St := { s with q := fun x => if x = w then q else s.q x }

/-- `_loopbackAsyncContinue` (`hotfixes/loopbackasync_reentrancy.py:9-21`): both queues lose their Deferred, and the reactor is
asked to go on. -/
def «continue» (s : St) : St :=
  { s with
    q := fun x => { s.q x with notification := none }
    scheduled := s.scheduled + 1 }

/-- `d.callback(None)` for the notification Deferred: its only callback is `_loopbackAsyncContinue`. -/
def fire (d : Nat) (s : St) : St :=
  if d ∈ s.fired then { s with log := s.log ++ [.alreadyCalled] }
  else «continue» { s with fired := d :: s.fired }

/-- `_LoopbackQueue.put` (Twisted). -/
def put (w : Side) (v : Option (List Nat)) (s : St) : St :=
  let q := s.q w
  let q' := { q with items := q.items ++ [v], notification := none }
  match q.notification with
  | none => s.setQ w q'
  | some d => fire d (s.setQ w q')

/-- `_LoopbackTransport.write` and `loseConnection` (Twisted). -/
def perform (w : Side) (a : Act) (s : St) : St :=
  match a with
  | .write d => put w (some d) { s with log := s.log ++ [.wrote w d] }
  | .lose => put w none { s.setQ w { s.q w with disconnect := true } with log := s.log ++ [.closing w] }

/-- One turn of `pump(source, q, target)`: deliver the first item (an empty one, or `None`, is only removed). -/
def deliver (w : Side) (v : Option (List Nat)) (rest : List (Option (List Nat))) (acts : List Act) (s : St) : St :=
  let s := s.setQ w { s.q w with items := rest }
  match v with
  | none | some [] => s
  | some (c :: d) =>
    { s with
      log := s.log ++ [.recv w.other (c :: d)]
      stack := .app w.other acts :: s.stack }

/-- One step of the body (Twisted's `loopbackAsync` and `_loopbackAsyncBody`); `below` is the rest of the stack, and `acts` what
the protocol code does if it is called in this step. -/
def bodyStep (acts : List Act) (pc : Pc) (sent : Bool) (below : List Frame) (s : St) : St :=
  match pc with
  | .connect w =>
    { s with stack := .app w acts ::
        .body (match w with | .server => .connect .client | .client => .pump .server) false :: below }
  | .pump w =>
    match (s.q w).items with
    | v :: rest => deliver w v rest acts { s with stack := .body (.pump w) true :: below }
    | [] => { s with stack := .body (match w with | .server => .pump .client | .client => .test) sent :: below }
  | .test =>
    if sent then
      if (s.q .server).disconnect then { s with stack := .body (.flush .server) sent :: below }
      else if (s.q .client).disconnect then { s with stack := .body (.flush .client) sent :: below }
      else { s with stack := .body (.pump .server) false :: below }
    else
      { s with
        q := fun x => { s.q x with notification := some s.next }
        next := s.next + 1
        stack := below }
  | .flush w =>
    match (s.q w).items with
    | v :: rest => deliver w v rest acts { s with stack := .body (.flush w) sent :: below }
    | [] => { s with stack := .body (.lost .server) sent :: below }
  | .lost w =>
    { s with
      log := s.log ++ [.lost w]
      stack := .app w acts :: .body (match w with | .server => .lost .client | .client => .done) sent :: below }
  | .done => { s with stack := below }

/-- What can happen: the code on the stack goes on; or, when nothing is running, the reactor calls the body (`run`) or some
protocol code (`call`). -/
inductive Input where
  | step (acts : List Act)
  | run
  | call (who : Side) (acts : List Act)
  deriving DecidableEq, Repr

/-- The machine runs. -/
def next (s : St) : Input → St
  | .step acts =>
    match s.stack with
    | [] => s
    | .app _ [] :: below => { s with stack := below }
    | .app w (a :: todo) :: below => perform w a { s with stack := .app w todo :: below }
    | .body pc sent :: below => bodyStep acts pc sent below s
  | .run =>
    if s.stack = [] ∧ 0 < s.scheduled then
      { s with scheduled := s.scheduled - 1, stack := [.body (.pump .server) false] }
    else s
  | .call w acts => if s.stack = [] then { s with stack := [.app w acts] } else s

/-- A run of `loopbackAsync(server, client)`. -/
def exec (is : List Input) : St := is.foldl next {}

end Verif.Loopback
