import Verif.Model.Router
/-!
# Model of `epsilon/amprouter.py` with receivers that call back

Receivers' code is arbitrary: whoever runs the machine decides which operations it performs, and when and how it returns.  The
machine has an explicit stack of calls.  A `Router` makes a single dictionary (`amprouter.py:131`), which `_unstarted` and later
`_routes` refer to, so two flags say which of the attributes are not `None`.

The two loops iterate over that dictionary.  CPython raises `RuntimeError` at the next turn if the number of keys is not that at
the beginning; if keys were added and as many removed, what happens depends on the memory layout, and here on whoever runs the
machine.
-/
namespace Verif.Router.Reentry
open Verif.Py

/-- What is seen from outside, in order. -/
inductive Ev where
  /-- `bindRoute` made this route -/
  | bound (rid receiver : Nat) (name : RName)
  | unbound (rid : Nat)
  /-- `connectTo` was called -/
  | connected (rid : Nat)
  /-- `Router.startReceivingBoxes` was called, and returned -/
  | began
  | running
  /-- `Router.stopReceivingBoxes` was called on a running router, and returned -/
  | stopping (reason : Nat)
  | stopped
  /-- the receiver of a route was started: by the loop of the router's start, or by `connectTo` -/
  | start (rid : Nat) (loop : Bool)
  | stop (rid receiver reason : Nat)
  | deliver (receiver : Nat) (box : Box)
  | send (box : Box)
  /-- a receiver raised -/
  | failed (e : PyErr)
  /-- an operation raised -/
  | raised (e : PyErr)
  deriving DecidableEq, Repr

/-- A call on the stack: receivers' code, or one of the loops (that of the start, or that of the stop with its reason), with the
number of keys and the version of the dictionary at the beginning, and the position. -/
inductive Frame where
  | code
  | loop (stop : Option Nat) (used version pos : Nat)
  deriving DecidableEq, Repr

structure St where
  /-- `_sender is not None` -/
  sender : Bool := false
  /-- `_unstarted is not None` -/
  unstarted : Bool := true
  /-- `_routes is not None` -/
  routes : Bool := false
  table : Dict RName Nat := []
  /-- how often a key was added to the table or removed from it -/
  version : Nat := 0
  counter : Nat := 0
  heap : List Route := []
  stack : List Frame := []
  log : List Ev := []
  deriving DecidableEq, Repr

def St.say (s : St) (e : Ev) : St := { s with log := s.log ++ [e] }

/-- `bindRoute` (`amprouter.py:144-165`). -/
def bind (s : St) (receiver : Nat) (routeName : Option RName) : St :=
  let (s, name) := match routeName with
    | none => ({ s with counter := s.counter + 1 }, some (natStr s.counter))
    | some n => (s, n)
  if s.routes || s.unstarted then
    let rid := s.heap.length
    St.say { s with
      heap := s.heap ++ [⟨receiver, name, .unspecified⟩]
      table := Dict.set s.table name rid
      version := if Dict.has s.table name then s.version else s.version + 1 } (.bound rid receiver name)
  else s.say (.raised .typeError)

/-- `Route.connectTo` (`amprouter.py:52-61`) with `Route.start` (`71-75`). -/
def connect (s : St) (rid : Nat) (name : RName) : St :=
  match s.heap[rid]? with
  | none => s  -- no such object: not a possible call
  | some route =>
    let s := St.say { s with heap := s.heap.set rid { route with remote := .to name } } (.connected rid)
    if s.sender then St.say { s with stack := .code :: s.stack } (.start rid false) else s

/-- `Route.unbind` (`amprouter.py:64-68`). -/
def unbind (s : St) (rid : Nat) : St :=
  match s.heap[rid]? with
  | none => s  -- no such object: not a possible call
  | some route =>
    if s.routes then
      if Dict.has s.table route.localName then
        St.say { s with table := Dict.erase s.table route.localName, version := s.version + 1 } (.unbound rid)
      else s.say (.raised .keyError)
    else s.say (.raised .typeError)

/-- `Router.startReceivingBoxes` (`amprouter.py:168-172`) as far as the loop. -/
def begin (s : St) : St :=
  let s := St.say { s with sender := true } .began
  if s.unstarted then { s with stack := .loop none s.table.length s.version 0 :: s.stack }
  else s.say (.raised .attributeError)

/-- `Router.stopReceivingBoxes` (`amprouter.py:192-196`) as far as the loop. -/
def stop (s : St) (reason : Nat) : St :=
  if s.routes then
    St.say { s with stack := .loop (some reason) s.table.length s.version 0 :: s.stack } (.stopping reason)
  else s.say (.raised .attributeError)

/-- `Router.ampBoxReceived` (`amprouter.py:183-189`). -/
def receive (s : St) (box : Box) : St :=
  if s.routes then
    match Dict.get? s.table (Dict.get? box ROUTE) with
    | none => s.say (.raised .keyError)
    | some rid =>
      match s.heap[rid]? with
      | none => s.say (.raised .attributeError)  -- unreachable: the table holds existing routes
      | some ro => St.say { s with stack := .code :: s.stack } (.deliver ro.receiver (Dict.erase box ROUTE))
  else s.say (.raised .typeError)

/-- `Route.sendBox` (`amprouter.py:85-93`).  The sender does not call back. -/
def send (s : St) (rid : Nat) (box : Box) : St :=
  match s.heap[rid]? with
  | none => s  -- no such object: not a possible call
  | some route =>
    match route.remote with
    | .unspecified => s.say (.raised (.other "RouteNotConnected"))
    | .to n =>
      if s.sender then
        s.say (.send (match n with
          | none => box
          | some t => Dict.set box ROUTE t))
      else s.say (.raised .attributeError)

/-- The operations, by whoever is running. -/
def perform (s : St) : Op → St
  | .newId => { s with counter := s.counter + 1 }
  | .bind rcv n => bind s rcv n
  | .connect rid n => connect s rid n
  | .unbind rid => unbind s rid
  | .start => begin s
  | .receive box => receive s box
  | .stop reason => stop s reason
  | .send rid box => send s rid box

/-- The body of a loop for one route (`amprouter.py:173-177`, `Route.stop` `78-82`); the stack has the loop on top. -/
def visit (s : St) (stop : Option Nat) (rid : Nat) : St :=
  match stop with
  | none => if isConnected s.heap rid then St.say { s with stack := .code :: s.stack } (.start rid true) else s
  | some reason =>
    match s.heap[rid]? with
    | none => s  -- unreachable
    | some ro => St.say { s with stack := .code :: s.stack } (.stop rid ro.receiver reason)

/-- After the loop (`amprouter.py:178-180`, `198`). -/
def finish (s : St) (stop : Option Nat) : St :=
  match stop with
  | none => St.say { s with routes := s.unstarted, unstarted := false } .running
  | some _ => St.say { s with routes := false } .stopped

/-- What the iterator yields: the body of the loop, or its end. -/
def next (s : St) (stop : Option Nat) (used version pos : Nat) (below : List Frame) : Option (RName × Nat) → St
  | none => finish { s with stack := below } stop
  | some item => visit { s with stack := .loop stop used version (pos + 1) :: below } stop item.2

/-- One turn of the loop on top of the stack `.loop stop used version pos :: below`.  If the keys were changed but not their number,
`choice` says what the iterator does: raise, end, or yield the item at some place. -/
def turn (s : St) (choice : Option (Option Nat)) (stop : Option Nat) (used version pos : Nat) (below : List Frame) : St :=
  if s.table.length ≠ used then St.say { s with stack := below } (.raised .runtimeError)
  else if s.version = version then next s stop used version pos below s.table[pos]?
  else match choice with
    | none => St.say { s with stack := below } (.raised .runtimeError)
    | some none => next s stop used version pos below none
    | some (some j) => next s stop used version pos below (if pos < used then s.table[j]? else none)

/-- What can happen: running code performs an operation, a receiver returns or raises, a loop goes on. -/
inductive Input where
  | op (o : Op)
  | ret
  | raise (e : PyErr)
  | go (choice : Option (Option Nat))
  deriving DecidableEq, Repr

/-- One step; what is not possible changes nothing.  An exception of a receiver ends the loop that called it, if it was a loop; then
it is up to the code that performed the operation what becomes of it. -/
def step (s : St) : Input → St
  | .op o =>
    match s.stack with
    | .loop .. :: _ => s
    | _ => perform s o
  | .ret =>
    match s.stack with
    | .code :: below => { s with stack := below }
    | _ => s
  | .raise e =>
    match s.stack with
    | .code :: .loop .. :: below => St.say (St.say { s with stack := below } (.failed e)) (.raised e)
    | .code :: below => St.say (St.say { s with stack := below } (.failed e)) (.raised e)
    | _ => s
  | .go choice =>
    match s.stack with
    | .loop stop used version pos :: below => turn s choice stop used version pos below
    | _ => s

def exec (s : St) (is : List Input) : St := is.foldl step s

end Verif.Router.Reentry
