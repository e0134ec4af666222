import Verif.Py.Num
/-!
# Model of `epsilon/amprouter.py`

Route and receiver objects are identified by numbers; strings are lists of code points; a box is a `dict`
from strings to strings (the router's own view of `IBoxSender`/`IBoxReceiver`; the AMP wire format of
Twisted is not modelled).  Calls the router makes into receivers and into the underlying sender are
recorded as events.  Simplification: receivers do not call back into the router from inside these calls.
-/
namespace Verif.Router
open Verif.Py

abbrev Str := List Nat
/-- A route name: a string, or `None`. -/
abbrev RName := Option Str
abbrev Box := Dict Str Str

/-- `_ROUTE = '_route'` (`amprouter.py:17`). -/
def ROUTE : Str := [95, 114, 111, 117, 116, 101]

/-- `remoteRouteName`: `_unspecified` (`amprouter.py:18`), or a name (possibly `None`). -/
inductive Remote where
  | unspecified
  | to (n : RName)
  deriving DecidableEq, Repr

/-- `Route` (`amprouter.py:29-31`). -/
structure Route where
  receiver : Nat
  localName : RName
  remote : Remote
  deriving DecidableEq, Repr

/-- Observable calls. -/
inductive Event where
  /-- `receiver.startReceivingBoxes(route)` of route object `rid` (`amprouter.py:71-75`) -/
  | start (rid : Nat)
  /-- `receiver.ampBoxReceived(box)` -/
  | deliver (receiver : Nat) (box : Box)
  /-- `receiver.stopReceivingBoxes(reason)` -/
  | stop (receiver : Nat) (reason : Nat)
  /-- `router._sender.sendBox(box)` -/
  | send (box : Box)
  deriving DecidableEq, Repr

/-- `Router` (`amprouter.py:105-131`); `heap` holds every route object it has created. -/
structure Router where
  /-- `_sender is not None` -/
  sender : Bool
  unstarted : Option (Dict RName Nat)
  routes : Option (Dict RName Nat)
  counter : Nat
  heap : List Route
  deriving DecidableEq, Repr

/-- `Router.__init__` (`amprouter.py:126-131`). -/
def Router.new : Router := ⟨false, some [], none, 0, []⟩

/-- `createRouteIdentifier` (`amprouter.py:134-141`). -/
def createRouteIdentifier (r : Router) : Router × Str :=
  ({ r with counter := r.counter + 1 }, natStr r.counter)

/-- Result of an operation: new state, calls made, returned value or exception. -/
abbrev Result (α : Type) := Router × List Event × Except PyErr α

/-- `bindRoute(receiver, routeName)` (`amprouter.py:144-165`); `none` = argument omitted.  Returns the
number of the new route and its `localRouteName`. -/
def bindRoute (r : Router) (receiver : Nat) (routeName : Option RName) : Result (Nat × RName) :=
  let (r, name) := match routeName with
    | none => let (r, i) := createRouteIdentifier r; (r, some i)
    | some n => (r, n)
  let rid := r.heap.length
  let heap := r.heap ++ [⟨receiver, name, .unspecified⟩]
  match r.routes with
  | some m => ({ r with heap, routes := some (Dict.set m name rid) }, [], .ok (rid, name))
  | none =>
    match r.unstarted with
    | some m => ({ r with heap, unstarted := some (Dict.set m name rid) }, [], .ok (rid, name))
    | none => (r, [], .error .typeError)

/-- `Route.connectTo(name)` (`amprouter.py:52-61`). -/
def connectTo (r : Router) (rid : Nat) (name : RName) : Result Unit :=
  match r.heap[rid]? with
  | none => (r, [], .error .attributeError)  -- no such object: not a possible call
  | some route =>
    let r := { r with heap := r.heap.set rid { route with remote := .to name } }
    (r, if r.sender then [.start rid] else [], .ok ())

/-- `Route.unbind()` (`amprouter.py:64-68`). -/
def unbind (r : Router) (rid : Nat) : Result Unit :=
  match r.heap[rid]? with
  | none => (r, [], .error .attributeError)  -- no such object: not a possible call
  | some route =>
    match r.routes with
    | none => (r, [], .error .typeError)
    | some m =>
      if Dict.has m route.localName then
        ({ r with routes := some (Dict.erase m route.localName) }, [], .ok ())
      else (r, [], .error .keyError)

/-- Is the route connected (`remoteRouteName is not _unspecified`)? -/
def isConnected (heap : List Route) (rid : Nat) : Bool :=
  match heap[rid]? with
  | none => false
  | some route => route.remote != .unspecified

/-- `Router.startReceivingBoxes(sender)` (`amprouter.py:168-180`). -/
def startReceivingBoxes (r : Router) : Result Unit :=
  let r := { r with sender := true }
  match r.unstarted with
  | none => (r, [], .error .attributeError)
  | some m =>
    ({ r with routes := some m, unstarted := none },
     ((m.filter fun p => isConnected r.heap p.2).map fun p => .start p.2), .ok ())

/-- `Router.ampBoxReceived(box)` (`amprouter.py:183-189`). -/
def ampBoxReceived (r : Router) (box : Box) : Result Unit :=
  let route := Dict.get? box ROUTE
  let box := Dict.erase box ROUTE
  match r.routes with
  | none => (r, [], .error .typeError)
  | some m =>
    match Dict.get? m route with
    | none => (r, [], .error .keyError)
    | some rid =>
      match r.heap[rid]? with
      | none => (r, [], .error .attributeError)  -- unreachable: tables hold existing routes
      | some ro => (r, [.deliver ro.receiver box], .ok ())

/-- `Router.stopReceivingBoxes(reason)` (`amprouter.py:192-198`). -/
def stopReceivingBoxes (r : Router) (reason : Nat) : Result Unit :=
  match r.routes with
  | none => (r, [], .error .attributeError)
  | some m =>
    ({ r with routes := none },
     m.filterMap (fun p => (r.heap[p.2]?).map fun ro => .stop ro.receiver reason), .ok ())

/-- `Route.sendBox(box)` (`amprouter.py:85-93`). -/
def sendBox (r : Router) (rid : Nat) (box : Box) : Result Unit :=
  match r.heap[rid]? with
  | none => (r, [], .error .attributeError)  -- no such object: not a possible call
  | some route =>
    match route.remote with
    | .unspecified => (r, [], .error (.other "RouteNotConnected"))
    | .to n =>
      let box := match n with
        | none => box
        | some s => Dict.set box ROUTE s
      if r.sender then (r, [.send box], .ok ()) else (r, [], .error .attributeError)

/-- `Route.unhandledError(failure)` (`amprouter.py:96-101`): the failure that `router._sender.unhandledError` is called with; with no
sender yet, `None` has no such attribute. Whether the route is connected or bound does not matter. -/
def unhandledError (r : Router) (failure : Nat) : Except PyErr Nat :=
  if r.sender then .ok failure else .error .attributeError

/-- The operations of the public interface. -/
inductive Op where
  | newId
  | bind (receiver : Nat) (name : Option RName)
  | connect (rid : Nat) (name : RName)
  | unbind (rid : Nat)
  | start
  | receive (box : Box)
  | stop (reason : Nat)
  | send (rid : Nat) (box : Box)
  deriving DecidableEq, Repr

/-- What an operation returned. -/
inductive Ret where
  | unit
  | name (s : Str)
  | route (rid : Nat) (name : RName)
  | raised (e : PyErr)
  deriving DecidableEq, Repr

def retUnit : Except PyErr Unit → Ret
  | .ok _ => .unit
  | .error e => .raised e

/-- Perform one operation; an exception leaves the state as the code left it and is reported. -/
def step (r : Router) : Op → Router × List Event × Ret
  | .newId => let (r, s) := createRouteIdentifier r; (r, [], .name s)
  | .bind rcv n =>
    match bindRoute r rcv n with
    | (r, es, .ok (rid, name)) => (r, es, .route rid name)
    | (r, es, .error e) => (r, es, .raised e)
  | .connect rid n => let (r, es, x) := connectTo r rid n; (r, es, retUnit x)
  | .unbind rid => let (r, es, x) := unbind r rid; (r, es, retUnit x)
  | .start => let (r, es, x) := startReceivingBoxes r; (r, es, retUnit x)
  | .receive box => let (r, es, x) := ampBoxReceived r box; (r, es, retUnit x)
  | .stop reason => let (r, es, x) := stopReceivingBoxes r reason; (r, es, retUnit x)
  | .send rid box => let (r, es, x) := sendBox r rid box; (r, es, retUnit x)

/-- One line of the externally visible history. -/
structure Entry where
  op : Op
  ret : Ret
  events : List Event

/-- Run a history from a given router. -/
def run (r : Router) : List Op → Router × List Entry
  | [] => (r, [])
  | op :: ops =>
    let (r', es, x) := step r op
    let (r'', log) := run r' ops
    (r'', ⟨op, x, es⟩ :: log)

end Verif.Router
