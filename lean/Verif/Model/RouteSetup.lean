import Verif.Model.Router
/-!
# Model of the documented way to set routes up: `doc/listings/amp/route_setup.py`

Two routers (`epsilon/amprouter.py`), one at each end of an AMP connection.  At each end the AMP protocol itself is bound
to the default route; new routes are agreed on with the `NewRoute` command.

Simplifications:
* Twisted's AMP is represented by what it does with these boxes: `callRemote` numbers its requests and sends a box with
  `_command` and `_ask`, a responder's result is sent back with `_answer`, and the answer fires the Deferred of that number.
  The number is written in decimal (Twisted: hexadecimal).  The wire carries boxes unchanged, in order (TCP).
* Every route has a receiver of its own, known by the number of the route; number 0 is the AMP protocol.
* A receiver may send any boxes through its route from inside `startReceivingBoxes` (`burst`) or at any later time, and
  raises nothing.
* `factory.routeProtocol()` does not raise, so a request is always answered; the Deferred of `connect` fails only when the
  connection is lost.
-/
namespace Verif.RouteSetup
open Verif.Py Verif.Router

/-- `_command`, a key of Twisted's AMP. -/
def COMMAND : Str := [95, 99, 111, 109, 109, 97, 110, 100]
/-- `_ask`, a key of Twisted's AMP. -/
def ASK : Str := [95, 97, 115, 107]
/-- `_answer`, a key of Twisted's AMP. -/
def ANSWER : Str := [95, 97, 110, 115, 119, 101, 114]
/-- `name`, the argument and the response of `NewRoute` (`route_setup.py:12-13`). -/
def NAME : Str := [110, 97, 109, 101]
/-- The name of the command `NewRoute` (`route_setup.py:11`). -/
def NEWROUTE : Str := [78, 101, 119, 82, 111, 117, 116, 101]

inductive Side where
  | client | server
  deriving DecidableEq, Repr

/-- What can be seen. -/
inductive Ev where
  /-- `route.sendBox(box)` returned -/
  | sent (side : Side) (rid : Nat) (box : Box)
  /-- the receiver of route `rid` was given `box` -/
  | got (side : Side) (rid : Nat) (box : Box)
  /-- `startReceivingBoxes` of the receiver of route `rid` -/
  | started (side : Side) (rid : Nat)
  /-- `stopReceivingBoxes` of the receiver of route `rid` -/
  | stopped (side : Side) (rid : Nat)
  | raised (side : Side) (e : PyErr)
  deriving DecidableEq, Repr

/-- Both ends and the boxes on their way. -/
structure Sys where
  client : Router
  server : Router
  /-- to the server, oldest first -/
  up : List Box
  /-- to the client, oldest first -/
  down : List Box
  /-- how many commands the client has called -/
  tags : Nat
  /-- the calls not answered yet, and the route each is for -/
  pending : Dict Str Nat
  log : List Ev

/-- `makeRoutes` (`route_client.py:37-38`): the connection is up and its router started when the default route is bound. -/
def client0 : Router :=
  let r := (startReceivingBoxes Router.new).1
  let r := (bindRoute r 0 (some none)).1
  (connectTo r 0 none).1

/-- `buildProtocol` (`route_setup.py:30-36`): the default route is bound first, then Twisted starts the router. -/
def server0 : Router :=
  let r := (bindRoute Router.new 0 (some none)).1
  let r := (connectTo r 0 none).1
  (startReceivingBoxes r).1

def init : Sys := ⟨client0, server0, [], [], 0, [], []⟩

/-- The boxes handed to the transport. -/
def wires : List Event → List Box
  | [] => []
  | .send b :: es => b :: wires es
  | _ :: es => wires es

/-- `route.sendBox(box)` (`amprouter.py:85-93`): what goes onto the wire, and what is seen. -/
def sendVia (side : Side) (r : Router) (rid : Nat) (box : Box) : List Box × List Ev :=
  match sendBox r rid box with
  | (_, es, .ok _) => (wires es, [.sent side rid box])
  | (_, _, .error e) => ([], [.raised side e])

/-- Several boxes, one after the other. -/
def sendMany (side : Side) (r : Router) (rid : Nat) : List Box → List Box × List Ev
  | [] => ([], [])
  | b :: bs =>
    let (w, l) := sendVia side r rid b
    let (w', l') := sendMany side r rid bs
    (w ++ w', l ++ l')

/-- `connect(proto, router, receiver)` (`route_setup.py:40-42`), up to the call of the command; `pending` remembers the
callbacks of `:43-48`. -/
def connect (s : Sys) : Sys :=
  match bindRoute s.client s.client.heap.length none with
  | (c, _, .ok (rid, some name)) =>
    match sendBox c 0 [(COMMAND, NEWROUTE), (ASK, natStr s.tags), (NAME, name)] with
    | (_, es, .ok _) =>
      { s with client := c, up := s.up ++ wires es, tags := s.tags + 1
               pending := Dict.set s.pending (natStr s.tags) rid }
    | (_, _, .error e) => { s with client := c, log := s.log ++ [.raised .client e] }
  | (c, _, .ok (_, none)) => { s with client := c, log := s.log ++ [.raised .client .typeError] }
  | (c, _, .error e) => { s with client := c, log := s.log ++ [.raised .client e] }

/-- `RoutingAMP.newRoute(name)` (`route_setup.py:18-22`) and the answer Twisted sends; `burst` is what the new receiver
sends when it is started. -/
def newRoute (s : Sys) (tag name : Str) (burst : List Box) : Sys :=
  match bindRoute s.server s.server.heap.length none with
  | (r, _, .ok (rid, some lname)) =>
    match connectTo r rid (some name) with
    | (r, [.start _], .ok _) =>
      let (w, l) := sendMany .server r rid burst
      match sendBox r 0 [(ANSWER, tag), (NAME, lname)] with
      | (_, es, .ok _) =>
        { s with server := r, down := s.down ++ w ++ wires es, log := s.log ++ [.started .server rid] ++ l }
      | (_, _, .error e) => { s with server := r, log := s.log ++ [.raised .server e] }
    | (r, _, _) => { s with server := r, log := s.log ++ [.raised .server .runtimeError] }
  | (r, _, .ok (_, none)) => { s with server := r, log := s.log ++ [.raised .server .typeError] }
  | (r, _, .error e) => { s with server := r, log := s.log ++ [.raised .server e] }

/-- The callbacks of `connect` (`route_setup.py:43-44`); `burst` is what the receiver sends when it is started. -/
def answered (s : Sys) (rid : Nat) (name : Str) (burst : List Box) : Sys :=
  match connectTo s.client rid (some name) with
  | (r, [.start _], .ok _) =>
    let (w, l) := sendMany .client r rid burst
    { s with client := r, up := s.up ++ w, log := s.log ++ [.started .client rid] ++ l }
  | (r, _, _) => { s with client := r, log := s.log ++ [.raised .client .runtimeError] }

/-- The server's AMP protocol is given a box: it knows one command (`route_setup.py:16-22`). -/
def serverProto (s : Sys) (box : Box) (burst : List Box) : Sys :=
  match Dict.get? box COMMAND, Dict.get? box ASK, Dict.get? box NAME with
  | some c, some tag, some name =>
    if c = NEWROUTE then newRoute s tag name burst
    else { s with log := s.log ++ [.raised .server (.other "UnhandledCommand")] }
  | _, _, _ => { s with log := s.log ++ [.raised .server (.other "NoEmptyBoxes")] }

/-- The client's AMP protocol is given a box: only answers are ever sent to it. -/
def clientProto (s : Sys) (box : Box) (burst : List Box) : Sys :=
  match Dict.get? box ANSWER, Dict.get? box NAME with
  | some tag, some name =>
    match Dict.get? s.pending tag with
    | some rid => answered { s with pending := Dict.erase s.pending tag } rid name burst
    | none => { s with log := s.log ++ [.raised .client .keyError] }
  | _, _ => { s with log := s.log ++ [.raised .client (.other "NoEmptyBoxes")] }

/-- The server's transport delivers the next box (`amprouter.py:183-189`). -/
def toServer (s : Sys) (burst : List Box) : Sys :=
  match s.up with
  | [] => s
  | w :: up =>
    let s := { s with up := up }
    match ampBoxReceived s.server w with
    | (_, [.deliver rcv box], .ok _) =>
      if rcv = 0 then serverProto s box burst else { s with log := s.log ++ [.got .server rcv box] }
    | (_, _, .error e) => { s with log := s.log ++ [.raised .server e] }
    | (_, _, .ok _) => s

/-- The client's transport delivers the next box (`amprouter.py:183-189`). -/
def toClient (s : Sys) (burst : List Box) : Sys :=
  match s.down with
  | [] => s
  | w :: down =>
    let s := { s with down := down }
    match ampBoxReceived s.client w with
    | (_, [.deliver rcv box], .ok _) =>
      if rcv = 0 then clientProto s box burst else { s with log := s.log ++ [.got .client rcv box] }
    | (_, _, .error e) => { s with log := s.log ++ [.raised .client e] }
    | (_, _, .ok _) => s

/-- What the applications and the network may do. -/
inductive Op where
  | connect
  /-- bind a route without connecting it, at either end -/
  | bind (side : Side)
  /-- send through a route other than the default one (nothing happens if there is no such route) -/
  | send (side : Side) (rid : Nat) (box : Box)
  | toServer (burst : List Box)
  | toClient (burst : List Box)

def step (s : Sys) : Op → Sys
  | .connect => connect s
  | .bind .client => { s with client := (bindRoute s.client s.client.heap.length none).1 }
  | .bind .server => { s with server := (bindRoute s.server s.server.heap.length none).1 }
  | .send .client rid box =>
    if 0 < rid ∧ rid < s.client.heap.length then
      let (w, l) := sendVia .client s.client rid box
      { s with up := s.up ++ w, log := s.log ++ l }
    else s
  | .send .server rid box =>
    if 0 < rid ∧ rid < s.server.heap.length then
      let (w, l) := sendVia .server s.server rid box
      { s with down := s.down ++ w, log := s.log ++ l }
    else s
  | .toServer burst => toServer s burst
  | .toClient burst => toClient s burst

def run (s : Sys) : List Op → Sys := List.foldl step s

/-! ## Losing the connection -/

/-- The errback of `connect` (`route_setup.py:45-47`) for every call not answered: Twisted fails them when the AMP
protocol is told to stop. -/
def failAll (r : Router) : List (Str × Nat) → Router × List Ev
  | [] => (r, [])
  | (_, rid) :: l =>
    match unbind r rid with
    | (r, _, .ok _) => failAll r l
    | (r, _, .error e) => let (r, es) := failAll r l; (r, .raised .client e :: es)

/-- The size of `_routes`. -/
def tableSize (r : Router) : Nat :=
  match r.routes with
  | some m => m.length
  | none => 0

/-- The loop of `Router.stopReceivingBoxes` (`amprouter.py:196-197`) at the client.  Python looks at the size of the
dictionary before it takes the next item, also when there is none left. -/
def stopLoop (used : Nat) (r : Router) (pending : List (Str × Nat)) : List (RName × Nat) → Router × List Ev × Bool
  | [] => if tableSize r = used then (r, [], true) else (r, [.raised .client .runtimeError], false)
  | (_, rid) :: items =>
    if tableSize r = used then
      let (r, l) := if rid = 0 then failAll r pending else (r, [])
      let pending := if rid = 0 then [] else pending
      let (r, l', ok) := stopLoop used r pending items
      (r, .stopped .client rid :: l ++ l', ok)
    else (r, [.raised .client .runtimeError], false)

/-- The connection is lost, at the client: `Router.stopReceivingBoxes` (`amprouter.py:192-198`). -/
def lose (s : Sys) : Sys :=
  match s.client.routes with
  | none => { s with log := s.log ++ [.raised .client .attributeError] }
  | some m =>
    match stopLoop m.length s.client s.pending m with
    | (r, l, true) => { s with client := { r with routes := none }, pending := [], log := s.log ++ l }
    | (r, l, false) => { s with client := r, pending := [], log := s.log ++ l }

end Verif.RouteSetup
