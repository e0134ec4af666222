import Verif.Model.RouteSetup
/-!
# Model of the documented counting server and its clients: `doc/listings/amp/route_server.py`, `doc/listings/amp/route_client.py`

On top of `Verif.Model.RouteSetup`: each route of the server that `newRoute` makes has a `Counter`, each route of the client that
`connect` is given has a `CountClient`.

Simplifications, besides those stated there:
* Each of these protocols is an AMP of its own: it numbers its requests (from 0, in decimal; Twisted: from 1, in hexadecimal) and
  answers are matched with them by number.
* A value is shown as the text `Integer` sends.
* A `CountClient` may also call `Count` again at any time after it was started; in the listing it does so only when it is started.
-/
namespace Verif.RouteCount
open Verif.Py Verif.Router Verif.RouteSetup

/-- The name of the command `Count` (`route_server.py:12`). -/
def COUNT : Str := [67, 111, 117, 110, 116]
/-- `value`, its response (`route_server.py:13`). -/
def VALUE : Str := [118, 97, 108, 117, 101]

/-- `CountClient` (`route_client.py:19-33`). -/
structure CountClient where
  /-- how often it has called `Count` -/
  calls : Nat
  /-- the calls not answered yet: the number on the wire, and which call it is -/
  waiting : Dict Str Nat
  /-- what `display` was called with (`route_client.py:15-16`): which call it is the result of, and the value -/
  shown : List (Nat × Str)
  deriving DecidableEq, Repr

structure App where
  sys : Sys
  /-- `_valueCounter` of the `Counter` of each route of the server (`route_server.py:17-18`) -/
  counters : Nat → Nat
  /-- the `CountClient` of each route of the client, once it was started -/
  clients : Nat → Option CountClient
  /-- boxes that a protocol did not understand -/
  unhandled : List Box

def App.new : App := ⟨RouteSetup.init, fun _ => 0, fun _ => none, []⟩

/-- `callRemote(Count)` (`route_client.py:30`) -/
def request (k : Nat) : Box := [(COMMAND, COUNT), (ASK, natStr k)]

/-- `callRemote(Count)`, as often as said, in `startReceivingBoxes` (`route_client.py:25-33`). -/
def startedWith (n : Nat) : CountClient := ⟨n, (List.range n).map fun k => (natStr k, k), []⟩

def setCounter (f : Nat → Nat) (i v : Nat) : Nat → Nat := fun j => if j = i then v else f j
def setClient (f : Nat → Option CountClient) (i : Nat) (v : CountClient) : Nat → Option CountClient :=
  fun j => if j = i then some v else f j

/-- A `Counter` is given a box: `count` (`route_server.py:20-23`), whose result is sent back through the same route. -/
def serve (a : App) : Ev → App
  | .got .server rid box =>
    match Dict.get? box COMMAND, Dict.get? box ASK with
    | some c, some tag =>
      if c = COUNT then
        let v := a.counters rid + 1
        { a with counters := setCounter a.counters rid v
                 sys := RouteSetup.step a.sys (.send .server rid [(ANSWER, tag), (VALUE, natStr v)]) }
      else { a with unhandled := a.unhandled ++ [box] }
    | _, _ => { a with unhandled := a.unhandled ++ [box] }
  | _ => a

/-- A `CountClient` is started, and calls `Count` `n` times, or is given a box. -/
def receive (n : Nat) (a : App) : Ev → App
  | .started .client rid => { a with clients := setClient a.clients rid (startedWith n) }
  | .got .client rid box =>
    match a.clients rid, Dict.get? box ANSWER, Dict.get? box VALUE with
    | some c, some tag, some v =>
      match Dict.get? c.waiting tag with
      | some k =>
        { a with clients := setClient a.clients rid { c with waiting := Dict.erase c.waiting tag, shown := c.shown ++ [(k, v)] } }
      | none => { a with unhandled := a.unhandled ++ [box] }
    | _, _, _ => { a with unhandled := a.unhandled ++ [box] }
  | _ => a

inductive Op where
  /-- `connect(proto, router, client)` (`route_client.py:41-44`) -/
  | connect
  /-- bind a route without connecting it, at either end -/
  | bind (side : Side)
  /-- the `CountClient` of a route calls `Count` once more (nothing happens if there is none) -/
  | call (rid : Nat)
  /-- the next box reaches the server -/
  | toServer
  /-- the next box reaches the client; `n` is what `random.randrange(1, 5)` gives if a `CountClient` is started by it -/
  | toClient (n : Nat)

def step (a : App) : Op → App
  | .connect => { a with sys := RouteSetup.step a.sys .connect }
  | .bind side => { a with sys := RouteSetup.step a.sys (.bind side) }
  | .call rid =>
    match a.clients rid with
    | none => a
    | some c =>
      { a with sys := RouteSetup.step a.sys (.send .client rid (request c.calls))
               clients := setClient a.clients rid
                { c with calls := c.calls + 1, waiting := Dict.set c.waiting (natStr c.calls) c.calls } }
  | .toServer =>
    let s := RouteSetup.step a.sys (.toServer [])
    (s.log.drop a.sys.log.length).foldl serve { a with sys := s }
  | .toClient n =>
    let s := RouteSetup.step a.sys (.toClient ((List.range n).map request))
    (s.log.drop a.sys.log.length).foldl (receive n) { a with sys := s }

def run (ops : List Op) : App := ops.foldl step App.new

end Verif.RouteCount
