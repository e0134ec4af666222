import Verif.Model.JuiceWire
/-!
# Model of juice requests and answers (`epsilon/juice.py`)

Two connected `Juice` peers exchanging boxes over a pair of first-in-first-out channels; that the byte stream
between them delivers the boxes that were written, in order, is `boxes_received` (C23).  A `Deferred`
returned by `sendBoxCommand` is identified by the value `_counter` had when it was created.  Each side keeps
logs of what applications can see; the code does not depend on the logs.

A command handler is arbitrary: when a command arrives it becomes pending, and its `Deferred` may fire later,
in any order, or never (`Op.respond`).  Simplifications: `_wrap` is the identity (`wrapper = None`),
`Negotiate`/TLS boxes are not sent, and the transport closes only by `Op.lose` (`QuitBox.sendTo` and `_puke`
ask it to; when it happens is up to the scheduler).
-/
namespace Verif.JuiceRpc
open Verif.Py Verif.Juice

/-- `'_ask'`, `'_answer'`, `'_command'`, `'_error'`, `'_error_code'`, `'_error_description'`
(`juice.py:20-25`) -/
def ASK : Str := [95, 97, 115, 107]
def ANSWER : Str := [95, 97, 110, 115, 119, 101, 114]
def COMMAND : Str := [95, 99, 111, 109, 109, 97, 110, 100]
def ERROR : Str := [95, 101, 114, 114, 111, 114]
def ERROR_CODE : Str := ERROR ++ [95, 99, 111, 100, 101]
def ERROR_DESCRIPTION : Str := ERROR ++ [95, 100, 101, 115, 99, 114, 105, 112, 116, 105, 111, 110]

/-- What a command handler produces: an answer box, or an error (`sendAnswer`, `sendError`,
`juice.py:343-374`; exceptions that are not `RemoteJuiceError` become code `UNHANDLED`). -/
inductive Reply where
  | answer (b : Box)
  | error (code desc : Str)
  deriving DecidableEq, Repr

/-- What a `Deferred` fires with. -/
inductive Result where
  | answer (b : Box)
  /-- `RemoteJuiceError(code, description)` -/
  | error (code desc : Str)
  /-- the reason given to `connectionLost` -/
  | lost (reason : Nat)
  deriving DecidableEq, Repr

/-- One peer. -/
structure Side where
  /-- `_counter` -/
  counter : Nat
  /-- `_outstandingRequests`: tag ↦ Deferred; `None` after the connection was lost -/
  outstanding : Option (Dict Str Nat)
  /-- `__locked` -/
  locked : Bool
  /-- commands whose handlers have not finished: position in `handled`, and the box -/
  pending : Dict Nat Box
  /-- log: requests registered by `sendBoxCommand`, with the box -/
  asked : List (Nat × Box)
  /-- log: command boxes given to `dispatchCommand` -/
  handled : List Box
  /-- log: replies written, by position of the command in `handled` -/
  answered : List (Nat × Reply)
  /-- log: Deferreds fired -/
  fired : List (Nat × Result)
  /-- log: exceptions that escaped from `juiceBoxReceived` or `sendBoxCommand` -/
  raised : List PyErr
  /-- log: how many `sendBoxCommand` calls returned `fail(CONNECTION_LOST)` -/
  refused : Nat
  deriving DecidableEq, Repr

/-- `JuiceParserBase.__init__`, `Juice.makeConnection` (`juice.py:304-305`, `827-836`). -/
def Side.new : Side := ⟨0, some [], false, [], [], [], [], [], [], 0⟩

/-- Both peers and the boxes in flight; `chan s` holds what `s` has written and its peer has not received. -/
structure World where
  side : Bool → Side
  chan : Bool → List Box

def World.new : World := ⟨fun _ => Side.new, fun _ => []⟩

def World.setSide (w : World) (s : Bool) (x : Side) : World := { w with side := fun b => if b = s then x else w.side b }
def World.setChan (w : World) (s : Bool) (x : List Box) : World := { w with chan := fun b => if b = s then x else w.chan b }

/-- `Juice.sendPacket` (`juice.py:805-818`): asserts that the connection is not locked. -/
def sendPacket (w : World) (s : Bool) (b : Box) : World :=
  if (w.side s).locked then
    w.setSide s { w.side s with raised := (w.side s).raised ++ [.assertionError] }
  else w.setChan s (w.chan s ++ [b])

/-- `sendBoxCommand(command, box, requiresAnswer)` (`juice.py:382-403`), `_nextTag` (`319-321`). -/
def sendBoxCommand (w : World) (s : Bool) (command : Str) (box : Box) (requiresAnswer : Bool) : World :=
  let p := w.side s
  match p.outstanding with
  | none => w.setSide s { p with refused := p.refused + 1 }
  | some d =>
    let box := Dict.set box COMMAND command
    let n := p.counter + 1
    if requiresAnswer then
      let box := Dict.set box ASK (hexStr n)
      sendPacket (w.setSide s { p with counter := n, outstanding := some (Dict.set d (hexStr n) n),
                                       asked := p.asked ++ [(n, box)] }) s box
    else sendPacket (w.setSide s { p with counter := n }) s box

/-- `self._outstandingRequests.pop(tag)` followed by firing the Deferred with `r` (`juice.py:333-342`). -/
def answerReceived (p : Side) (d : Dict Str Nat) (tag : Str) (r : Except PyErr Result) : Side :=
  match Dict.get? d tag with
  | none => { p with raised := p.raised ++ [.keyError] }
  | some n =>
    let p := { p with outstanding := some (Dict.erase d tag) }
    match r with
    | .error e => { p with raised := p.raised ++ [e] }
    | .ok r => { p with fired := p.fired ++ [(n, r)] }

/-- `Juice.juiceBoxReceived` (`juice.py:798-803`) and `JuiceParserBase.juiceBoxReceived` (`329-380`). -/
def juiceBoxReceived (p : Side) (d : Dict Str Nat) (box : Box) : Side :=
  if p.locked && Dict.has box COMMAND && Dict.has box ASK then p
  else
    match Dict.get? box ANSWER with
    | some tag => answerReceived p d tag (.ok (.answer box))
    | none =>
      match Dict.get? box ERROR with
      | some tag =>
        answerReceived p d tag (match Dict.get? box ERROR_CODE, Dict.get? box ERROR_DESCRIPTION with
          | some c, some t => .ok (.error c t)
          | _, _ => .error .keyError)
      | none =>
        if Dict.has box COMMAND then
          { p with pending := p.pending ++ [(p.handled.length, box)], handled := p.handled ++ [box] }
        else { p with raised := p.raised ++ [.runtimeError] }

/-- A box arrives.  Nothing is delivered after `connectionLost`. -/
def deliver (w : World) (s : Bool) : World :=
  match (w.side s).outstanding, w.chan (!s) with
  | some d, b :: rest => (w.setChan (!s) rest).setSide s (juiceBoxReceived (w.side s) d b)
  | _, _ => w

/-- The box a reply is written as (`juice.py:345-375`). -/
def replyBox (tag : Str) : Reply → Box
  | .answer b => Dict.set b ANSWER tag
  | .error code desc => [(ERROR, tag), (ERROR_DESCRIPTION, desc), (ERROR_CODE, code)]

/-- The Deferred of pending command `m` fires: `sendAnswer` / `sendError` (`juice.py:345-377`).  A command
without `_ask` gets no reply; writes to a lost connection go nowhere. -/
def respond (w : World) (s : Bool) (m : Nat) (r : Reply) : World :=
  let p := w.side s
  match Dict.get? p.pending m with
  | none => w
  | some box =>
    let p := { p with pending := Dict.erase p.pending m }
    match Dict.get? box ASK with
    | none => w.setSide s p
    | some tag =>
      match p.outstanding with
      | none => w.setSide s p
      | some _ =>
        if p.locked then w.setSide s { p with raised := p.raised ++ [.assertionError] }
        else (w.setSide s { p with answered := p.answered ++ [(m, r)] }).setChan s (w.chan s ++ [replyBox tag r])

/-- `connectionLost(reason)` → `failAllOutgoing` (`juice.py:323-327`, `868-878`).  Twisted calls it once. -/
def connectionLost (w : World) (s : Bool) (reason : Nat) : World :=
  let p := w.side s
  match p.outstanding with
  | none => w
  | some d => w.setSide s { p with outstanding := none, fired := p.fired ++ d.map fun e => (e.2, .lost reason) }

/-- Everything that can happen. -/
inductive Op where
  | send (s : Bool) (command : Str) (box : Box) (requiresAnswer : Bool)
  | deliver (s : Bool)
  | respond (s : Bool) (m : Nat) (r : Reply)
  | lose (s : Bool) (reason : Nat)
  /-- `_lock` (`juice.py:774-780`) -/
  | lock (s : Bool)

def step (w : World) : Op → World
  | .send s c b r => sendBoxCommand w s c b r
  | .deliver s => deliver w s
  | .respond s m r => respond w s m r
  | .lose s r => connectionLost w s r
  | .lock s => w.setSide s { w.side s with locked := true }

def run (ops : List Op) : World := ops.foldl step World.new

end Verif.JuiceRpc
