import Verif.Py.Core
/-!
# Model of juice protocol switching between two peers (`epsilon/juice.py:126-137`, `343-403`, `683-714`, `774-818`, `868-918`)

Two connected `Juice` peers.  Of a box only its kind and tag matter here, so that is what the channels carry, next to the
bytes written by inner protocols; that boxes survive serialisation under any segmentation, and that the bytes behind the box
that makes a peer switch reach its inner protocol, are C23 and C33.  Tags are the numbers they stand for (C27).  Handlers
are arbitrary: commands that arrive become pending and are answered later, in any order, or never.  There is one
`ProtocolSwitchCommand` class (`switch`), whose responder returns the inner protocol.  `_startingTLSBuffer` is `None`.
`transport.loseConnection()` only sets `dropped`; when the connection then really closes is up to the scheduler (`Op.lose`).
-/
namespace Verif.JuiceSwitch
open Verif.Py

/-- What a peer has written.  In a reply, `switch` repeats whether the request was a protocol switch; the wire does not
show it and `deliver` does not look at it. -/
inductive Item where
  | ask (tag : Nat) (switch : Bool)
  /-- a command without `_ask` -/
  | tell
  | answer (tag : Nat) (switch : Bool)
  | error (tag : Nat) (switch : Bool)
  /-- a byte written by the inner protocol -/
  | inner (b : Nat)
  deriving DecidableEq, Repr

/-- One peer. -/
structure Side where
  /-- `_counter` -/
  counter : Nat
  /-- `_outstandingRequests`: tag ↦ are `switchNow`, `handle` and `die` waiting for it?  `None` after the connection was lost -/
  outstanding : Option (Dict Nat Bool)
  /-- `__locked` -/
  locked : Bool
  /-- `innerProtocol is not None`; also not in line mode -/
  inner : Bool
  /-- commands whose handlers have not finished: `_ask`, and whether it is the switch command -/
  pending : List (Option Nat × Bool)
  /-- `transport.loseConnection()` has been called -/
  dropped : Bool
  /-- log: bytes written by the inner protocol -/
  wrote : List Nat
  /-- log: what the inner protocol's `dataReceived` was given -/
  got : List Item
  /-- log: bytes of the other peer's inner protocol that were parsed as juice -/
  garbled : List Item
  /-- log: calls of `clientConnectionFailed` -/
  failed : Nat
  /-- log: exceptions -/
  raised : List PyErr
  deriving DecidableEq, Repr

def Side.new : Side := ⟨0, some [], false, false, [], false, [], [], [], 0, []⟩

/-- `chan s` holds what `s` has written and its peer has not received. -/
structure World where
  side : Bool → Side
  chan : Bool → List Item

def World.new : World := ⟨fun _ => Side.new, fun _ => []⟩

def World.setSide (w : World) (s : Bool) (x : Side) : World := { w with side := fun b => if b = s then x else w.side b }
def World.setChan (w : World) (s : Bool) (x : List Item) : World := { w with chan := fun b => if b = s then x else w.chan b }

/-- `Command.do` (`juice.py:655-675`) with `sendBoxCommand` (`382-403`) and `sendPacket` (`805-818`). -/
def command (w : World) (s : Bool) (requiresAnswer : Bool) : World :=
  let p := w.side s
  match p.outstanding with
  | none => w
  | some d =>
    let n := p.counter + 1
    let p := if requiresAnswer then { p with counter := n, outstanding := some (Dict.set d n false) } else { p with counter := n }
    if p.locked then w.setSide s { p with raised := p.raised ++ [.assertionError] }
    else (w.setSide s p).setChan s (w.chan s ++ [if requiresAnswer then .ask n false else .tell])

/-- `ProtocolSwitchCommand.do` (`juice.py:701-714`): send the command, lock, wait.  On a lost connection `sendBoxCommand`
returns a failed `Deferred`. -/
def switchDo (w : World) (s : Bool) : World :=
  let p := w.side s
  match p.outstanding with
  | none => w.setSide s { p with locked := true, failed := p.failed + 1, dropped := true }
  | some d =>
    let n := p.counter + 1
    if p.locked then
      w.setSide s { p with counter := n, outstanding := some (Dict.set d n false), raised := p.raised ++ [.assertionError] }
    else (w.setSide s { p with counter := n, outstanding := some (Dict.set d n true), locked := true }).setChan s
      (w.chan s ++ [.ask n true])

/-- `switchNow` (`juice.py:704-707`): `_switchTo` (`784-794`); its assertion makes `die` drop the connection. -/
def switchNow (p : Side) : Side := if p.inner then { p with dropped := true } else { p with inner := true }

/-- `handle`, then `die` (`juice.py:708-713`). -/
def switchFailed (p : Side) : Side := { p with failed := p.failed + 1, dropped := true }

/-- One item arrives: `rawDataReceived` hands everything to an inner protocol (`juice.py:895-898`), otherwise
`juiceBoxReceived` (`798-803`, `329-380`). -/
def receive (p : Side) (d : Dict Nat Bool) (it : Item) : Side :=
  if p.inner then { p with got := p.got ++ [it] }
  else match it with
    | .inner _ => { p with garbled := p.garbled ++ [it] }
    | .ask t sw => if p.locked then p else { p with pending := p.pending ++ [(some t, sw)] }
    | .tell => { p with pending := p.pending ++ [(none, false)] }
    | .answer t _ =>
      match Dict.get? d t with
      | none => { p with raised := p.raised ++ [.keyError] }
      | some sw =>
        let p := { p with outstanding := some (Dict.erase d t) }
        if sw then switchNow p else p
    | .error t _ =>
      match Dict.get? d t with
      | none => { p with raised := p.raised ++ [.keyError] }
      | some sw =>
        let p := { p with outstanding := some (Dict.erase d t) }
        if sw then switchFailed p else p

def deliver (w : World) (s : Bool) : World :=
  match (w.side s).outstanding, w.chan (!s) with
  | some d, it :: rest => (w.setChan (!s) rest).setSide s (receive (w.side s) d it)
  | _, _ => w

/-- How a handler ends: normally, with a declared error, or with any other exception. -/
inductive Reply where
  | ok
  | error
  | fatal
  deriving DecidableEq, Repr

/-- The handler of pending command `i` ends: `sendAnswer`, `sendError` (`juice.py:345-377`).  The answer to the switch command
is a `_SwitchBox` (`696-697`), which is sent and then makes the peer switch (`135-137`).  An exception in either, or an
error that nobody asked for, ends in `_puke` (`307-315`).  Writes to a lost connection go nowhere. -/
def respond (w : World) (s : Bool) (i : Nat) (r : Reply) : World :=
  let p := w.side s
  match p.pending[i]? with
  | none => w
  | some (ask, sw) =>
    let p := { p with pending := p.pending.eraseIdx i }
    match ask with
    | none => w.setSide s (if r = .ok then p else { p with dropped := true })
    | some t =>
      match p.outstanding with
      | none => w.setSide s p
      | some _ =>
        if p.locked then w.setSide s { p with raised := p.raised ++ [.assertionError], dropped := true }
        else
          let p := if r = .ok then
              if sw then if p.inner then { p with raised := p.raised ++ [.assertionError], dropped := true } else { p with inner := true }
              else p
            else { p with dropped := p.dropped || decide (r = .fatal) }
          (w.setSide s p).setChan s (w.chan s ++ [if r = .ok then .answer t sw else .error t sw])

/-- The inner protocol writes. -/
def innerWrite (w : World) (s : Bool) (b : Nat) : World :=
  let p := w.side s
  if p.inner ∧ p.outstanding ≠ none then
    (w.setSide s { p with wrote := p.wrote ++ [b] }).setChan s (w.chan s ++ [.inner b])
  else w

/-- `connectionLost` (`juice.py:868-878`): waiting switches fail.  Twisted calls it once. -/
def lose (w : World) (s : Bool) : World :=
  let p := w.side s
  match p.outstanding with
  | none => w
  | some d => w.setSide s { p with outstanding := none, failed := p.failed + (d.filter (·.2)).length,
                                   dropped := p.dropped || d.any (·.2) }

inductive Op where
  | command (s : Bool) (requiresAnswer : Bool)
  | switch (s : Bool)
  | deliver (s : Bool)
  | respond (s : Bool) (i : Nat) (r : Reply)
  | write (s : Bool) (b : Nat)
  | lose (s : Bool)
  deriving DecidableEq, Repr

def step (w : World) : Op → World
  | .command s a => command w s a
  | .switch s => switchDo w s
  | .deliver s => deliver w s
  | .respond s i r => respond w s i r
  | .write s b => innerWrite w s b
  | .lose s => lose w s

def run (w : World) (ops : List Op) : World := ops.foldl step w

end Verif.JuiceSwitch
