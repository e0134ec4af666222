import Verif.Model.JuiceDispatch
/-!
# Model of the kinds of juice boxes and of what sending them does (`epsilon/juice.py:31-149`, `747-859`, `922-926`, `996-1008`)

The objects given to constructors as `body` are text, bytes or anything else, of which only the truth value matters.  Certificates,
protocols and callbacks are numbers.  Callbacks (`sslstarted`, `makeConnection` of the inner protocol) do nothing to the peer, and
`transport.startTLS` and `certificate.options` do not raise.  The peer is connected: `transport is not None`.
-/
namespace Verif.JuiceBoxes
open Verif.Py
open Verif.Juice (Str Bytes Box serialize BODY)
open Verif.JuiceDispatch (VERSION_ARG)

/-- The classes of boxes, with what their instances hold beside the fields. -/
inductive Kind where
  /-- `JuiceBox` -/
  | plain
  | quit
  | negotiate
  /-- `_SwitchBox`: `innerProto` -/
  | switch (proto : Nat)
  /-- `TLSBox`: `certificate`, `verify`, `sslstarted` -/
  | tls (certificate : Nat) (verify : Option Nat) (sslstarted : Option Nat)
  deriving DecidableEq, Repr

/-- A box: its class and its items. -/
structure Obj where
  kind : Kind
  fields : Box
  deriving DecidableEq, Repr

/-- What may be given as the body of a box. -/
inductive Body where
  | text (s : Str)
  | bytes (b : Bytes)
  | other (truth : Bool)
  deriving DecidableEq, Repr

/-- `JuiceBox.__init__` (`juice.py:34-38`); the keyword arguments have names of their own. -/
def juiceBox (body : Body) (kw : Box) : Except PyErr Obj :=
  match body with
  | .text [] => .ok ⟨.plain, kw⟩
  | .text s => .ok ⟨.plain, Dict.set kw BODY s⟩
  | .bytes [] => .ok ⟨.plain, kw⟩
  | .bytes _ => .error .assertionError
  | .other false => .ok ⟨.plain, kw⟩
  | .other true => .error .assertionError

/-- `TLSBox.__init__` (`juice.py:102-106`) -/
def tlsBox (certificate : Nat) (verify sslstarted : Option Nat) (kw : Box) : Obj := ⟨.tls certificate verify sslstarted, kw⟩

/-- `_SwitchBox.__init__` (`juice.py:131-133`) -/
def switchBox (proto : Nat) (kw : Box) : Obj := ⟨.switch proto, kw⟩

/-- The property `body` (`juice.py:40-50`), apart from the warning. -/
def Obj.getBody (o : Obj) : Except PyErr Str :=
  match Dict.get? o.fields BODY with
  | some s => .ok s
  | none => .error .keyError

def Obj.setBody (o : Obj) (s : Str) : Obj := { o with fields := Dict.set o.fields BODY s }

/-- `dict.update` -/
def update (d : Box) : List (Str × Str) → Box
  | [] => d
  | (k, v) :: r => update (Dict.set d k v) r

/-- `copy` (`juice.py:52-55`): `self.__class__()` is a `TypeError` for the classes whose constructors need arguments. -/
def Obj.copy (o : Obj) : Except PyErr Obj :=
  match o.kind with
  | .tls _ _ _ => .error .typeError
  | .switch _ => .error .typeError
  | k => .ok ⟨k, update [] o.fields⟩

/-- What the outside sees. -/
inductive Ev where
  /-- `transport.write` of a box -/
  | wrote (o : Obj) (b : Bytes)
  /-- `transport.startTLS`, because of a box or of a call -/
  | tls (cause : Option Obj) (certificate : Nat) (verify : Option Nat)
  /-- `sslstarted()` -/
  | started (o : Obj) (f : Nat)
  /-- `transport.loseConnection()` -/
  | lose (o : Obj)
  /-- `innerProto.makeConnection` -/
  | connected (o : Obj) (proto : Nat)
  /-- `_setProtocolVersion` -/
  | version (o : Obj) (v : Int)
  | raised (e : PyErr)
  deriving DecidableEq, Repr

/-- A `Juice` instance. -/
structure Peer where
  /-- `_issueGreeting` -/
  issueGreeting : Bool
  /-- `__locked` -/
  locked : Bool := false
  /-- `_startingTLSBuffer` -/
  buffer : Option (List Obj) := none
  /-- `hostCertificate` -/
  certificate : Option Nat := none
  /-- `innerProtocol` -/
  inner : Option Nat := none
  lineMode : Bool := true
  /-- `protocolVersion` -/
  version : Int := 0
  log : List Ev := []
  deriving DecidableEq, Repr

/-- `JuiceServerFactory.buildProtocol` and `JuiceClientFactory.buildProtocol` (`juice.py:996-1008`), with `Juice.__init__`
(`761-767`); `server`: which of the two. -/
def buildProtocol (server : Bool) : Peer := { issueGreeting := server }

/-- `isServer`, `isClient` (`juice.py:747-759`) -/
def Peer.isServer (p : Peer) : Bool := p.issueGreeting
def Peer.isClient (p : Peer) : Bool := !p.issueGreeting

def Peer.say (p : Peer) (e : Ev) : Peer := { p with log := p.log ++ [e] }

/-- `sendPacket` (`juice.py:805-818`): whether it returned. -/
def sendPacket (p : Peer) (o : Obj) : Bool × Peer :=
  if p.locked then (false, p.say (.raised .assertionError))
  else match p.buffer with
    | some l => (true, { p with buffer := some (l ++ [o]) })
    | none =>
      match serialize o.fields with
      | .error e => (false, p.say (.raised e))
      | .ok b => (true, p.say (.wrote o b))

/-- `for box in stlsb: self.sendPacket(box)` (`juice.py:851-852`) -/
def flush (p : Peer) : List Obj → Bool × Peer
  | [] => (true, p)
  | o :: l =>
    match sendPacket p o with
    | (true, p) => flush p l
    | (false, p) => (false, p)

/-- `startTLS` (`juice.py:843-859`) -/
def startTLS (p : Peer) (cause : Option Obj) (certificate : Nat) (verify : Option Nat) : Bool × Peer :=
  match p.certificate with
  | some _ => (false, p.say (.raised .runtimeError))
  | none =>
    let p := Peer.say { p with certificate := some certificate } (.tls cause certificate verify)
    match p.buffer with
    | none => (true, p)
    | some l => flush { p with buffer := none } l

/-- `_switchTo` (`juice.py:784-794`) -/
def switchTo (p : Peer) (o : Obj) (proto : Nat) : Peer :=
  match p.inner with
  | some _ => p.say (.raised .assertionError)
  | none => Peer.say { p with lineMode := false, inner := some proto } (.connected o proto)

/-- The `sendTo` of each class (`juice.py:79-91`, `108-115`, `122-124`, `135-137`, `146-148`). -/
def sendTo (U : Uni) (p : Peer) (o : Obj) : Peer :=
  match sendPacket p o with
  | (false, p) => p
  | (true, p) =>
    match o.kind with
    | .plain => p
    | .quit => p.say (.lose o)
    | .switch proto => switchTo p o proto
    | .negotiate =>
      match Dict.get? o.fields VERSION_ARG with
      | none => p.say (.raised .keyError)
      | some s =>
        match U.int s with
        | none => p.say (.raised .valueError)
        | some v => Peer.say { p with version := v } (.version o v)
    | .tls certificate verify sslstarted =>
      match startTLS p (some o) certificate verify with
      | (false, p) => p
      | (true, p) =>
        match sslstarted with
        | none => p
        | some f => p.say (.started o f)

/-- What is done to a peer. -/
inductive Op where
  | send (o : Obj)
  /-- `prepareTLS` (`juice.py:840-841`) -/
  | prepare
  /-- `startTLS` called by the application -/
  | start (certificate : Nat) (verify : Option Nat)
  /-- `_lock` (`juice.py:774-780`) -/
  | lock
  deriving DecidableEq, Repr

def step (U : Uni) (p : Peer) : Op → Peer
  | .send o => sendTo U p o
  | .prepare => { p with buffer := some [] }
  | .start c v => (startTLS p none c v).2
  | .lock => { p with locked := true }

def run (U : Uni) (p : Peer) (ops : List Op) : Peer := ops.foldl (step U) p

end Verif.JuiceBoxes
