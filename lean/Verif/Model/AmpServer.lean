import Verif.Model.AmpAuth
/-!
# Model of a server with many authenticated connections (`epsilon/ampauth.py`)

`CredAMPServerFactory` builds one `CredReceiver` per connection, all with one `Portal`.  The portal is Twisted's: it
looks for a checker for the kind of the credentials, fails with `UnhandledCredentials` without one, gives the avatar id
to the realm otherwise.  Checkers are `OneTimePadChecker` (`ampauth.py:231-247`) and a table of passwords; both answer
at once.  The realm is arbitrary: it may give an avatar at once, raise, or give it later (or never).

The connections are those of `Model/AmpAuth`.  Not modelled: what an avatar does with the boxes it receives.
-/
namespace Verif.AmpServer
open Verif.Py Verif.AmpAuth

/-- What `realm.requestAvatar` does with an avatar id. -/
inductive Realm where
  | avatar
  | fails (e : PyErr)
  | later
  deriving DecidableEq, Repr

/-- What stays the same: the hash, the passwords (`none`: the portal has no checker for passwords) and the realm. -/
structure Portal where
  sha1 : Bytes → Bytes
  users : Option (Dict Bytes Text)
  realm : Bytes → Realm

/-- What AMP sends back for a command. -/
inductive Reply where
  /-- the answer `{'challenge': c}` -/
  | challenge (c : Bytes)
  /-- the answer `{}` -/
  | done
  /-- an error declared by the command -/
  | error (code : String)
  /-- any other error: `UNKNOWN`, in a box after which the server drops the connection -/
  | quit
  deriving DecidableEq, Repr

/-- `_errors` (`ampauth.py:31-37`), the errors declared by `OTPLogin` (`ampauth.py:47`) and
`PasswordChallengeResponse` (`ampauth.py:97`).  `PyErr` has no subclasses of these two. -/
def errors : PyErr → Option String
  | .other "UnauthorizedLogin" => some "UNAUTHORIZED_LOGIN"
  | .notImplementedError => some "NOT_IMPLEMENTED_ERROR"
  | _ => none

/-- The reply to a login command whose `Deferred` failed. -/
def replyTo (e : PyErr) : Reply :=
  match errors e with
  | some code => .error code
  | none => .quit

/-- What can be observed of the server as a whole. -/
inductive Ev where
  /-- a checker was asked about login `n` of connection `i`, and what it said -/
  | verdict (i n : Nat) (c : Creds) (r : Except PyErr Bytes)
  /-- a reply was sent on connection `i` -/
  | reply (i : Nat) (r : Reply)
  deriving DecidableEq

structure Server where
  /-- the table of the one `OneTimePadChecker`; `none`: the portal has no checker for pads -/
  pads : Option (Dict Bytes Bytes)
  /-- the connections, in the order in which they were made -/
  conns : List Conn
  log : List Ev

/-- `twisted.cred.error.UnhandledCredentials` -/
def unhandled : PyErr := .other "UnhandledCredentials"

/-- The checker for the credentials: what it says, and the pads that are left. -/
def check (P : Portal) (pads : Option (Dict Bytes Bytes)) : Creds → Except PyErr Bytes × Option (Dict Bytes Bytes)
  | .password u c n r =>
    match P.users with
    | none => (.error unhandled, pads)
    | some us => (requestAvatar P.sha1 us [] (.password u c n r), pads)
  | .pad p =>
    match pads with
    | none => (.error unhandled, pads)
    | some t => ((requestAvatarId t p).1, some (requestAvatarId t p).2)

/-- `_login` (`ampauth.py:189-201`) on connection `i`: `portal.login`, and what happens at once. -/
def login (P : Portal) (s : Server) (i : Nat) (c : Conn) (creds : Creds) : Server :=
  let n := c.logins
  let c := login_ c creds
  let v := check P s.pads creds
  let log := s.log ++ [.verdict i n creds v.1]
  match v.1 with
  | .error e => ⟨v.2, s.conns.set i (complete c n false), log ++ [.reply i (replyTo e)]⟩
  | .ok aid =>
    match P.realm aid with
    | .avatar => ⟨v.2, s.conns.set i (complete c n true), log ++ [.reply i .done]⟩
    | .fails e => ⟨v.2, s.conns.set i (complete c n false), log ++ [.reply i (replyTo e)]⟩
    | .later => ⟨v.2, s.conns.set i c, log⟩

/-- What may happen to the server. -/
inductive SOp where
  /-- a client connects -/
  | accept
  /-- the command `PasswordLogin`; `rnd` is what `secureRandom(16)` returns -/
  | passwordLogin (i : Nat) (username rnd : Bytes)
  | response (i : Nat) (cnonce response : Bytes)
  | otp (i : Nat) (pad : Bytes)
  /-- the realm's `Deferred` for login `n` of connection `i` fires: with an avatar, or a failure -/
  | fire (i n : Nat) (e : Option PyErr)
  | lose (i : Nat) (raises : Bool)
  deriving DecidableEq

/-- `CredAMPServerFactory.buildProtocol` (`ampauth.py:267-270`): a `CredReceiver` with the portal of the factory
(`ampauth.py:263-264`). -/
def buildProtocol (s : Server) : Server := { s with conns := s.conns ++ [Conn.new] }

/-- A command reaches the `CredReceiver` while it is the box receiver of its connection (`Model/AmpAuth.step`). -/
def step (P : Portal) (s : Server) : SOp → Server
  | .accept => buildProtocol s
  | .passwordLogin i u rnd =>
    match s.conns[i]? with
    | none => s
    | some c =>
      if c.connected ∧ c.receiver = none then
        { s with conns := s.conns.set i (passwordLogin c u rnd), log := s.log ++ [.reply i (.challenge rnd)] }
      else s
  | .response i cnonce r =>
    match s.conns[i]? with
    | none => s
    | some c =>
      if c.connected ∧ c.receiver = none then
        match c.auth with
        | none => { s with conns := s.conns.set i (passwordChallengeResponse c cnonce r),
                           log := s.log ++ [.reply i (replyTo .attributeError)] }
        | some (challenge, username) => login P s i c (.password username challenge cnonce r)
      else s
  | .otp i p =>
    match s.conns[i]? with
    | none => s
    | some c => if c.connected ∧ c.receiver = none then login P s i c (.pad p) else s
  | .fire i n e =>
    match s.conns[i]? with
    | none => s
    | some c =>
      if n ∈ c.inFlight then
        { s with conns := s.conns.set i (complete c n e.isNone),
                 log := s.log ++ (if c.connected then [.reply i (match e with
                   | none => .done
                   | some e => replyTo e)] else []) }
      else s
  | .lose i raises =>
    match s.conns[i]? with
    | none => s
    | some c => if c.connected then { s with conns := s.conns.set i (connectionLost c raises) } else s

def run (P : Portal) (pads : Option (Dict Bytes Bytes)) (ops : List SOp) : Server :=
  ops.foldl (step P) ⟨pads, [], []⟩

end Verif.AmpServer
