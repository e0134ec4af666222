import Verif.Py.Core
import Verif.Py.Utf8
/-!
# Model of `epsilon/ampauth.py`

`sha1` is an arbitrary function on byte strings, `secureRandom` an arbitrary source (the bytes it returns are
part of the operation).  `Portal.login` returns a `Deferred` that may fire at any later moment, with an avatar
or with a failure, or never; which checker and realm decide that is left open except in `Server`, where the
checker is the in-memory user table of the tests.
-/
namespace Verif.AmpAuth
open Verif.Py

abbrev Bytes := List Nat

/-- A password: `bytes` or `str` (code points). -/
inductive Text where
  | bytes (b : Bytes)
  | str (s : List Nat)
  deriving DecidableEq, Repr

/-- `six.ensure_binary` (UTF-8; a lone surrogate raises `UnicodeEncodeError`). -/
def ensureBinary : Text → Except PyErr Bytes
  | .bytes b => .ok b
  | .str s =>
    match utf8Encode s with
    | some b => .ok b
    | none => .error .unicodeError

/-- `b'%s %s %s' % (challenge, nonce, password)` (`ampauth.py:81`). -/
def message (challenge nonce password : Bytes) : Bytes :=
  challenge ++ [32] ++ nonce ++ [32] ++ password

variable (sha1 : Bytes → Bytes)

/-- `_calcResponse` (`ampauth.py:62-81`). -/
def calcResponse (challenge nonce password : Bytes) : Bytes := sha1 (message challenge nonce password)

/-- `PasswordChallengeResponse.determineFrom` (`ampauth.py:99-111`); `nonce` is what `secureRandom(16)`
returned.  Result: `cnonce` and `response`. -/
def determineFrom (nonce challenge : Bytes) (password : Text) : Except PyErr (Bytes × Bytes) :=
  match ensureBinary password with
  | .error e => .error e
  | .ok p => .ok (nonce, calcResponse sha1 challenge nonce p)

/-- `_AMPUsernamePassword` (`ampauth.py:115-120`) and `_AMPOneTimePad` (`ampauth.py:139-147`). -/
inductive Creds where
  | password (username challenge nonce response : Bytes)
  | pad (padValue : Bytes)
  deriving DecidableEq, Repr

/-- `_AMPUsernamePassword.checkPassword` (`ampauth.py:122-136`). -/
def checkPassword (challenge nonce response : Bytes) (password : Text) : Except PyErr Bool :=
  match ensureBinary password with
  | .error e => .error e
  | .ok p => .ok (calcResponse sha1 challenge nonce p == response)

/-! ## `OneTimePadChecker` (`ampauth.py:231-247`) -/

/-- `UnauthorizedLogin` -/
def unauthorized : PyErr := .other "UnauthorizedLogin"

/-- `requestAvatarId` (`ampauth.py:244-247`): the result and the new pad table. -/
def requestAvatarId {κ ν : Type} [DecidableEq κ] (pads : Dict κ ν) (pad : κ) : Except PyErr ν × Dict κ ν :=
  match Dict.get? pads pad with
  | some a => (.ok a, Dict.erase pads pad)
  | none => (.error unauthorized, pads)

/-- A sequence of attempts, from whatever connections: their results, and the remaining table. -/
def attempts {κ ν : Type} [DecidableEq κ] : Dict κ ν → List κ → List (Except PyErr ν) × Dict κ ν
  | pads, [] => ([], pads)
  | pads, p :: ps =>
    let r := requestAvatarId pads p
    let rest := attempts r.2 ps
    (r.1 :: rest.1, rest.2)

/-! ## `CredReceiver` (`ampauth.py:150-228`) -/

/-- What can be observed of a connection. -/
inductive Ev where
  /-- `{'challenge': c}` was returned from `passwordLogin` -/
  | challenge (c : Bytes)
  /-- `portal.login` was called; logins are numbered in order -/
  | login (n : Nat) (c : Creds)
  /-- `cbLoggedIn` ran for login `n`: its avatar's `startReceivingBoxes` was called -/
  | loggedIn (n : Nat)
  /-- login `n` failed -/
  | rejected (n : Nat)
  /-- a responder raised -/
  | raised (e : PyErr)
  /-- `connectionLost`; `raises`: `stopReceivingBoxes` of the box receiver raised -/
  | lost (raises : Bool)
  /-- the logout callable of login `n` was called -/
  | logout (n : Nat)
  deriving DecidableEq, Repr

structure Conn where
  /-- `self.challenge` and `self.username`; unset before `passwordLogin` -/
  auth : Option (Bytes × Bytes)
  /-- `self.logout`: `None`, or the callable of a login -/
  logout : Option Nat
  /-- `self.boxReceiver`: `none` is the `CredReceiver` itself, `some n` the avatar of login `n` -/
  receiver : Option Nat
  /-- logins whose `Deferred` has not fired -/
  inFlight : List Nat
  /-- how many times `portal.login` was called -/
  logins : Nat
  /-- the transport is connected -/
  connected : Bool
  log : List Ev
  deriving DecidableEq, Repr

/-- A new connection. -/
def Conn.new : Conn := ⟨none, none, none, [], 0, true, []⟩

/-- `passwordLogin` (`ampauth.py:179-186`); `rnd` is what `secureRandom(16)` returned. -/
def passwordLogin (st : Conn) (username rnd : Bytes) : Conn :=
  { st with auth := some (rnd, username), log := st.log ++ [.challenge rnd] }

/-- `_login` up to the point where the `Deferred` is returned (`ampauth.py:189-193`). -/
def login_ (st : Conn) (c : Creds) : Conn :=
  { st with logins := st.logins + 1, inFlight := st.inFlight ++ [st.logins], log := st.log ++ [.login st.logins c] }

/-- `passwordChallengeResponse` (`ampauth.py:204-210`): `self.username` raises `AttributeError` when unset. -/
def passwordChallengeResponse (st : Conn) (cnonce response : Bytes) : Conn :=
  match st.auth with
  | none => { st with log := st.log ++ [.raised .attributeError] }
  | some (challenge, username) => login_ st (.password username challenge cnonce response)

/-- `otpLogin` (`ampauth.py:213-218`). -/
def otpLogin (st : Conn) (pad : Bytes) : Conn := login_ st (.pad pad)

/-- The `Deferred` of login `n` fires: `cbLoggedIn` (`ampauth.py:194-199`), or an error goes back. -/
def complete (st : Conn) (n : Nat) (ok : Bool) : Conn :=
  if n ∈ st.inFlight then
    let st := { st with inFlight := st.inFlight.erase n }
    if ok then { st with logout := some n, receiver := some n, log := st.log ++ [.loggedIn n] }
    else { st with log := st.log ++ [.rejected n] }
  else st

/-- `connectionLost` (`ampauth.py:221-228`).  `AMP.connectionLost` calls `stopReceivingBoxes` of the current
box receiver, which is application code after a login; `raises`: it raised. -/
def connectionLost (st : Conn) (raises : Bool) : Conn :=
  let st := { st with connected := false, log := st.log ++ [.lost raises] }
  if raises then st
  else
    match st.logout with
    | none => st
    | some n => { st with logout := none, receiver := none, log := st.log ++ [.logout n] }

inductive Op where
  | passwordLogin (username rnd : Bytes)
  | response (cnonce response : Bytes)
  | otp (pad : Bytes)
  | complete (n : Nat) (ok : Bool)
  | lose (raises : Bool)
  deriving DecidableEq, Repr

/-- Commands are dispatched by AMP: to the `CredReceiver` while it is the box receiver, to the avatar (not
modelled) afterwards; none arrive once the connection is lost.  The transport calls `connectionLost` once. -/
def step (st : Conn) : Op → Conn
  | .passwordLogin u r => if st.connected ∧ st.receiver = none then passwordLogin st u r else st
  | .response n r => if st.connected ∧ st.receiver = none then passwordChallengeResponse st n r else st
  | .otp p => if st.connected ∧ st.receiver = none then otpLogin st p else st
  | .complete n ok => complete st n ok
  | .lose raises => if st.connected then connectionLost st raises else st

def run (ops : List Op) : Conn := ops.foldl step Conn.new

/-! ## The whole exchange -/

/-- A checker that holds the users' passwords and calls `checkPassword`, as
`InMemoryUsernamePasswordDatabaseDontUse` does. -/
def requestAvatar (users : Dict Bytes Text) (pads : Dict Bytes Bytes) : Creds → Except PyErr Bytes
  | .password u c n r =>
    match Dict.get? users u with
    | none => .error unauthorized
    | some p =>
      match checkPassword sha1 c n r p with
      | .error e => .error e
      | .ok true => .ok u
      | .ok false => .error unauthorized
  | .pad p => (requestAvatarId pads p).1

/-- `portal.login` with this checker, and the callback, at once: the reply to the client. -/
def respondNow (users : Dict Bytes Text) (st : Conn) (cnonce response : Bytes) : Except PyErr Unit × Conn :=
  match st.auth with
  | none => (.error .attributeError, step st (.response cnonce response))
  | some (challenge, username) =>
    let n := st.logins
    let st := step st (.response cnonce response)
    match requestAvatar sha1 users [] (.password username challenge cnonce response) with
    | .ok _ => (.ok (), step st (.complete n true))
    | .error e => (.error e, step st (.complete n false))

/-- What the server answers to `PasswordLogin`: the challenge its responder returned. -/
def challengeNow (st : Conn) (username rnd : Bytes) : Option Bytes × Conn :=
  let st := step st (.passwordLogin username rnd)
  (match st.log.getLast? with
    | some (.challenge c) => some c
    | _ => none, st)

/-- `login(client, credentials)` (`ampauth.py:274-300`) against a server with these users; `none` for the
credentials: they do not provide `IUsernamePassword`, and the exception is raised by `login` itself.  Otherwise the result is the
client itself (`()`) or the exception the Deferred fails with; the model covers the case that nobody else uses the connection meanwhile. -/
def login (users : Dict Bytes Text) (st : Conn) (rnd nonce : Bytes) (credentials : Option (Bytes × Text)) :
    Except PyErr Unit × Conn :=
  match credentials with
  | none => (.error (.other "UnhandledCredentials"), st)
  | some (username, password) =>
    match challengeNow st username rnd with
    | (none, st) => (.error (.other "UnhandledCommand"), st)
    | (some challenge, st) =>
      match determineFrom sha1 nonce challenge password with
      | .error e => (.error e, st)
      | .ok (cnonce, response) => respondNow sha1 users st cnonce response

end Verif.AmpAuth
