import Verif.Model.AmpAuth
/-!
# Several `login`s on one connection

`login` (`epsilon/ampauth.py:274-300`) is two commands with the server's answer between them; an application may call it again
with the same `client` before the first call is done.  AMP gives each answer to the `callRemote` that it belongs to, and the
server handles the commands one at a time in the order in which they arrive.  So what happens is a list of *acts*, in the order
in which the server sees them.  The checker answers at once, as in `AmpAuth.respondNow`.
-/
namespace Verif.AmpOverlap
open Verif.Py Verif.AmpAuth

/-- One call of `login(client, credentials)`: its user name and password, and what its `secureRandom(16)` returns. -/
structure Attempt where
  user : Bytes
  password : Text
  nonce : Bytes
  deriving DecidableEq, Repr

inductive Act where
  /-- the `PasswordLogin` of attempt `i` arrives; the server's `secureRandom(16)` returns `rnd` -/
  | ask (i : Nat) (rnd : Bytes)
  /-- the `PasswordChallengeResponse` of attempt `i` arrives -/
  | answer (i : Nat)
  deriving DecidableEq, Repr

structure St where
  conn : Conn
  /-- the challenges the attempts were given, latest first -/
  got : List (Nat × Bytes)
  /-- how attempts ended, latest first -/
  ended : List (Nat × Except PyErr Unit)

variable (sha1 : Bytes → Bytes) (users : Dict Bytes Text) (attempt : Nat → Attempt)

/-- What `PasswordChallengeResponse` does on this connection: the responder (`ampauth.py:204-210`), or the avatar's, which has
none. -/
def respond (st : Conn) (cnonce response : Bytes) : Except PyErr Unit × Conn :=
  if st.connected ∧ st.receiver = none then respondNow sha1 users st cnonce response
  else (.error (.other "UnhandledCommand"), st)

/-- The `PasswordLogin` of attempt `i` (`ampauth.py:292-293`, `179-186`), or the avatar's, which has none. -/
def ask (st : St) (i : Nat) (rnd : Bytes) : St :=
  if st.conn.connected ∧ st.conn.receiver = none then
    { st with conn := passwordLogin st.conn (attempt i).user rnd, got := (i, rnd) :: st.got }
  else { st with ended := (i, .error (.other "UnhandledCommand")) :: st.ended }

/-- `cbChallenge` of attempt `i` (`ampauth.py:294-298`) with the challenge it was given, and the responder. -/
def answer (st : St) (i : Nat) : St :=
  match st.got.lookup i with
  | none => st
  | some challenge =>
    match determineFrom sha1 (attempt i).nonce challenge (attempt i).password with
    | .error e => { st with ended := (i, .error e) :: st.ended }
    | .ok (cnonce, response) =>
      let r := respond sha1 users st.conn cnonce response
      { st with conn := r.2, ended := (i, r.1) :: st.ended }

def act (st : St) : Act → St
  | .ask i rnd => ask attempt st i rnd
  | .answer i => answer sha1 users attempt st i

def run (acts : List Act) : St := acts.foldl (act sha1 users attempt) ⟨Conn.new, [], []⟩

end Verif.AmpOverlap
