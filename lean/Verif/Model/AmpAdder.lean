import Verif.Model.AmpServer
/-!
# Model of the documented servers that add for those who have logged in: `doc/listings/amp/auth_server.py`, `amp_auth_server.py`

On top of `Verif.Model.AmpServer`, with any portal.

Simplifications, besides those stated there:
* `left`, `right` and `sum` are integers, not the text they are sent as (C28 is about that).
* Boxes with other commands than `Add` are left out once somebody has logged in (an `Adder` answers them as unhandled).
-/
namespace Verif.AmpAdder
open Verif.Py Verif.AmpAuth Verif.AmpServer

/-- What comes of the command `Add` (`auth_server.py:20-28`). -/
inductive Work where
  /-- `Adder.add(left, right)` ran for `avatarId`, and answered with `sum` (`auth_server.py:42-45`) -/
  | added (i : Nat) (avatarId : Bytes) (left right sum : Int)
  /-- the box receiver of the connection has no responder for it: AMP answers `UNHANDLED` -/
  | unhandled (i : Nat)
  /-- the box receiver is an avatar that the realm has not made; never happens -/
  | stray (i : Nat)
  deriving DecidableEq, Repr

structure App where
  server : Server
  work : List Work

/-- `AdditionRealm.requestAvatar` (`auth_server.py:53-59`): `CredReceiver` asks for an `IBoxReceiver`, and gets it at once. -/
def additionRealm : Bytes → Realm := fun _ => .avatar

/-- `Adder(avatarId)` (`auth_server.py:37-39`), the avatar of login `n` of connection `i`: `avatarId` is what the checker said. -/
def avatarId (log : List AmpServer.Ev) (i n : Nat) : Option Bytes :=
  log.findSome? fun
    | .verdict j m _ (.ok a) => if j = i ∧ m = n then some a else none
    | _ => none

/-- `Adder.add` (`auth_server.py:42-45`). -/
def add (left right : Int) : Int := left + right

inductive Op where
  /-- anything that `Model/AmpServer` knows -/
  | auth (o : SOp)
  /-- the command `Add` arrives on connection `i` -/
  | add (i : Nat) (left right : Int)

def step (P : Portal) (a : App) : Op → App
  | .auth o => { a with server := AmpServer.step P a.server o }
  | .add i left right =>
    match a.server.conns[i]? with
    | none => a
    | some c =>
      if c.connected then
        match c.receiver with
        | none => { a with work := a.work ++ [.unhandled i] }
        | some n =>
          match avatarId a.server.log i n with
          | some aid => { a with work := a.work ++ [.added i aid left right (add left right)] }
          | none => { a with work := a.work ++ [.stray i] }
      else a

def run (P : Portal) (pads : Option (Dict Bytes Bytes)) (ops : List Op) : App := ops.foldl (step P) ⟨⟨pads, [], []⟩, []⟩

/-- The portal of `auth_server.py:68-70`: one user, `testuser`, with the password `examplepass`. -/
def listing (sha1 : Bytes → Bytes) : Portal where
  sha1 := sha1
  users := some [([116, 101, 115, 116, 117, 115, 101, 114], .bytes [101, 120, 97, 109, 112, 108, 101, 112, 97, 115, 115])]
  realm := additionRealm

/-- The portal of `amp_auth_server.py:66-68`: no passwords; the pads are those of `padTable`. -/
def listingPad (sha1 : Bytes → Bytes) : Portal where
  sha1 := sha1
  users := none
  realm := additionRealm

/-- `{'pad': 0}` (`amp_auth_server.py:66`), with the avatar id 0 as a text. -/
def padTable : Dict Bytes Bytes := [([112, 97, 100], [48])]

end Verif.AmpAdder
