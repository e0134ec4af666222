import Verif.Model.JuiceBytes
import Verif.Model.JuiceDo
import Verif.Spec.JuiceArgs
import Verif.Spec.JuiceBytes
/-!
# Remote calls as local calls
-/
namespace Verif.JuiceRemote
open Verif.Py Verif.Juice Verif.JuiceArgs Verif.JuiceRpc Verif.JuiceDispatch Verif.JuiceBytes

/-- `b` has the keys of `v`, in the same order, and for every value of `v` the text that travels for it. -/
def TextOf (v : Dict Str Val) (b : Box) : Prop := List.Forall₂ (fun p q => p.1 = q.1 ∧ WireText p.2 q.2) v b

/-- Names that can be keys of a box, and are not the protocol's own. -/
def NameOk (n : Str) : Prop :=
  WireKey n ∧ CanonicalKey n ∧ n ≠ LENGTH ∧ n ≠ BODY ∧ n ∉ [COMMAND, ASK, ANSWER, ERROR]

/-- A sensibly declared command. -/
structure CmdOk (c : Cmd) : Prop where
  open_ : none ∈ c.namespaces
  arguments : (c.arguments.map Prod.fst).Nodup ∧ ∀ n ∈ c.arguments.map Prod.fst, NameOk n
  response : (c.response.map Prod.fst).Nodup ∧ ∀ n ∈ c.response.map Prod.fst, NameOk n
  classes : ((c.errors ++ c.fatalErrors).map Prod.fst).Nodup
  codes : ((c.errors ++ c.fatalErrors).map Prod.snd).Nodup
  unhandled : UNHANDLED ∉ (c.errors ++ c.fatalErrors).map Prod.snd

/-- The commands that both ends know, by name. -/
structure Protocol where
  command : Str → Option Cmd
  ok : ∀ name c, command name = some c → CmdOk c
  text : ∀ name c, command name = some c → ∀ x ∈ name, IsScalar x

/-- `b` is the box that `Command.do` makes for calling the command `c` with the keyword arguments `kw`, all of them
acceptable. -/
def Makes (U : Uni) (c : Cmd) (kw : List (Str × Obj)) (b : Box) : Prop :=
  (∀ n a, (n, a) ∈ c.arguments → Acceptable a (given U kw n)) ∧
  ∃ v, objectsToStrings U kw c.arguments = .ok v ∧ TextOf v b

/-- Applications call commands of the protocol, and answer with what can travel. -/
def Plays (U : Uni) (pr : Protocol) : Local → Prop
  | .send name b _ => ∃ c kw, pr.command name = some c ∧ Makes U c kw b
  | .respond m r => LocalOk (.respond m r)
  | .lock => False

/-- The application object has a responder for every command of the protocol. -/
def Serves (U : Uni) (pr : Protocol) (app : App) : Prop :=
  ∀ name c, pr.command name = some c → ∃ m, app.attr (autoDispatchPrefix ++ normalizeCommand U name) = some (.command m c)

/-- `rep` is the reply that the dispatcher makes to the request `box`. -/
def Replies (U : Uni) (H : Hier) (app : App) (box : Box) (rep : Reply) : Prop :=
  ∃ tag, Dict.get? box ASK = some tag ∧
    match (react U H app box).2, rep with
    | .answer v _, .answer _ => TextOf v (replyBox tag rep)
    | .error e _, .error _ _ => e = replyBox tag rep
    | _, _ => False

/-- The keyword arguments `args` that a responder gets when called with `kw`: for each declared argument what was given, or
`None`, and the extra ones. -/
def Receives (U : Uni) (c : Cmd) (kw : List (Str × Obj)) (args : Dict Str Obj) : Prop :=
  (∀ n, n ∈ Dict.keys args ↔ n ∈ c.arguments.map Prod.fst ∨ n ∈ c.extra.map Prod.fst) ∧
  ∀ n ∈ c.arguments.map Prod.fst, n ∉ c.extra.map Prod.fst →
    ∃ y, Dict.get? args n = some y ∧ Same ((given U kw n).getD .none) y

/-- What the caller must get when the responder does `ran`. -/
def Outcome (U : Uni) (H : Hier) (c : Cmd) (extra : List (Str × Obj)) : Ran → Got → Prop
  /- it returned: the same objects, provided they are acceptable -/
  | .returned objs, got => (∀ n a, (n, a) ∈ c.response → Acceptable a (given U objs n)) →
      ∃ d, got = .objects d ∧
        (∀ n, n ∈ Dict.keys d ↔ n ∈ c.response.map Prod.fst ∨ n ∈ extra.map Prod.fst) ∧
        ∀ n ∈ c.response.map Prod.fst, n ∉ extra.map Prod.fst →
          ∃ y, Dict.get? d n = some y ∧ Same ((given U objs n).getD .none) y
  /- it raised: a declared class of which the exception is an instance, with its text; without such a class,
  `UnhandledRemoteJuiceError` -/
  | .raised e, got =>
      ((∃ D ∈ (c.errors ++ c.fatalErrors).map Prod.fst, H.sub e.cls D = true) →
        ∃ D ∈ (c.errors ++ c.fatalErrors).map Prod.fst, H.sub e.cls D = true ∧ got = .failed D e.text) ∧
      ((∀ D ∈ (c.errors ++ c.fatalErrors).map Prod.fst, H.sub e.cls D = false) → H.sub e.cls H.remote = false →
        ∃ text, got = .failed H.unhandledRemote text)

end Verif.JuiceRemote
