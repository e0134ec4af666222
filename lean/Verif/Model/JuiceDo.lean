import Verif.Model.JuiceDispatch
/-!
# Model of what `Command.do` makes of an answer (`epsilon/juice.py:655-680`)
-/
namespace Verif.JuiceDispatch
open Verif.Py Verif.Juice Verif.JuiceArgs Verif.JuiceRpc

/-- What the `Deferred` returned by `Command.do` fires with. -/
inductive Got where
  /-- a dictionary of objects -/
  | objects (d : Dict Str Obj)
  /-- a failure holding an instance of the class, made from the text -/
  | failed (cls : Cls) (text : Str)
  /-- the reason given to `connectionLost`, untouched -/
  | lost (reason : Nat)

/-- `addExtra` (`juice.py:677-680`); `extra` holds what `fromTransport` gives for each extra argument. -/
def addExtra (extra : List (Str × Obj)) (d : Dict Str Obj) : Dict Str Obj :=
  extra.foldl (fun d p => Dict.set d p.1 p.2) d

/-- The callbacks of `Command.do` (`juice.py:660-673`), with `requiresAnswer`: `stringsToObjects`, `addExtra`, and
`_massageError` on failures.  `error.trap(RemoteJuiceError)` raises any other failure again, so an answer that cannot be
decoded fails with the exception of the argument type, and a lost connection with the reason of the loss (which is assumed
not to be a `RemoteJuiceError`). -/
def afterDo (H : Hier) (c : Cmd) (extra : List (Str × Obj)) : Result → Got
  | .answer b =>
    match stringsToObjects (textBox b) c.response with
    | .ok d => .objects (addExtra extra d)
    | .error e => .failed (H.builtin e).cls (H.builtin e).text
  | .error code desc => let r := massageError H c code desc; .failed r.1 r.2
  | .lost x => .lost x

end Verif.JuiceDispatch
