import Verif.Model.JuiceDispatch
/-!
# Model of juice commands that run in transactions (`epsilon/juice.py:186-195`, `234-241`, `266-270`)

As `Model/JuiceDispatch`, with a store that responders change, and with `wrapper` set so that every function found is wrapped in a
`_Transactor` (as `_wrap` does with `wrapper = lambda f: _Transactor(store, f)`).  `store.transact(f, box)` is not part of
Epsilon; it is taken to call `f(box)`, to keep the changes if `f` returns, and to undo them if `f` raises.  A responder that
returns a `Deferred` is treated as returning what the `Deferred` fires with.
-/
namespace Verif.JuiceTransact
open Verif.Py Verif.Juice Verif.JuiceArgs Verif.JuiceRpc Verif.JuiceDispatch

/-- The application object (as `JuiceDispatch.App`); its callables work on a store. -/
structure SApp (σ : Type) where
  attr : Str → Option Attr
  run : Nat → Dict Str Obj → σ → σ × Ran
  runOld : Nat → Box → σ → σ × RanOld

/-- How a call ends: it raises, or returns a `Deferred` (or a plain answer) that stands for what it fires with. -/
inductive Ret where
  | raises (e : Exn)
  | returns (o : Out)

variable {σ : Type}

/-- `doit` (`juice.py:214-231`).  `stringsToObjects` raises out of `doit`; what the responder raises is caught by
`maybeDeferred`. -/
def doitS (U : Uni) (H : Hier) (app : SApp σ) (m : Nat) (c : Cmd) (box : Box) (st : σ) : σ × Ret :=
  match stringsToObjects (textBox box) c.arguments with
  | .error e => (st, .raises (H.builtin e))
  | .ok kw =>
    let r := app.run m (c.extra.foldl (fun d p => Dict.set d p.1 p.2) kw) st
    (r.1, .returns (afterRun U H c r.2))

/-- The function that `lookupFunction` found (`juice.py:248-264`), called with the box. -/
def call (U : Uni) (H : Hier) (app : SApp σ) (box : Box) : Fn → σ → σ × Ret
  | .auto m c, st => doitS U H app m c box st
  | .old m, st =>
    match app.runOld m box st with
    | (st', .returned b) => (st', .returns (.answer b false))
    | (st', .raised e) => (st', .raises e)

/-- `store.transact` (see above). -/
def transact (f : σ → σ × Ret) (st : σ) : σ × Ret :=
  match f st with
  | (_, .raises e) => (st, .raises e)
  | (st', .returns o) => (st', .returns o)

/-- `_wrap` (`juice.py:234-241`) with `wrapper = None` or with `_Transactor` (`juice.py:186-192`). -/
def wrap (wrapper : Bool) (f : σ → σ × Ret) (st : σ) : σ × Ret := if wrapper then transact f st else f st

/-- `lookupFunction` (`juice.py:248-264`); it does not depend on what the callables do. -/
def lookup (app : SApp σ) (name : Str) (ns : Option Str) : Except PyErr (Option Fn) :=
  lookupFunction ⟨app.attr, fun _ _ => .returned [], fun _ _ => .returned []⟩ name ns

/-- `dispatchCommand` (`juice.py:266-270`): the store afterwards, and what the `Deferred` fires with. -/
def dispatch (U : Uni) (H : Hier) (wrapper : Bool) (app : SApp σ) (cmd : Str) (box : Box) (ns : Option Str) (st : σ) :
    σ × Except PyErr Out :=
  match lookup app (normalizeCommand U cmd) ns with
  | .error e => (st, .error e)
  | .ok none => (st, .ok (.failed { cls := H.unhandledCommand, text := cmd }))
  | .ok (some f) =>
    match wrap wrapper (call U H app box f) st with
    | (st', .raises e) => (st', .ok (.failed e))
    | (st', .returns o) => (st', .ok o)

/-- `_Transactor.__repr__` (`juice.py:194-195`), from what `str` gives for the store and the callable. -/
def transactorRepr (store callable : Str) : Str :=
  "<Transaction in: ".toList.map Char.toNat ++ store ++ " of: ".toList.map Char.toNat ++ callable ++ [62]

end Verif.JuiceTransact
