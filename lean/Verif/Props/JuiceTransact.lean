import Verif.Model.JuiceTransact
import Verif.Props.JuiceDispatch
/-!
# C139 — juice commands that run in transactions
-/
namespace Verif.JuiceTransact
open Verif.Py Verif.Juice Verif.JuiceArgs Verif.JuiceRpc Verif.JuiceDispatch

variable {σ : Type} (U : Uni) (H : Hier) (app : SApp σ)

/-- The application as it answers when the store is `st`. -/
def at_ (st : σ) : App := ⟨app.attr, fun m kw => (app.run m kw st).2, fun m b => (app.runOld m b st).2⟩

/-- The store after a call into the application. -/
def after (st : σ) : Call → σ
  | .command m kw => (app.run m kw st).1
  | .old m b => (app.runOld m b st).1

/-- The name of the method a command is looked up by. -/
def method (pre cmd : Str) : Str := pre ++ normalizeCommand U cmd

theorem lookup_eq (st : σ) (name : Str) (ns : Option Str) : lookup app name ns = lookupFunction (at_ app st) name ns := rfl

/-- **The wrapper does not change what comes back**: with or without it a command is answered as in C31 and C32, for the store as
it is. -/
theorem same_answer (wrapper : Bool) (cmd : Str) (box : Box) (ns : Option Str) (st : σ) :
    (dispatch U H wrapper app cmd box ns st).2 = (dispatchCommand U H (at_ app st) cmd box ns).2 := by
  unfold dispatch dispatchCommand
  rw [lookup_eq app st]
  rcases lookupFunction (at_ app st) (normalizeCommand U cmd) ns with e | _ | f
  · rfl
  · rfl
  · cases f with
    | auto m c =>
      simp only [wrap, call, doitS, doit, transact]
      cases stringsToObjects (textBox box) c.arguments with
      | error e => cases wrapper <;> rfl
      | ok kw => cases wrapper <;> rfl
    | old m =>
      simp only [wrap, call, transact, at_]
      rcases app.runOld m box st with ⟨st', b | e⟩ <;> cases wrapper <;> rfl

/-- **Without a wrapper** the store is as the one call into the application, if any, left it. -/
theorem unwrapped_store (cmd : Str) (box : Box) (ns : Option Str) (st : σ) :
    (dispatch U H false app cmd box ns st).1 = (dispatchCommand U H (at_ app st) cmd box ns).1.foldl (after app) st := by
  unfold dispatch dispatchCommand
  rw [lookup_eq app st]
  rcases lookupFunction (at_ app st) (normalizeCommand U cmd) ns with e | _ | f
  · rfl
  · rfl
  · cases f with
    | auto m c =>
      simp only [wrap, call, doitS, doit]
      cases stringsToObjects (textBox box) c.arguments with
      | error e => rfl
      | ok kw => rfl
    | old m =>
      simp only [wrap, call, List.foldl_cons, List.foldl_nil, after]
      rcases app.runOld m box st with ⟨st', b | e⟩ <;> rfl

/-- **In a transaction, an old-style method that raises leaves the store as it was**, and one that returns leaves its changes. -/
theorem old_transaction (cmd : Str) (box : Box) (st : σ) (m : Nat) (a : Attr)
    (h1 : app.attr (method U autoDispatchPrefix cmd) = none)
    (h2 : app.attr (method U baseDispatchPrefix cmd) = some a) (ha : a = .bare m ∨ ∃ c, a = .command m c) :
    (∀ st' e, app.runOld m box st = (st', .raised e) →
      dispatch U H true app cmd box none st = (st, .ok (.failed e))) ∧
    (∀ st' b, app.runOld m box st = (st', .returned b) →
      dispatch U H true app cmd box none st = (st', .ok (.answer b false))) := by
  have hl : lookup app (normalizeCommand U cmd) none = .ok (some (.old m)) := by
    simp only [method] at h1 h2
    unfold lookup lookupFunction
    simp only [h1, h2]
    rcases ha with rfl | ⟨c, rfl⟩ <;> rfl
  constructor
  · intro st' e h
    simp [dispatch, hl, wrap, transact, call, h]
  · intro st' e h
    simp [dispatch, hl, wrap, transact, call, h]

/-- **… and so does a command whose arguments cannot be read**, one in the wrong namespace, and one that nobody handles. -/
theorem not_run (wrapper : Bool) (cmd : Str) (box : Box) (ns : Option Str) (st : σ) :
    (∀ m c e, app.attr (method U autoDispatchPrefix cmd) = some (.command m c) → ns ∈ c.namespaces →
      stringsToObjects (textBox box) c.arguments = .error e →
      dispatch U H wrapper app cmd box ns st = (st, .ok (.failed (H.builtin e)))) ∧
    (∀ m c, app.attr (method U autoDispatchPrefix cmd) = some (.command m c) → ns ∉ c.namespaces →
      dispatch U H wrapper app cmd box ns st = (st, .ok (.failed { cls := H.unhandledCommand, text := cmd }))) ∧
    (app.attr (method U autoDispatchPrefix cmd) = none → app.attr (method U baseDispatchPrefix cmd) = none →
      (dispatch U H wrapper app cmd box ns st).1 = st) := by
  simp only [method]
  refine ⟨fun m c e h hn he => ?_, fun m c h hn => ?_, fun h h' => ?_⟩
  · simp only [dispatch, lookup, lookupFunction, h, auto, hn, if_true, wrap, transact, call, doitS, he]
    cases wrapper <;> rfl
  · simp [dispatch, lookup, lookupFunction, h, auto, hn]
  · by_cases hn : ns = none
    · simp [dispatch, lookup, lookupFunction, h, h', hn]
    · simp [dispatch, lookup, lookupFunction, h, hn]

/-- **A command that fails is not undone**: whatever a `command_` method raises, and whenever its answer cannot be written, the
transaction keeps the changes it had made, because `doit` turns the exception into a `Deferred` that fails.  The method is called with
the arguments of the box, and with the extra ones in place of those of the same name. -/
theorem command_kept (cmd : Str) (box : Box) (ns : Option Str) (st st' : σ) (m : Nat) (c : Cmd) (kw : Dict Str Obj) (r : Ran)
    (ha : app.attr (method U autoDispatchPrefix cmd) = some (.command m c)) (hn : ns ∈ c.namespaces)
    (hs : stringsToObjects (textBox box) c.arguments = .ok kw)
    (hr : app.run m (c.extra.foldl (fun args p => Dict.set args p.1 p.2) kw) st = (st', r)) :
    dispatch U H true app cmd box ns st = (st', .ok (afterRun U H c r)) := by
  simp only [method] at ha
  simp [dispatch, lookup, lookupFunction, ha, auto, hn, wrap, transact, call, doitS, hs, hr]

/-- A store that counts, and an application with the command `ADD`, which counts and fails, and the old-style method `OLD`, which
does the same. -/
def counting (H : Hier) : SApp Nat where
  attr n := if n = "command_ADD".toList.map Char.toNat then some (.command 0 {})
    else if n = "juice_OLD".toList.map Char.toNat then some (.bare 1) else none
  run _ _ st := (st + 1, .raised (H.builtin .valueError))
  runOld _ _ st := (st + 1, .raised (H.builtin .valueError))

/-- **A failing command is not undone, an old-style method is**: the store counts 1 after `ADD` failed, and 0 after `OLD` did. -/
theorem rollback_fails :
    (dispatch U H true (counting H) ("ADD".toList.map Char.toNat) [] none 0).1 = 1 ∧
    (dispatch U H true (counting H) ("ADD".toList.map Char.toNat) [] none 0).2 = .ok (.failed (H.builtin .valueError)) ∧
    (dispatch U H true (counting H) ("OLD".toList.map Char.toNat) [] none 0).1 = 0 := by
  have hname : ∀ name : Str, (∀ c ∈ name, c < 128) → (∀ c, name.head? = some c → isAsciiSpace c = false) →
      (∀ c, name.getLast? = some c → isAsciiSpace c = false) →
      normalizeCommand U name = name.map fun c => if c = 45 then 95 else if 97 ≤ c ∧ c ≤ 122 then c - 32 else c := by
    intro name h1 h2 h3
    have := command_name U [] name [] h1 (by simp) h2 h3
    simpa using this
  have h1 : normalizeCommand U ("ADD".toList.map Char.toNat) = "ADD".toList.map Char.toNat :=
    hname _ (by decide) (by decide) (by decide)
  have h2 : normalizeCommand U ("OLD".toList.map Char.toNat) = "OLD".toList.map Char.toNat :=
    hname _ (by decide) (by decide) (by decide)
  unfold dispatch
  rw [h1, h2]
  exact ⟨rfl, rfl, rfl⟩

end Verif.JuiceTransact
