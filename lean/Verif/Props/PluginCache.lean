import Verif.Model.PluginCache
/-!
# C89: regenerating the plugin cache
-/
namespace Verif.PluginCache
open Verif.Py

/-- The modules that can be imported, in order. -/
def importable (imp : Importer) (names : List Str) : List Nat :=
  names.filterMap (fun n => match imp n with | .ok m => some m | .error _ => none)

/-- No module fails with a `ValueError` that has no arguments. -/
def NoBareError (imp : Importer) (names : List Str) : Prop := ∀ n ∈ names, imp n ≠ .error (.value none)

theorem handle_ok {e : Exc} (h : e ≠ .value none) : ∃ b, handle e = .ok b := by
  cases e with
  | value a => cases a with
    | none => exact absurd rfl h
    | some a => exact ⟨_, rfl⟩
  | _ => exact ⟨_, rfl⟩

/-- The next module yielded is the next one that can be imported. -/
theorem advance_spec {imp : Importer} {names : List Str} (h : NoBareError imp names) :
    (importable imp names = [] → (advance imp names).1 = .finished ∧ (advance imp names).2.1 = .stop) ∧
    (∀ m ms, importable imp names = m :: ms → ∃ rest, (advance imp names).1 = .suspended rest ∧
      (advance imp names).2.1 = .value m ∧ importable imp rest = ms ∧ NoBareError imp rest ∧ rest.length < names.length) := by
  induction names with
  | nil => exact ⟨fun _ => ⟨rfl, rfl⟩, fun m ms h => by cases h⟩
  | cons n names ih =>
    have ih := ih (fun x hx => h x (List.mem_cons_of_mem _ hx))
    cases hi : imp n with
    | ok m' =>
      have e : importable imp (n :: names) = m' :: importable imp names := by simp [importable, hi]
      rw [e]
      refine ⟨fun hc => (by cases hc), ?_⟩
      rintro m ms ⟨⟩
      refine ⟨names, ?_, ?_, rfl, fun x hx => h x (List.mem_cons_of_mem _ hx), by simp⟩
      · simp [advance, hi]
      · simp [advance, hi]
    | error x =>
      have e : importable imp (n :: names) = importable imp names := by simp [importable, hi]
      obtain ⟨b, hb⟩ := handle_ok (e := x) (by rintro rfl; exact h n (by simp) hi)
      rw [e]
      have e1 : (advance imp (n :: names)).1 = (advance imp names).1 := by simp [advance, hi, hb]
      have e2 : (advance imp (n :: names)).2.1 = (advance imp names).2.1 := by simp [advance, hi, hb]
      rw [e1, e2]
      refine ⟨ih.1, fun m ms hm => ?_⟩
      obtain ⟨rest, a, b, c, d, f⟩ := ih.2 m ms hm
      exact ⟨rest, a, b, c, d, by simp only [List.length_cons]; omega⟩

/-- A traceback is printed for a module exactly if its import fails otherwise than with an `ImportError` or the
`ValueError` for an empty name. -/
theorem printed_iff {e : Exc} {b : Bool} (h : handle e = .ok b) :
    b = true ↔ e ≠ .importError ∧ e ≠ .value (some emptyName) := by
  cases e with
  | value a => cases a with
    | none => cases h
    | some a =>
      simp only [handle, Except.ok.injEq] at h
      subst h
      simp
  | _ => simp only [handle, Except.ok.injEq] at h; subst h; simp

/-- `list(g)` and the exception it ends in. -/
inductive Run (imp : Importer) : Gen → List Nat → Option PyErr → Prop
  | stop {g g'} : next imp g = (g', .stop) → Run imp g [] none
  | raised {g g' e} : next imp g = (g', .raised e) → Run imp g [] (some e)
  | value {g g' m ms e} : next imp g = (g', .value m) → Run imp g' ms e → Run imp g (m :: ms) e

/-- **C89, partial.**  `pluginModules` yields exactly the modules that can be imported, in order: no failure keeps the others
from being yielded, unless it is a `ValueError` without arguments. -/
theorem pluginModules_partial {imp : Importer} {names : List Str} (h : NoBareError imp names) :
    Run imp (.fresh names) (importable imp names) none := by
  have key : ∀ (ms : List Nat) (names : List Str) (g : Gen), (g = .fresh names ∨ g = .suspended names) → NoBareError imp names →
      importable imp names = ms → Run imp g ms none := by
    intro ms
    induction ms with
    | nil =>
      intro names g hg h hi
      obtain ⟨a, b⟩ := (advance_spec h).1 hi
      apply Run.stop (g' := .finished)
      rcases hg with rfl | rfl <;> simp [next, a, b]
    | cons m ms ih =>
      intro names g hg h hi
      obtain ⟨rest, a, b, c, d, -⟩ := (advance_spec h).2 m ms hi
      apply Run.value (g' := .suspended rest)
      · rcases hg with rfl | rfl <;> simp [next, a, b]
      · exact ih rest _ (Or.inr rfl) d c
  exact key _ names _ (Or.inl rfl) h rfl

/-- The modules whose plugins are listed: all of them, or up to the first for which listing fails. -/
def asked (plugins : Nat → Except PyErr Unit) : List Nat → List Nat × Option PyErr
  | [] => ([], none)
  | m :: ms =>
    match plugins m with
    | .error e => ([m], some e)
    | .ok _ => (m :: (asked plugins ms).1, (asked plugins ms).2)

theorem askAll_eq {imp : Importer} (plugins : Nat → Except PyErr Unit) {names : List Str} (h : NoBareError imp names) {g : Gen}
    (hg : g = .fresh names ∨ g = .suspended names) {fuel : Nat} (hf : names.length < fuel) :
    askAll imp plugins fuel g = asked plugins (importable imp names) := by
  induction fuel generalizing names g with
  | zero => omega
  | succ fuel ih =>
    have hn : next imp g = ((advance imp names).1, (advance imp names).2.1) := by rcases hg with rfl | rfl <;> rfl
    unfold askAll
    cases hi : importable imp names with
    | nil =>
      obtain ⟨a, b⟩ := (advance_spec h).1 hi
      rw [hn, a, b]
      rfl
    | cons m ms =>
      obtain ⟨rest, a, b, c, d, e⟩ := (advance_spec h).2 m ms hi
      rw [hn, a, b]
      simp only
      cases hp : plugins m with
      | error x => simp [asked, hp]
      | ok u =>
        simp only [asked, hp]
        rw [ih d (Or.inr rfl) (by omega), c]

/-- **C89**: when `install` was among the commands, the library directory comes first on `sys.path`, and with that path the
plugins of `p.plugins` are listed for every plugin package `p` for which it can be imported; otherwise nothing happens. -/
theorem regenerate_partial {commands : List Str} {lib : Str} {path : List Str} {imp : List Str → Importer}
    {plugins : Nat → Except PyErr Unit} {packages : List Str}
    (h : NoBareError (imp (lib :: path)) (packages.map (· ++ ".plugins".toList.map Char.toNat))) :
    regeneratePluginCache commands (some lib) path imp plugins packages =
      if "install".toList.map Char.toNat ∈ commands then
        (lib :: path, asked plugins (importable (imp (lib :: path)) (packages.map (· ++ ".plugins".toList.map Char.toNat))))
      else (path, [], none) := by
  have e1 : "install".toList.map Char.toNat = sInstall := by decide
  have e2 : (fun p : Str => p ++ ".plugins".toList.map Char.toNat) = pluginName := by
    funext p
    have : ".plugins".toList.map Char.toNat = 46 :: Setuphelper.sPlugins := by decide
    rw [this]; rfl
  rw [e2] at h ⊢
  rw [e1]
  unfold regeneratePluginCache regenerate
  split
  · simp only
    rw [askAll_eq plugins h (Or.inl rfl) (by simp)]
  · rfl

/-- Three packages: the second is not there, the third is broken. -/
def imp0 : Importer := fun n =>
  if n = [97] then .ok 1 else if n = [98] then .error .importError else if n = [99] then .error (.other 0)
  else if n = [100] then .ok 4 else .error (.value none)

example : NoBareError imp0 [[97], [98], [99], [100]] ∧ importable imp0 [[97], [98], [99], [100]] = [1, 4] ∧
    (advance imp0 [[98], [99], [100]]).2.2 = [[99]] := by
  refine ⟨?_, rfl, rfl⟩
  unfold NoBareError
  decide

/-- C89 as stated is false: a module that does `raise ValueError` ends the generator with an `IndexError`, whatever comes after
it… -/
theorem bare_error_fails {imp : Importer} {names : List Str} {n : Str} (hn : imp n = .error (.value none)) :
    Run imp (.fresh (n :: names)) [] (some .indexError) := by
  apply Run.raised (g' := .finished)
  simp [next, advance, hn, handle]

/-- …an exception in listing the plugins of a module keeps the later modules from being asked… -/
theorem listing_fails (plugins : Nat → Except PyErr Unit) {pre post : List Nat} {m : Nat} {e : PyErr}
    (hpre : ∀ x ∈ pre, plugins x = .ok ()) (hm : plugins m = .error e) :
    asked plugins (pre ++ m :: post) = (pre ++ [m], some e) := by
  induction pre with
  | nil => simp [asked, hm]
  | cons a pre ih =>
    have := ih (fun x hx => hpre x (List.mem_cons_of_mem _ hx))
    simp [asked, hpre a (by simp), this]

/-- …and a generator that is closed before its end swallows the `GeneratorExit`: if another module can be imported, it yields
it, and `close` raises `RuntimeError`. -/
theorem close_fails {imp : Importer} {names : List Str} (h : NoBareError imp names) :
    (close imp (.suspended names)).2 = none ↔ importable imp names = [] := by
  unfold close
  simp only [handle]
  cases hi : importable imp names with
  | nil =>
    obtain ⟨a, b⟩ := (advance_spec h).1 hi
    rcases hadv : advance imp names with ⟨g, y, p⟩
    rw [hadv] at a b
    simp only at a b
    subst a b
    simp
  | cons m ms =>
    obtain ⟨rest, a, b, -⟩ := (advance_spec h).2 m ms hi
    rcases hadv : advance imp names with ⟨g, y, p⟩
    rw [hadv] at a b
    simp only at a b
    subst a b
    simp

end Verif.PluginCache
