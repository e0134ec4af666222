import Verif.Model.Hotfix
/-!
# C58: hotfixes
-/
namespace Verif.Hotfix
open Verif.Py

/-- The fixes of package `twisted`, and the module under `epsilon.hotfixes` that has each. -/
def fixes : List (String × String) :=
  [("filepath_copyTo", "filepath_copyTo"), ("timeoutmixin_calllater", "timeoutmixin_calllater"),
   ("delayedcall_seconds", "delayedcall_seconds"), ("deferredgenerator_tfailure", "deferredgenerator_tfailure"),
   ("proto_helpers_stringtransport", "proto_helpers_stringtransport"), ("internet_task_Clock", "internet_task_clock"),
   ("trial_assertwarns", "trial_assertwarns"), ("plugin_package_paths", "plugin_package_paths"),
   ("loopbackasync_reentrancy", "loopbackasync_reentrancy")]

/-- Specification: Twisted has the problem that the module cures. -/
def Problem (module_ : String) (w : World) : Prop :=
  (module_ = "filepath_copyTo" ∧ w.pathsDiffer = true) ∨
  (module_ = "timeoutmixin_calllater" ∧ w.hasCallLater = false) ∨
  (module_ = "delayedcall_seconds" ∧ "seconds" ∉ w.delayedArgs) ∨
  (module_ = "deferredgenerator_tfailure" ∧ w.generator = .ok [some 1]) ∨
  (module_ = "proto_helpers_stringtransport" ∧ w.writeText = .ok ()) ∨
  (module_ = "internet_task_clock" ∧ w.clockBroken = true) ∨
  (module_ = "trial_assertwarns" ∧ w.hasAssertWarns = false) ∨
  (module_ = "plugin_package_paths" ∧ w.importPaths = .error importError) ∨
  (module_ = "loopbackasync_reentrancy" ∧ (w.version.1 < 8 ∨ (w.version.1 = 8 ∧ w.version.2 < 2)))

/-- Looking for the problem raises the exception instead of giving an answer. -/
def Undetectable (module_ : String) (w : World) (e : PyErr) : Prop :=
  (module_ = "deferredgenerator_tfailure" ∧ w.generator = .error e) ∨
  (module_ = "deferredgenerator_tfailure" ∧ (∃ l, w.generator = .ok l ∧ l ≠ [some 1] ∧ l ≠ [none]) ∧ e = .assertionError) ∨
  (module_ = "proto_helpers_stringtransport" ∧ w.writeText = .error e ∧ e ≠ .typeError) ∨
  (module_ = "plugin_package_paths" ∧ w.importPaths = .error e ∧ e ≠ importError)

/-- What `check` does, for a known fix and module. -/
theorem check_known {f m : String} (hf : (f, m) ∈ fixes) (st : St) (outcome : Except PyErr World) :
    (Problem m st.world ∧ check st "twisted" f outcome = install st m outcome) ∨
    (¬ Problem m st.world ∧ (∀ e, ¬ Undetectable m st.world e) ∧ check st "twisted" f outcome = (.ok (), st)) ∨
    (¬ Problem m st.world ∧ ∃ e, Undetectable m st.world e ∧ check st "twisted" f outcome = (.error e, st)) := by
  simp only [fixes, List.mem_cons, Prod.mk.injEq, List.not_mem_nil, or_false] at hf
  rcases hf with ⟨rfl, rfl⟩ | ⟨rfl, rfl⟩ | ⟨rfl, rfl⟩ | ⟨rfl, rfl⟩ | ⟨rfl, rfl⟩ | ⟨rfl, rfl⟩ | ⟨rfl, rfl⟩ | ⟨rfl, rfl⟩ |
    ⟨rfl, rfl⟩
  · by_cases h : st.world.pathsDiffer = true <;> simp [check, Problem, Undetectable, h]
  · by_cases h : st.world.hasCallLater = true <;> simp [check, Problem, Undetectable, h]
  · by_cases h : "seconds" ∈ st.world.delayedArgs <;> simp [check, Problem, Undetectable, h]
  · cases h : st.world.generator with
    | error e => simp [check, Problem, Undetectable, h]
    | ok l =>
      by_cases h1 : l = [some 1]
      · simp [check, Problem, h, h1]
      · by_cases h2 : l = [none] <;> simp [check, Problem, Undetectable, h, h1, h2]
  · cases h : st.world.writeText with
    | error e => by_cases h1 : e = .typeError <;> simp [check, Problem, Undetectable, h, h1]
    | ok u => simp [check, Problem, h]
  · by_cases h : st.world.clockBroken = true <;> simp [check, Problem, Undetectable, h]
  · by_cases h : st.world.hasAssertWarns = true <;> simp [check, Problem, Undetectable, h]
  · cases h : st.world.importPaths with
    | error e => by_cases h1 : e = importError <;> simp [check, Problem, Undetectable, h, h1]
    | ok u => simp [check, Problem, Undetectable, h]
  · by_cases h : st.world.version.1 < 8 ∨ (st.world.version.1 = 8 ∧ st.world.version.2 < 2) <;>
      simp [check, Problem, Undetectable, h]

/-- The name is one of the nine. -/
def Known (p f : String) : Prop := p = "twisted" ∧ ∃ m, (f, m) ∈ fixes

theorem check_unknown {p f : String} (h : ¬ Known p f) (st : St) (outcome : Except PyErr World) :
    check st p f outcome = (.error noSuchHotfix, st) := by
  have ne : ∀ f', f' ∈ fixes.map (·.1) → (p, f) ≠ ("twisted", f') := by
    intro f' hm e
    cases e
    obtain ⟨x, hx, rfl⟩ := List.mem_map.1 hm
    exact h ⟨rfl, x.2, hx⟩
  unfold check
  rw [if_neg (ne _ (by decide)), if_neg (ne _ (by decide)), if_neg (ne _ (by decide)), if_neg (ne _ (by decide)),
    if_neg (ne _ (by decide)), if_neg (ne _ (by decide)), if_neg (ne _ (by decide)), if_neg (ne _ (by decide)),
    if_neg (ne _ (by decide))]

theorem fixes_module {f m m' : String} (h : (f, m) ∈ fixes) (h' : (f, m') ∈ fixes) : m = m' := by
  have : ∀ x ∈ fixes, ∀ y ∈ fixes, x.1 = y.1 → x.2 = y.2 := by decide
  exact this _ h _ h' rfl

theorem fixes_fix {f f' m : String} (h : (f, m) ∈ fixes) (h' : (f', m) ∈ fixes) : f = f' := by
  have : ∀ x ∈ fixes, ∀ y ∈ fixes, x.2 = y.2 → x.1 = y.1 := by decide
  exact this _ h _ h' rfl

/-- What `require` does, in full. -/
theorem require_spec (st : St) (p f : String) (outcome : Except PyErr World) :
    ((p, f) ∈ st.installed ∧ require st p f outcome = (.ok (), st)) ∨
    ((p, f) ∉ st.installed ∧ ¬ Known p f ∧ require st p f outcome = (.error noSuchHotfix, st)) ∨
    ((p, f) ∉ st.installed ∧ p = "twisted" ∧ ∃ m, (f, m) ∈ fixes ∧
      ((Problem m st.world ∧
          ((∃ w, outcome = .ok w ∧ require st p f outcome =
            (.ok (), ⟨st.installed ++ [(p, f)], w, st.log ++ [(m, st.world, true)]⟩)) ∨
          (∃ e, outcome = .error e ∧ require st p f outcome =
            (.error e, ⟨st.installed, st.world, st.log ++ [(m, st.world, false)]⟩)))) ∨
       (¬ Problem m st.world ∧ (∀ e, ¬ Undetectable m st.world e) ∧ require st p f outcome =
          (.ok (), ⟨st.installed ++ [(p, f)], st.world, st.log⟩)) ∨
       (¬ Problem m st.world ∧ ∃ e, Undetectable m st.world e ∧ require st p f outcome = (.error e, st)))) := by
  unfold require
  by_cases hi : (p, f) ∈ st.installed
  · exact Or.inl ⟨hi, by rw [if_pos hi]⟩
  · right
    rw [if_neg hi]
    by_cases hk : Known p f
    · right
      obtain ⟨rfl, m, hm⟩ := hk
      refine ⟨hi, rfl, m, hm, ?_⟩
      rcases check_known hm st outcome with ⟨a, e⟩ | ⟨a, b, e⟩ | ⟨a, x, b, e⟩
      · left
        refine ⟨a, ?_⟩
        rw [e]
        unfold install
        cases outcome with
        | ok w => exact Or.inl ⟨w, rfl, rfl⟩
        | error x => exact Or.inr ⟨x, rfl, rfl⟩
      · rw [e]; exact Or.inr (Or.inl ⟨a, b, rfl⟩)
      · rw [e]; exact Or.inr (Or.inr ⟨a, x, b, rfl⟩)
    · left
      rw [check_unknown hk]
      exact ⟨hi, hk, rfl⟩

/-- What holds in every state of a process. -/
structure Inv (st : St) : Prop where
  known : ∀ p f, (p, f) ∈ st.installed → Known p f
  module_ : ∀ m w b, (m, w, b) ∈ st.log → (∃ f, (f, m) ∈ fixes) ∧ Problem m w
  done : ∀ f m w, (f, m) ∈ fixes → (m, w, true) ∈ st.log → ("twisted", f) ∈ st.installed
  once : ∀ m, (st.log.filter fun e => e.1 = m ∧ e.2.2 = true).length ≤ 1

theorem step_inv {st : St} (h : Inv st) (o : Op) : Inv (step st o) := by
  cases o with
  | change w => exact ⟨h.known, h.module_, h.done, h.once⟩
  | require p f outcome =>
    unfold step
    rcases require_spec st p f outcome with ⟨_, e⟩ | ⟨_, _, e⟩ | ⟨hi, rfl, m, hm, hc⟩
    · simp only [e]; exact h
    · simp only [e]; exact h
    · rcases hc with ⟨hp, ⟨w, _, e⟩ | ⟨x, _, e⟩⟩ | ⟨_, _, e⟩ | ⟨_, x, _, e⟩
      · simp only [e]
        refine ⟨fun p' f' hin => ?_, fun m' w' b hin => ?_, fun f' m' w' hf hin => ?_, fun m' => ?_⟩
        · rcases List.mem_append.1 hin with hin | hin
          · exact h.known p' f' hin
          · simp only [List.mem_singleton] at hin
            cases hin; exact ⟨rfl, m, hm⟩
        · rcases List.mem_append.1 hin with hin | hin
          · exact h.module_ m' w' b hin
          · simp only [List.mem_singleton] at hin
            cases hin; exact ⟨⟨f, hm⟩, hp⟩
        · rcases List.mem_append.1 hin with hin | hin
          · exact List.mem_append_left _ (h.done f' m' w' hf hin)
          · simp only [List.mem_singleton] at hin
            cases hin
            rw [fixes_fix hf hm]
            simp
        · rw [List.filter_append, List.length_append]
          by_cases hmm : m = m'
          · subst hmm
            have : st.log.filter (fun e => decide (e.1 = m ∧ e.2.2 = true)) = [] := by
              rw [List.filter_eq_nil_iff]
              rintro ⟨a, b, c⟩ hin hc
              simp only [decide_eq_true_eq] at hc
              obtain ⟨rfl, rfl⟩ := hc
              exact hi (h.done f a b hm hin)
            rw [this]; simp
          · have := h.once m'
            simp [hmm] at this ⊢
            exact this
      · simp only [e]
        refine ⟨h.known, fun m' w' b hin => ?_, fun f' m' w' hf hin => ?_, fun m' => ?_⟩
        · rcases List.mem_append.1 hin with hin | hin
          · exact h.module_ m' w' b hin
          · simp only [List.mem_singleton] at hin
            cases hin; exact ⟨⟨f, hm⟩, hp⟩
        · rcases List.mem_append.1 hin with hin | hin
          · exact h.done f' m' w' hf hin
          · simp at hin
        · have := h.once m'
          rw [List.filter_append, List.length_append]
          simpa using this
      · simp only [e]
        refine ⟨fun p' f' hin => ?_, h.module_, fun f' m' w' hf hin => ?_, h.once⟩
        · rcases List.mem_append.1 hin with hin | hin
          · exact h.known p' f' hin
          · simp only [List.mem_singleton] at hin
            cases hin; exact ⟨rfl, m, hm⟩
        · exact List.mem_append_left _ (h.done f' m' w' hf hin)
      · simp only [e]; exact h

theorem run_inv (w : World) (ops : List Op) : Inv (run (start w) ops) := by
  have gen : ∀ (ops : List Op) (st : St), Inv st → Inv (run st ops) := by
    intro ops
    induction ops with
    | nil => intro st h; exact h
    | cons o ops ih => intro st h; exact ih _ (step_inv h o)
  exact gen ops _ ⟨by simp [start], by simp [start], by simp [start], by simp [start]⟩

/-- **C58, partial** (an `install` that raises may be called again: `hotfix_retry_fails`): in the life of a process each hotfix module's `install` returns at most once, and `install` is only ever
called in a world that has the problem. -/
theorem hotfix_once_partial (w : World) (ops : List Op) :
    (∀ m, ((run (start w) ops).log.filter fun e => e.1 = m ∧ e.2.2 = true).length ≤ 1) ∧
    ∀ m w' b, (m, w', b) ∈ (run (start w) ops).log → Problem m w' :=
  ⟨(run_inv w ops).once, fun m w' b h => ((run_inv w ops).module_ m w' b h).2⟩

/-- **C58**: once `require` has returned it does nothing any more, whatever happens to Twisted. -/
theorem hotfix_settled (st : St) (p f : String) (outcome : Except PyErr World) (h : (require st p f outcome).1 = .ok ())
    (ops : List Op) (outcome' : Except PyErr World) :
    require (run (require st p f outcome).2 ops) p f outcome' = (.ok (), run (require st p f outcome).2 ops) := by
  have h1 : (p, f) ∈ (require st p f outcome).2.installed := by
    rcases require_spec st p f outcome with ⟨hi, e⟩ | ⟨_, _, e⟩ | ⟨hi, rfl, m, hm, hc⟩
    · rw [e]; exact hi
    · rw [e] at h; cases h
    · rcases hc with ⟨hp, ⟨w, _, e⟩ | ⟨x, _, e⟩⟩ | ⟨_, _, e⟩ | ⟨_, x, _, e⟩
      · rw [e]; simp
      · rw [e] at h; cases h
      · rw [e]; simp
      · rw [e] at h; cases h
  have mono : ∀ (ops : List Op) (st : St), (p, f) ∈ st.installed → (p, f) ∈ (run st ops).installed := by
    intro ops
    induction ops with
    | nil => intro st h; exact h
    | cons o ops ih =>
      intro st h
      refine ih _ ?_
      cases o with
      | change w => exact h
      | require p' f' outcome =>
        unfold step
        rcases require_spec st p' f' outcome with ⟨_, e⟩ | ⟨_, _, e⟩ | ⟨hi, rfl, m, hm, hc⟩
        · simp only [e]; exact h
        · simp only [e]; exact h
        · rcases hc with ⟨hp, ⟨w, _, e⟩ | ⟨x, _, e⟩⟩ | ⟨_, _, e⟩ | ⟨_, x, _, e⟩ <;> simp only [e] <;> simp [h]
  have h2 := mono ops _ h1
  rw [require, if_pos h2]

/-- **C58**: `NoSuchHotfix` is raised exactly for unknown names (by `require` itself, that is unless a question to
Twisted or an installation raises it). -/
theorem hotfix_unknown (w : World) (ops : List Op) (p f : String) (outcome : Except PyErr World)
    (ho : outcome ≠ .error noSuchHotfix) (hu : ∀ m, ¬ Undetectable m (run (start w) ops).world noSuchHotfix) :
    (require (run (start w) ops) p f outcome).1 = .error noSuchHotfix ↔ ¬ Known p f := by
  have hinv := run_inv w ops
  constructor
  · intro h hk
    rcases require_spec (run (start w) ops) p f outcome with ⟨hi, e⟩ | ⟨_, hn, e⟩ | ⟨hi, rfl, m, hm, hc⟩
    · rw [e] at h; cases h
    · exact hn hk
    · rcases hc with ⟨hp, ⟨w, _, e⟩ | ⟨x, hx, e⟩⟩ | ⟨_, _, e⟩ | ⟨_, x, hx, e⟩
      · rw [e] at h; cases h
      · rw [e] at h; cases h; exact ho hx
      · rw [e] at h; cases h
      · rw [e] at h; cases h; exact hu m hx
  · intro hk
    rcases require_spec (run (start w) ops) p f outcome with ⟨hi, e⟩ | ⟨_, hn, e⟩ | ⟨hi, rfl, m, hm, hc⟩
    · exact absurd (hinv.known p f hi) hk
    · rw [e]
    · exact absurd ⟨rfl, m, hm⟩ hk

/-- **C58**: the first `require` of a fix installs its module if the problem is there. -/
theorem hotfix_installs (st : St) {f m : String} (hm : (f, m) ∈ fixes) (hn : ("twisted", f) ∉ st.installed)
    (hp : Problem m st.world) (w : World) :
    require st "twisted" f (.ok w) =
      (.ok (), ⟨st.installed ++ [("twisted", f)], w, st.log ++ [(m, st.world, true)]⟩) := by
  rcases require_spec st "twisted" f (.ok w) with ⟨hi, e⟩ | ⟨_, hk, e⟩ | ⟨hi, _, m', hm', hc⟩
  · exact absurd hi hn
  · exact absurd ⟨rfl, m, hm⟩ hk
  · cases fixes_module hm hm'
    rcases hc with ⟨_, ⟨w, hw, e⟩ | ⟨x, hx, e⟩⟩ | ⟨h, _⟩ | ⟨h, _⟩
    · cases hw; exact e
    · cases hx
    · exact absurd hp h
    · exact absurd hp h

/-- An installation that raises is not recorded: the next `require` calls it again, on top of whatever the failed one
has done. -/
theorem hotfix_retry_fails : ∃ (w : World) (ops : List Op),
    ((run (start w) ops).log.filter fun e => e.1 = "filepath_copyTo").length = 2 :=
  ⟨⟨true, true, [], .ok [], .ok (), false, true, .ok (), (20, 3)⟩,
    [.require "twisted" "filepath_copyTo" (.error .attributeError),
     .require "twisted" "filepath_copyTo" (.error .attributeError)], by decide⟩

example : (run (start ⟨true, false, [], .ok [none], .error .typeError, true, false, .error importError, (8, 1)⟩)
    [.require "twisted" "filepath_copyTo" (.ok ⟨false, false, [], .ok [none], .error .typeError, true, false, .ok (), (8, 1)⟩),
     .require "twisted" "plugin_package_paths" (.error .valueError),
     .require "twisted" "filepath_copyTo" (.error .valueError), .require "divmod" "x" (.error .valueError),
     .require "twisted" "loopbackasync_reentrancy" (.ok ⟨false, false, [], .ok [none], .ok (), true, false, .ok (), (8, 1)⟩)]).log.map
       (fun e => (e.1, e.2.2)) =
    [("filepath_copyTo", true), ("loopbackasync_reentrancy", true)] := by decide

end Verif.Hotfix
