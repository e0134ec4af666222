import Verif.Props.GenRunSpec
/-!
# Lemmas for C144
-/
namespace Verif.GenRun
open Verif.Py
open Verif.DeferredGenerator (Val Res)

def genOf : Frame → Option Nat
  | .loop i _ => some i
  | .body i _ => some i
  | .adding w => some w.1
  | .firing _ => none

/-- The generators that have a frame on the stack. -/
def gens (fs : List Frame) : List Nat := fs.filterMap genOf

theorem mem_gens {i : Nat} {fs : List Frame} : i ∈ gens fs ↔ ∃ f ∈ fs, genOf f = some i := List.mem_filterMap

@[simp] theorem gens_loop (i v fs) : gens (.loop i v :: fs) = i :: gens fs := rfl
@[simp] theorem gens_body (i v fs) : gens (.body i v :: fs) = i :: gens fs := rfl
@[simp] theorem gens_adding (w fs) : gens (.adding w :: fs) = w.1 :: gens fs := rfl
@[simp] theorem gens_firing (d fs) : gens (.firing d :: fs) = gens fs := rfl

theorem gens_of_loop {i v fs} (h : Frame.loop i v ∈ fs) : i ∈ gens fs := mem_gens.mpr ⟨_, h, rfl⟩
theorem gens_of_body {i v fs} (h : Frame.body i v ∈ fs) : i ∈ gens fs := mem_gens.mpr ⟨_, h, rfl⟩
theorem gens_of_adding {w : W} {fs} (h : Frame.adding w ∈ fs) : w.1 ∈ gens fs := mem_gens.mpr ⟨_, h, rfl⟩

theorem takeFirst_eq {d : D} {q : List Entry} {e : Entry} {q' : List Entry} (h : takeFirst d q = some (e, q')) :
    ∃ a b, q = a ++ e :: b ∧ q' = a ++ b ∧ e.d = d ∧ ∀ x ∈ a, x.d ≠ d := by
  induction q generalizing q' with
  | nil => cases h
  | cons x q ih =>
    unfold takeFirst at h
    split at h
    · rename_i hx
      cases h
      exact ⟨[], q, rfl, rfl, hx, by simp⟩
    · rename_i hx
      cases ht : takeFirst d q with
      | none => rw [ht] at h; cases h
      | some p =>
        rw [ht] at h
        cases h
        obtain ⟨a, b, h1, h2, h3, h4⟩ := ih (q' := p.2) ht
        refine ⟨x :: a, b, by rw [h1]; rfl, by rw [h2]; rfl, h3, ?_⟩
        intro y hy
        rcases List.mem_cons.mp hy with rfl | hy
        · exact hx
        · exact h4 y hy

theorem takeFirst_none {d : D} {q : List Entry} (h : takeFirst d q = none) : ∀ x ∈ q, x.d ≠ d := by
  induction q with
  | nil => simp
  | cons x q ih =>
    unfold takeFirst at h
    split at h
    · cases h
    · rename_i hx
      intro y hy
      rcases List.mem_cons.mp hy with rfl | hy
      · exact hx
      · exact ih (by cases ht : takeFirst d q with | none => rfl | some p => rw [ht] at h; cases h) y hy

/-- Where control is. -/
structure Ctl (s : St) : Prop where
  nodupS : (gens s.stack).Nodup
  nodupQ : (s.queue.map (·.w.1)).Nodup
  qTrue : ∀ e ∈ s.queue, s.waiting e.w = true → .adding e.w ∈ s.stack
  qFalse : ∀ e ∈ s.queue, s.waiting e.w = false → e.w.1 ∉ gens s.stack
  add : ∀ w, .adding w ∈ s.stack → s.waiting w = true → ∃ d, ⟨d, w⟩ ∈ s.queue
  qPhase : ∀ e ∈ s.queue, s.phase e.w.1 = .suspended (some (e.w, e.d))
  addPhase : ∀ w, .adding w ∈ s.stack → ∃ d, s.phase w.1 = .suspended (some (w, d))
  loopPhase : ∀ i v, .loop i v ∈ s.stack → ∃ x, s.phase i = .suspended x
  bodyPhase : ∀ i v, .body i v ∈ s.stack → s.phase i = .running
  running : ∀ i, s.phase i = .running → ∃ v, .body i v ∈ s.stack
  susp : ∀ i w d, s.phase i = .suspended (some (w, d)) → w.1 = i ∧ w.2 < s.count i ∧ (i ∈ gens s.stack ∨ ⟨d, w⟩ ∈ s.queue)
  fresh : ∀ i, s.started i = false → s.phase i = .suspended none ∧ i ∉ gens s.stack
  own : ∀ i, s.result (.own i) ≠ none ↔ s.phase i = .finished
  wake : ∀ e ∈ s.queue, s.result e.d ≠ none → .firing e.d ∈ s.stack
  firing : ∀ d, .firing d ∈ s.stack → s.result d ≠ none

theorem Ctl.init : Ctl {} := by
  constructor <;> simp [gens]

theorem Ctl.next {s : St} {i : Nat} {last : Val} {rest : List Frame} {x} {l : List Ev} (h : Ctl s) (hs : s.stack = .loop i last :: rest)
    (hp : s.phase i = .suspended x) :
    Ctl { s with stack := .body i last :: rest, phase := upd s.phase i .running, log := l } := by
  obtain ⟨h1, h2, h3, h4, h5, h6, h7, h8, h9, h10, h11, h12, h13, h14, h15⟩ := h
  rw [hs] at *
  have hi : i ∉ gens rest := by simp at h1; exact h1.1
  constructor
  case running =>
    intro j hj
    by_cases hji : j = i
    · exact ⟨last, by simp [hji]⟩
    · simp only [upd, if_neg hji] at hj
      obtain ⟨v, hv⟩ := h10 j hj
      exact ⟨v, by simp only [List.mem_cons, reduceCtorEq, false_or] at hv; exact List.mem_cons_of_mem _ hv⟩
  all_goals simp only [upd, gens_loop, gens_body, List.mem_cons, reduceCtorEq, false_or, or_false] at *
  all_goals grind [→ gens_of_loop, → gens_of_body, → gens_of_adding]

theorem Ctl.addTrue {s : St} {w : W} {rest : List Frame} (h : Ctl s) (hs : s.stack = .adding w :: rest) (hw : s.waiting w = true) :
    Ctl { s with waiting := upd s.waiting w false, stack := rest } := by
  obtain ⟨h1, h2, h3, h4, h5, h6, h7, h8, h9, h10, h11, h12, h13, h14, h15⟩ := h
  rw [hs] at *
  have hi : w.1 ∉ gens rest := by simp at h1; exact h1.1
  constructor
  all_goals simp only [upd, gens_adding, List.mem_cons, reduceCtorEq, false_or, or_false] at *
  all_goals grind [→ gens_of_loop, → gens_of_body, → gens_of_adding]

theorem Ctl.addFalse {s : St} {w : W} {rest : List Frame} (h : Ctl s) (hs : s.stack = .adding w :: rest) (hw : s.waiting w = false) :
    Ctl { s with stack := .loop w.1 none :: rest } := by
  obtain ⟨h1, h2, h3, h4, h5, h6, h7, h8, h9, h10, h11, h12, h13, h14, h15⟩ := h
  rw [hs] at *
  have hi : w.1 ∉ gens rest := by simp at h1; exact h1.1
  constructor
  case loopPhase =>
    intro j v hj
    rcases List.mem_cons.mp hj with hj | hj
    · cases hj
      obtain ⟨d, hd⟩ := h7 w List.mem_cons_self
      exact ⟨_, hd⟩
    · exact h8 j v (List.mem_cons_of_mem _ hj)
  all_goals simp only [upd, gens_adding, gens_loop, List.mem_cons, reduceCtorEq, false_or, or_false] at *
  all_goals grind [→ gens_of_loop, → gens_of_body, → gens_of_adding]

theorem nodup_take {a b : List Entry} {e : Entry} (h : ((a ++ e :: b).map (·.w.1)).Nodup) :
    ((a ++ b).map (·.w.1)).Nodup ∧ ∀ x ∈ a ++ b, x.w.1 ≠ e.w.1 := by
  have hp : ((e :: (a ++ b)).map (·.w.1)).Nodup := (List.perm_middle.map _).nodup_iff.mp h
  rw [List.map_cons, List.nodup_cons] at hp
  exact ⟨hp.2, fun x hx hxe => hp.1 (List.mem_map.mpr ⟨x, hx, hxe⟩)⟩

theorem Ctl.takeTrue {s : St} {d : D} {rest : List Frame} {e : Entry} {q : List Entry} {g} {r : Res} (h : Ctl s)
    (hs : s.stack = .firing d :: rest) (ht : takeFirst d s.queue = some (e, q)) (hr : s.result d ≠ none) (hw : s.waiting e.w = true) :
    Ctl { s with queue := q, got := g, result := upd s.result d (some r), waiting := upd s.waiting e.w false } := by
  obtain ⟨h1, h2, h3, h4, h5, h6, h7, h8, h9, h10, h11, h12, h13, h14, h15⟩ := h
  obtain ⟨a, b, hq, rfl, hd, -⟩ := takeFirst_eq ht
  rw [hq] at h2
  obtain ⟨h2, hne⟩ := nodup_take h2
  have hmem : ∀ x, x ∈ s.queue ↔ x = e ∨ x ∈ a ++ b := by intro x; rw [hq]; simp; grind
  clear hq ht
  rw [hs] at *
  simp only [hmem] at *
  generalize a ++ b = q at *
  constructor
  all_goals simp only [upd, gens_firing, List.mem_cons, reduceCtorEq, false_or, or_false] at *
  all_goals grind [→ gens_of_loop, → gens_of_body, → gens_of_adding]

theorem Ctl.takeFalse {s : St} {d : D} {rest : List Frame} {e : Entry} {q : List Entry} {g} {r : Res} (h : Ctl s)
    (hs : s.stack = .firing d :: rest) (ht : takeFirst d s.queue = some (e, q)) (hr : s.result d ≠ none) (hw : s.waiting e.w = false) :
    Ctl { s with queue := q, got := g, result := upd s.result d (some r), stack := .loop e.w.1 none :: s.stack } := by
  obtain ⟨h1, h2, h3, h4, h5, h6, h7, h8, h9, h10, h11, h12, h13, h14, h15⟩ := h
  obtain ⟨a, b, hq, rfl, hd, -⟩ := takeFirst_eq ht
  rw [hq] at h2
  obtain ⟨h2, hne⟩ := nodup_take h2
  have hmem : ∀ x, x ∈ s.queue ↔ x = e ∨ x ∈ a ++ b := by intro x; rw [hq]; simp; grind
  clear hq ht
  rw [hs] at *
  simp only [hmem] at *
  generalize a ++ b = q at *
  constructor
  all_goals simp only [upd, gens_firing, gens_loop, List.mem_cons, reduceCtorEq, false_or, or_false] at *
  all_goals grind [→ gens_of_loop, → gens_of_body, → gens_of_adding]

theorem Ctl.popFiring {s : St} {d : D} {rest : List Frame} (h : Ctl s)
    (hs : s.stack = .firing d :: rest) (ht : ∀ x ∈ s.queue, x.d ≠ d) : Ctl { s with stack := rest } := by
  obtain ⟨h1, h2, h3, h4, h5, h6, h7, h8, h9, h10, h11, h12, h13, h14, h15⟩ := h
  rw [hs] at *
  constructor
  all_goals simp only [upd, gens_firing, gens_loop, List.mem_cons, reduceCtorEq, false_or, or_false] at *
  all_goals grind [→ gens_of_loop, → gens_of_body, → gens_of_adding]

theorem Ctl.ended {s : St} {i : Nat} {last : Val} {rest : List Frame} {l} {r : Res} (h : Ctl s) (hs : s.stack = .body i last :: rest) :
    Ctl { s with result := upd s.result (.own i) (some r), stack := .firing (.own i) :: rest, phase := upd s.phase i .finished,
                 log := l } := by
  obtain ⟨h1, h2, h3, h4, h5, h6, h7, h8, h9, h10, h11, h12, h13, h14, h15⟩ := h
  rw [hs] at *
  have hi : i ∉ gens rest := by simp at h1; exact h1.1
  have hb : s.phase i = .running := h9 i last List.mem_cons_self
  constructor
  all_goals simp only [upd, gens_firing, gens_body, List.mem_cons, reduceCtorEq, false_or, or_false] at *
  all_goals grind [→ gens_of_loop, → gens_of_body, → gens_of_adding]

theorem Ctl.yield {s : St} {i : Nat} {last v : Val} {rest : List Frame} {l} (h : Ctl s) (hs : s.stack = .body i last :: rest) :
    Ctl { s with stack := .loop i v :: rest, phase := upd s.phase i (.suspended none), log := l } := by
  obtain ⟨h1, h2, h3, h4, h5, h6, h7, h8, h9, h10, h11, h12, h13, h14, h15⟩ := h
  rw [hs] at *
  have hi : i ∉ gens rest := by simp at h1; exact h1.1
  have hb : s.phase i = .running := h9 i last List.mem_cons_self
  constructor
  all_goals simp only [upd, gens_loop, gens_body, List.mem_cons, reduceCtorEq, false_or, or_false] at *
  all_goals grind [→ gens_of_loop, → gens_of_body, → gens_of_adding]

theorem Ctl.abandon {s : St} {i : Nat} {last : Val} {rest : List Frame} {l} (h : Ctl s) (hs : s.stack = .body i last :: rest) :
    Ctl { s with stack := rest, phase := upd s.phase i (.suspended none), log := l } := by
  obtain ⟨h1, h2, h3, h4, h5, h6, h7, h8, h9, h10, h11, h12, h13, h14, h15⟩ := h
  rw [hs] at *
  have hi : i ∉ gens rest := by simp at h1; exact h1.1
  have hb : s.phase i = .running := h9 i last List.mem_cons_self
  constructor
  all_goals simp only [upd, gens_loop, gens_body, List.mem_cons, reduceCtorEq, false_or, or_false] at *
  all_goals grind [→ gens_of_loop, → gens_of_body, → gens_of_adding]

theorem Ctl.wait {s : St} {i : Nat} {last : Val} {rest : List Frame} {l} {d : D} (h : Ctl s) (hs : s.stack = .body i last :: rest) :
    Ctl { s with
      stack := if s.result d ≠ none ∧ .firing d ∉ rest then .firing d :: .adding (i, s.count i) :: rest
               else .adding (i, s.count i) :: rest
      queue := s.queue ++ [⟨d, (i, s.count i)⟩]
      waiting := upd s.waiting (i, s.count i) true
      phase := upd s.phase i (.suspended (some ((i, s.count i), d)))
      count := upd s.count i (s.count i + 1)
      log := l } := by
  obtain ⟨h1, h2, h3, h4, h5, h6, h7, h8, h9, h10, h11, h12, h13, h14, h15⟩ := h
  rw [hs] at *
  have hi : i ∉ gens rest := by simp at h1; exact h1.1
  have hb : s.phase i = .running := h9 i last List.mem_cons_self
  have hq : ∀ e ∈ s.queue, e.w.1 ≠ i := by
    intro e he hei
    have := h6 e he
    rw [hei, h9 i last (by simp)] at this
    cases this
  have hmem : ∀ x : Entry, x ∈ s.queue ++ [⟨d, (i, s.count i)⟩] ↔ x = ⟨d, (i, s.count i)⟩ ∨ x ∈ s.queue := by intro x; simp; grind
  have hn : ((s.queue ++ [(⟨d, (i, s.count i)⟩ : Entry)]).map (·.w.1)).Nodup := by
    rw [List.map_append, List.nodup_append]
    refine ⟨h2, by simp, ?_⟩
    intro a ha b hb
    obtain ⟨e, he, rfl⟩ := List.mem_map.mp ha
    simp at hb
    rw [hb]
    exact hq e he
  by_cases hc : s.result d ≠ none ∧ .firing d ∉ rest
  · simp only [if_pos hc]
    constructor
    case nodupQ => exact hn
    all_goals simp only [hmem, upd, gens_firing, gens_adding, gens_body, List.mem_cons, reduceCtorEq, false_or, or_false] at *
    all_goals grind [→ gens_of_loop, → gens_of_body, → gens_of_adding]
  · simp only [if_neg hc]
    constructor
    case nodupQ => exact hn
    all_goals simp only [hmem, upd, gens_firing, gens_adding, gens_body, List.mem_cons, reduceCtorEq, false_or, or_false] at *
    all_goals grind [→ gens_of_loop, → gens_of_body, → gens_of_adding]

theorem Ctl.fire {s : St} {n : Nat} {r : Res} (h : Ctl s) (hr : s.result (.ext n) = none) : Ctl (fireD s (.ext n) r) := by
  obtain ⟨h1, h2, h3, h4, h5, h6, h7, h8, h9, h10, h11, h12, h13, h14, h15⟩ := h
  unfold fireD
  constructor
  all_goals simp only [upd, gens_firing, List.mem_cons, reduceCtorEq, false_or, or_false] at *
  all_goals grind [→ gens_of_loop, → gens_of_body, → gens_of_adding]

theorem Ctl.start {s : St} {j : Nat} {l} (h : Ctl s) (hr : s.started j = false) :
    Ctl { s with started := upd s.started j true, stack := .loop j none :: s.stack, log := l } := by
  obtain ⟨h1, h2, h3, h4, h5, h6, h7, h8, h9, h10, h11, h12, h13, h14, h15⟩ := h
  constructor
  all_goals simp only [upd, gens_loop, List.mem_cons, reduceCtorEq, false_or, or_false] at *
  all_goals grind [→ gens_of_loop, → gens_of_body, → gens_of_adding]

end Verif.GenRun
