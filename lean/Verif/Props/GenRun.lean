import Verif.Props.GenRunHist
/-!
# C144: generators that wait for Deferreds and for one another
-/
namespace Verif.GenRun
open Verif.Py
open Verif.DeferredGenerator (Val Res)

/-- **C144**: whatever the generators do, none is called while it is running or after it has ended, and no Deferred of a generator is
fired a second time, which would raise an exception within `_deferGenerator`. -/
theorem no_fault (is : List Input) (i : Nat) : .fault i ∉ (exec is).log := (Inv.exec is).hist.noFault i

/-- **C144**: at any time at most one call of a generator's code, or of a `_deferGenerator` loop for it, is on the stack. -/
theorem one_frame (is : List Input) (i : Nat) (a b c : List Frame) (f g : Frame) (h : (exec is).stack = a ++ f :: b ++ g :: c)
    (hf : (∃ v, f = .loop i v) ∨ (∃ v, f = .body i v) ∨ ∃ n, f = .adding (i, n)) :
    ¬ ((∃ v, g = .loop i v) ∨ (∃ v, g = .body i v) ∨ ∃ n, g = .adding (i, n)) := by
  intro hg
  have hn := (Inv.exec is).ctl.nodupS
  have key : ∀ f : Frame, ((∃ v, f = .loop i v) ∨ (∃ v, f = .body i v) ∨ ∃ n, f = .adding (i, n)) → genOf f = some i := by
    rintro f (⟨v, rfl⟩ | ⟨v, rfl⟩ | ⟨n, rfl⟩) <;> rfl
  rw [h] at hn
  unfold gens at hn
  rw [List.filterMap_append, List.filterMap_append, List.filterMap_cons_some (key f hf), List.filterMap_cons_some (key g hg),
    List.nodup_append] at hn
  exact hn.2.2 i (by simp) i (by simp) rfl

/-- **C144**: every Deferred fires at most once. -/
theorem fired_once (is : List Input) (d : D) : (firedBy d (exec is).log).length ≤ 1 := by
  obtain ⟨pre, -, hf⟩ := (Inv.exec is).rs.seq d
  rcases hf with ⟨-, hf, -⟩ | ⟨r, hf, -⟩ <;> rw [hf] <;> simp

/-- **C144**: the Deferred of a generator fires only when the generator ends, at once, with the last value that it has yielded, or
`None` if it has waited since, or with what it raised. -/
theorem fired_with (is : List Input) (i : Nat) (r : Res) (pre post : List Ev) (h : (exec is).log = pre ++ .fired (.own i) r :: post) :
    ∃ p, (pre = p ++ [.stopped i] ∧ r = .value (lastYield i p)) ∨ ∃ e, pre = p ++ [.raised i e] ∧ r = .failure e :=
  (Inv.exec is).hist.outcome pre post i r h

/-- **C144**: and when the generator ends, it does fire. -/
theorem end_fires (is : List Input) (i : Nat) (e : Ev) (he : e = .stopped i ∨ ∃ x, e = .raised i x) (pre post : List Ev)
    (h : (exec is).log = pre ++ e :: post) : ∃ r post', post = .fired (.own i) r :: post' :=
  (Inv.exec is).hist.ended pre post i e he h

/-- **C144**: after that the generator is not called any more. -/
theorem silent (is : List Input) (i : Nat) (r : Res) (pre post : List Ev) (h : (exec is).log = pre ++ .fired (.own i) r :: post)
    (x : Option (W × Option Res)) : .next i x ∉ post :=
  (Inv.exec is).hist.silent pre post i r h x

/-- **C144**: a generator that waits for a Deferred is called only when that Deferred has fired.  If it is the first that has ever
waited for it, it gets what the Deferred was fired with; everybody else gets `None`. -/
theorem resumed_with (is : List Input) (i : Nat) (w : W) (x : Option Res) (h : .next i (some (w, x)) ∈ (exec is).log) :
    w.1 = i ∧ ∃ d r k, (waitsOn d (exec is).log)[k]? = some w ∧ .fired d r ∈ (exec is).log ∧
      x = some (if k = 0 then r else .value none) :=
  (Inv.exec is).rs.nextOk i w x h

/-- **C144**: each wait is made once, so that its place among the waits for its Deferred is determined. -/
theorem waits_distinct (is : List Input) : (allWaits (exec is).log).Nodup := (Inv.exec is).rs.distinct

/-- **C144**: nobody is forgotten: when nothing is running, no generator waits for a Deferred that has fired. -/
theorem no_lost_wakeup (is : List Input) (h : (exec is).stack = []) (i : Nat) (w : W) (d : D)
    (hp : pending i (exec is).log = some (w, d)) : firedBy d (exec is).log = [] := by
  have inv := Inv.exec is
  refine inv.firedBy_none ?_
  have hph : (exec is).phase i = .suspended (some (w, d)) := by
    have := inv.rs.pend i
    rw [hp] at this
    cases hh : (exec is).phase i with
    | suspended x => rw [hh] at this; simp only at this; rw [← this]
    | running => rw [hh] at this; cases this
    | finished => rw [hh] at this; cases this
  obtain ⟨-, -, hq⟩ := inv.ctl.susp i w d hph
  rw [h] at hq
  rcases hq with hq | hq
  · simp [gens] at hq
  · by_contra hc
    have := inv.ctl.wake _ hq hc
    rw [h] at this
    simp at this

/-- How much there is to do. -/
def weight : Frame → Nat
  | .loop _ _ => 1
  | .body _ _ => 0
  | .adding _ => 2
  | .firing _ => 1

def work (s : St) : Nat := 3 * s.queue.length + (s.stack.map weight).sum

theorem takeFirst_length {d : D} {q : List Entry} {e : Entry} {q' : List Entry} (h : takeFirst d q = some (e, q')) :
    q.length = q'.length + 1 := by
  obtain ⟨a, b, rfl, rfl, -, -⟩ := takeFirst_eq h
  simp
  omega

theorem work_go {s : St} (h : Inv s) : (s.stack = [] ∨ ∃ i v rest, s.stack = .body i v :: rest) ∨ work (go s) < work s := by
  rcases go_cases h with ⟨hs, e⟩ | ⟨i, v, rest, hs, e⟩ | ⟨i, last, rest, x, hs, hp, e⟩ | ⟨w, rest, hs, hw, e⟩ | ⟨w, rest, hs, hw, e⟩ |
    ⟨d, rest, en, q, r, hs, ht, hr, hw, e⟩ | ⟨d, rest, en, q, r, hs, ht, hr, hw, e⟩ | ⟨d, rest, hs, ht, e⟩
  · exact Or.inl (Or.inl hs)
  · exact Or.inl (Or.inr ⟨i, v, rest, hs⟩)
  all_goals right; rw [e]; unfold work
  · simp [hs, weight]
  · simp [hs, weight]
  · simp [hs, weight]
  · simp [takeFirst_length ht]
  · simp [takeFirst_length ht, weight]; omega
  · simp [hs, weight]

/-- **C144**: from any point the machine comes to rest by itself: after finitely many steps nothing is running, or a generator's own
code is. -/
theorem comes_to_rest (is : List Input) : ∃ n, let s := exec (is ++ List.replicate n .go)
    s.stack = [] ∨ ∃ i v rest, s.stack = .body i v :: rest := by
  generalize hm : work (exec is) = m
  induction m using Nat.strongRecOn generalizing is with
  | _ m ih =>
    rcases work_go (Inv.exec is) with h | h
    · exact ⟨0, by simpa using h⟩
    · have he : exec (is ++ [.go]) = go (exec is) := by simp [exec, step]
      obtain ⟨n, hn⟩ := ih (work (exec (is ++ [.go]))) (by rw [he, ← hm]; exact h) (is ++ [.go]) rfl
      refine ⟨n + 1, ?_⟩
      rw [List.replicate_succ, show is ++ .go :: List.replicate n .go = (is ++ [Input.go]) ++ List.replicate n .go by simp]
      exact hn

/-- A generator that nobody will call. -/
def Gone (s : St) (i : Nat) : Prop := s.phase i = .suspended none ∧ i ∉ gens s.stack ∧ s.started i = true

theorem gone_go {s : St} (h : Inv s) {i : Nat} (hg : Gone s i) : Gone (go s) i := by
  obtain ⟨g1, g2, g3⟩ := hg
  rcases go_cases h with ⟨-, e⟩ | ⟨_, _, _, -, e⟩ | ⟨j, last, rest, x, hs, hp, e⟩ | ⟨w, rest, hs, hw, e⟩ | ⟨w, rest, hs, hw, e⟩ |
    ⟨d, rest, en, q, r, hs, ht, hr, hw, e⟩ | ⟨d, rest, en, q, r, hs, ht, hr, hw, e⟩ | ⟨d, rest, hs, ht, e⟩ <;> rw [e]
  · exact ⟨g1, g2, g3⟩
  · exact ⟨g1, g2, g3⟩
  · rw [hs] at g2
    refine ⟨?_, g2, g3⟩
    have : i ≠ j := by rintro rfl; simp at g2
    simp only [upd, if_neg this]
    exact g1
  · rw [hs] at g2
    exact ⟨g1, fun hh => g2 (List.mem_cons_of_mem _ hh), g3⟩
  · rw [hs] at g2
    exact ⟨g1, g2, g3⟩
  · exact ⟨g1, g2, g3⟩
  · refine ⟨g1, ?_, g3⟩
    simp only [gens_loop, List.mem_cons, not_or]
    refine ⟨?_, g2⟩
    rintro rfl
    obtain ⟨a, b, hq, -, -, -⟩ := takeFirst_eq ht
    have := h.ctl.qPhase en (by rw [hq]; simp)
    rw [g1] at this
    cases this
  · rw [hs] at g2
    exact ⟨g1, g2, g3⟩

theorem gens_if (c : Prop) [Decidable c] (d : D) (fs : List Frame) : gens (if c then .firing d :: fs else fs) = gens fs := by
  split <;> rfl

theorem gone_start {s : St} {i : Nat} (j : Nat)
    (hg : (s.phase i = .suspended none ∧ i ∉ gens s.stack ∧ s.started i = true) ∨
      .abandoned i ∈ (if s.started j then s else
        { s with started := upd s.started j true, stack := .loop j none :: s.stack, log := s.log ++ [.started j] }).log ∧
      .abandoned i ∉ s.log) :
    Gone (if s.started j then s else
      { s with started := upd s.started j true, stack := .loop j none :: s.stack, log := s.log ++ [.started j] }) i := by
  by_cases hj : s.started j = true
  · rw [if_pos hj] at hg ⊢
    rcases hg with hg | ⟨h1, h2⟩
    · exact hg
    · exact absurd h1 h2
  · rw [if_neg hj] at hg ⊢
    rcases hg with ⟨g1, g2, g3⟩ | ⟨h1, h2⟩
    · have : i ≠ j := by rintro rfl; exact hj g3
      exact ⟨g1, by simp [this, g2], by simp only [upd, if_neg this]; exact g3⟩
    · simp at h1
      exact absurd h1 h2

theorem gone_act {s : St} (h : Inv s) {i : Nat} (a : Act) (hg : Gone s i ∨ .abandoned i ∈ (act s a).log ∧ .abandoned i ∉ s.log) :
    Gone (act s a) i := by
  have hbody : ∀ {j last rest}, s.stack = .body j last :: rest → j ∉ gens rest := by
    intro j last rest hs
    have := h.ctl.nodupS
    rw [hs] at this
    simp at this
    exact this.1
  have hstart : ∀ {j last rest}, s.stack = .body j last :: rest → s.started j = true := by
    intro j last rest hs
    by_contra hc
    have := (h.ctl.fresh j (by simpa using hc)).2
    rw [hs] at this
    simp at this
  have hown : ∀ {j last rest}, s.stack = .body j last :: rest → s.result (.own j) = none := by
    intro j last rest hs
    by_contra hc
    have := (h.ctl.own j).mp hc
    rw [h.ctl.bodyPhase j last (by rw [hs]; simp)] at this
    cases this
  unfold act Gone at *
  split <;> rename_i hs
  all_goals try dsimp only at hg
  · simp only [leave, finish, hown hs, fireD, upd, hs, gens_body, gens_firing] at hg ⊢
    grind
  · simp only [leave, finish, hown hs, fireD, upd, hs, gens_body, gens_firing] at hg ⊢
    grind
  · simp only [leave, upd, hs, gens_body, gens_loop] at hg ⊢
    grind
  · have := hstart hs
    have := hbody hs
    simp only [leave, upd, hs, gens_body] at hg ⊢
    grind
  · simp only [leave, upd, hs, gens_body, gens_if, gens_adding] at hg ⊢
    grind
  · cases hr : s.result (.ext _) <;> simp only [hr, fireD, gens_firing] at hg ⊢ <;> grind
  · cases hr : s.result (.ext _) <;> simp only [hr, fireD, gens_firing] at hg ⊢ <;> grind
  · rename_i j
    exact gone_start j (by simpa only [hs] using hg)
  · rename_i j
    exact gone_start j (by simpa only [hs] using hg)
  · grind

theorem gone_step {s : St} (h : Inv s) (ih : ∀ i, .abandoned i ∈ s.log → Gone s i) (a : Input) (i : Nat)
    (hm : .abandoned i ∈ (step s a).log) : Gone (step s a) i := by
  by_cases hl : .abandoned i ∈ s.log
  · cases a with
    | go => exact gone_go h (ih i hl)
    | act a => exact gone_act h a (Or.inl (ih i hl))
  · cases a with
    | go =>
      exfalso
      revert hm
      change .abandoned i ∉ (go s).log
      rcases go_cases h with ⟨-, e⟩ | ⟨_, _, _, -, e⟩ | ⟨j, last, rest, x, hs, hp, e⟩ | ⟨w, rest, hs, hw, e⟩ |
        ⟨w, rest, hs, hw, e⟩ | ⟨d, rest, en, q, r, hs, ht, hr, hw, e⟩ | ⟨d, rest, en, q, r, hs, ht, hr, hw, e⟩ |
        ⟨d, rest, hs, ht, e⟩ <;> rw [e] <;> simpa using hl
    | act a => exact gone_act h a (Or.inr ⟨hm, hl⟩)

theorem gone_exec (is : List Input) (i : Nat) (h : .abandoned i ∈ (exec is).log) : Gone (exec is) i := by
  have : ∀ s, Inv s → (∀ i, .abandoned i ∈ s.log → Gone s i) →
      ∀ i, .abandoned i ∈ (is.foldl step s).log → Gone (is.foldl step s) i := by
    clear h
    induction is with
    | nil => exact fun s _ h => h
    | cons a is ih => exact fun s hs h => ih _ (hs.step a) (fun i hi => gone_step hs h a i hi)
  exact this _ .init (by simp) i h

/-- C144, the exception: if a generator yields a Deferred itself (it is then not called any more, `abandoned_silent`), its Deferred never fires, so that
whoever waits for it waits for ever.  (Only if this happens in the first call of `_deferGenerator` does its caller get a failed
Deferred instead, `Verif.DeferredGenerator.yield_deferred_first`.) -/
theorem abandoned_fails (is : List Input) (i : Nat) (h : .abandoned i ∈ (exec is).log) : firedBy (.own i) (exec is).log = [] := by
  refine (Inv.exec is).firedBy_none ?_
  by_contra hc
  have := ((Inv.exec is).ctl.own i).mp hc
  rw [(gone_exec is i h).1] at this
  cases this

/-! ## Examples -/

/-- Generator 0 starts generator 1, which waits for a Deferred, and waits for generator 1.  When the Deferred is fired, generator 1
yields what it was given and ends, whereupon generator 0 is called. -/
def nested : List Input :=
  [.act (.start 0), .go, .act (.start 1), .go, .act (.wait (.ext 5)), .go, .act (.wait (.own 1)), .go,
   .act (.fire 5 (.value (some 7))), .go, .go, .act (.yield (some 8)), .go, .act .stop, .go, .go, .act (.raise .valueError), .go, .go, .go]

example : (exec nested).stack = [] ∧ (exec nested).log =
    [.started 0, .next 0 none, .started 1, .next 1 none, .waits (1, 0) (.ext 5), .waits (0, 0) (.own 1),
     .fired (.ext 5) (.value (some 7)), .next 1 (some ((1, 0), some (.value (some 7)))), .yielded 1 (some 8), .next 1 none,
     .stopped 1, .fired (.own 1) (.value (some 8)), .next 0 (some ((0, 0), some (.value (some 8)))), .raised 0 .valueError,
     .fired (.own 0) (.failure .valueError)] := ⟨rfl, rfl⟩

/-- A generator is waiting, nothing is running, and the Deferred has not fired. -/
example : (exec (nested.take 8)).stack = [] ∧ pending 1 (exec (nested.take 8)).log = some ((1, 0), .ext 5) := ⟨rfl, rfl⟩

/-- A generator that waits for the Deferred whose firing has just resumed it, which is running its callbacks: it is called again, with
`None`. -/
example : (exec [.act (.start 0), .go, .act (.wait (.ext 5)), .go, .act (.fire 5 (.value (some 7))), .go, .go, .act (.wait (.ext 5)), .go,
      .go, .go]).log =
    [.started 0, .next 0 none, .waits (0, 0) (.ext 5), .fired (.ext 5) (.value (some 7)),
     .next 0 (some ((0, 0), some (.value (some 7)))), .waits (0, 1) (.ext 5), .next 0 (some ((0, 1), some (.value none)))] := rfl

/-- A generator that waits for a Deferred that has fired goes on in the same loop: at the end only it is on the stack. -/
example : (exec [.act (.fire 5 (.failure .keyError)), .go, .act (.start 0), .go, .act (.wait (.ext 5)), .go, .go, .go, .go]).stack =
      [.body 0 none] ∧
    (exec [.act (.fire 5 (.failure .keyError)), .go, .act (.start 0), .go, .act (.wait (.ext 5)), .go, .go, .go, .go]).log.getLast? =
      some (.next 0 (some ((0, 0), some (.failure .keyError)))) := ⟨rfl, rfl⟩

/-- Two generators wait for the same Deferred: only the first gets what it is fired with. -/
theorem shared_fails : (exec [.act (.start 0), .go, .act (.wait (.ext 5)), .go, .act (.start 1), .go, .act (.wait (.ext 5)), .go,
      .act (.fire 5 (.value (some 7))), .go, .go, .act .stop, .go, .go, .go]).log.filter (fun | .next _ (some _) => true | _ => false) =
    [.next 0 (some ((0, 0), some (.value (some 7)))), .next 1 (some ((1, 0), some (.value none)))] := rfl

example : .abandoned 0 ∈ (exec [.act (.start 0), .go, .act (.wait (.ext 5)), .go, .act (.fire 5 (.value none)), .go, .go,
    .act .yieldDeferred, .go]).log := by
  have : (exec [.act (.start 0), .go, .act (.wait (.ext 5)), .go, .act (.fire 5 (.value none)), .go, .go,
    .act .yieldDeferred, .go]).log.getLast? = some (.abandoned 0) := rfl
  exact List.mem_of_getLast? this

end Verif.GenRun
