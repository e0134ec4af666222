import Verif.Props.GenRun
import Mathlib.Tactic.ByContra
/-!
# C144: how deep the stack gets; generators that yield a Deferred are not called again
-/
namespace Verif.GenRun
open Verif.Py
open Verif.DeferredGenerator (Val Res)

/-- The generators that were started. -/
def startedBy (l : List Ev) : List Nat := l.filterMap fun | .started i => some i | _ => none

theorem mem_startedBy {l : List Ev} {i : Nat} : i ∈ startedBy l ↔ .started i ∈ l := by
  unfold startedBy
  rw [List.mem_filterMap]
  constructor
  · rintro ⟨e, he, h⟩
    split at h
    · cases h; exact he
    · cases h
  · intro h
    exact ⟨_, h, rfl⟩

/-- The generators whose Deferreds are running their callbacks right above a Deferred that is running its own. -/
def chained : List Frame → List Nat
  | [] => []
  | f :: fs =>
    match f, fs with
    | .firing (.own k), .firing _ :: _ => k :: chained fs
    | _, _ => chained fs

/-- Nothing but a generator's Deferred is right above a Deferred. -/
def Ordered : List Frame → Prop
  | [] => True
  | f :: fs =>
    match f, fs with
    | .firing (.ext _), .firing _ :: _ => False
    | _, _ => Ordered fs

theorem chained_gen {f : Frame} {i : Nat} (h : genOf f = some i) (fs : List Frame) : chained (f :: fs) = chained fs := by
  cases f <;> first | rfl | cases h

theorem ordered_gen {f : Frame} {i : Nat} (h : genOf f = some i) (fs : List Frame) : Ordered (f :: fs) ↔ Ordered fs := by
  cases f <;> first | exact Iff.rfl | cases h

theorem chained_above {f : Frame} {i : Nat} (h : genOf f = some i) (d : D) (fs : List Frame) :
    chained (.firing d :: f :: fs) = chained fs := by
  cases f <;> cases d <;> first | rfl | cases h

theorem ordered_above {f : Frame} {i : Nat} (h : genOf f = some i) (d : D) (fs : List Frame) :
    Ordered (.firing d :: f :: fs) ↔ Ordered fs := by
  cases f <;> cases d <;> first | exact Iff.rfl | cases h

theorem chained_own (k : Nat) (fs : List Frame) : chained (.firing (.own k) :: fs) = chained fs ∨
    chained (.firing (.own k) :: fs) = k :: chained fs := by
  cases fs with
  | nil => exact Or.inl rfl
  | cons f fs => cases f <;> first | exact Or.inl rfl | exact Or.inr rfl

theorem ordered_own (k : Nat) (fs : List Frame) : Ordered (.firing (.own k) :: fs) ↔ Ordered fs := by
  cases fs with
  | nil => exact Iff.rfl
  | cons f fs => cases f <;> exact Iff.rfl

theorem chained_pop (d : D) (fs : List Frame) : (chained fs).Sublist (chained (.firing d :: fs)) := by
  cases d with
  | own k =>
    rcases chained_own k fs with h | h <;> rw [h]
    · exact List.Sublist.refl _
    · exact List.sublist_cons_self _ _
  | ext n => cases fs with
    | nil => exact List.Sublist.refl _
    | cons f fs => cases f <;> exact List.Sublist.refl _

theorem ordered_pop {d : D} {fs : List Frame} (h : Ordered (.firing d :: fs)) : Ordered fs := by
  cases d with
  | own k => exact (ordered_own k fs).mp h
  | ext n => cases fs with
    | nil => trivial
    | cons f fs => cases f <;> first | exact h | exact h.elim

theorem length_le {fs : List Frame} (h : Ordered fs) : fs.length ≤ 2 * (gens fs).length + (chained fs).length + 1 ∧
    ((∀ d r, fs ≠ .firing d :: r) → fs.length ≤ 2 * (gens fs).length + (chained fs).length) := by
  induction fs with
  | nil => simp
  | cons f fs ih =>
    cases f with
    | firing d =>
      obtain ⟨h1, h2⟩ := ih (ordered_pop h)
      refine ⟨?_, fun hn => absurd rfl (hn d fs)⟩
      simp only [gens_firing, List.length_cons]
      cases fs with
      | nil => simp
      | cons g fs =>
        cases g with
        | firing d' =>
          cases d with
          | ext n => exact h.elim
          | own k =>
            have hc : chained (.firing (.own k) :: .firing d' :: fs) = k :: chained (.firing d' :: fs) := rfl
            rw [hc]
            simp only [List.length_cons] at *
            omega
        | loop i v =>
          have := h2 (by simp)
          rw [chained_above (i := i) rfl]
          rw [chained_gen (i := i) rfl] at this
          simp only [List.length_cons] at *
          omega
        | body i v =>
          have := h2 (by simp)
          rw [chained_above (i := i) rfl]
          rw [chained_gen (i := i) rfl] at this
          simp only [List.length_cons] at *
          omega
        | adding w =>
          have := h2 (by simp)
          rw [chained_above (i := w.1) rfl]
          rw [chained_gen (i := w.1) rfl] at this
          simp only [List.length_cons] at *
          omega
    | loop i v =>
      obtain ⟨h1, -⟩ := ih ((ordered_gen (i := i) rfl fs).mp h)
      rw [chained_gen (i := i) rfl]
      simp only [gens_loop, List.length_cons]
      omega
    | body i v =>
      obtain ⟨h1, -⟩ := ih ((ordered_gen (i := i) rfl fs).mp h)
      rw [chained_gen (i := i) rfl]
      simp only [gens_body, List.length_cons]
      omega
    | adding w =>
      obtain ⟨h1, -⟩ := ih ((ordered_gen (i := w.1) rfl fs).mp h)
      rw [chained_gen (i := w.1) rfl]
      simp only [gens_adding, List.length_cons]
      omega

structure Deep (s : St) : Prop where
  ordered : Ordered s.stack
  nodup : (chained s.stack).Nodup
  done : ∀ k ∈ chained s.stack, s.phase k = .finished
  started : ∀ i, s.started i = true → .started i ∈ s.log

theorem Deep.go {s : St} (h : Inv s) (g : Deep s) : Deep (go s) := by
  obtain ⟨g1, g2, g3, g4⟩ := g
  rcases go_cases h with ⟨-, e⟩ | ⟨_, _, _, -, e⟩ | ⟨i, last, rest, x, hs, hp, e⟩ | ⟨w, rest, hs, hw, e⟩ | ⟨w, rest, hs, hw, e⟩ |
    ⟨d, rest, en, q, r, hs, ht, hr, hw, e⟩ | ⟨d, rest, en, q, r, hs, ht, hr, hw, e⟩ | ⟨d, rest, hs, ht, e⟩ <;> rw [e]
  · exact ⟨g1, g2, g3, g4⟩
  · exact ⟨g1, g2, g3, g4⟩
  · rw [hs, chained_gen (i := i) rfl] at g2 g3
    rw [hs, ordered_gen (i := i) rfl] at g1
    refine ⟨(ordered_gen (i := i) rfl _).mpr g1, by rw [chained_gen (i := i) rfl]; exact g2, ?_,
      fun j hj => List.mem_append_left _ (g4 j hj)⟩
    intro k hk
    rw [chained_gen (i := i) rfl] at hk
    have hk' := g3 k hk
    have : k ≠ i := by rintro rfl; rw [hp] at hk'; cases hk'
    simp only [upd, if_neg this]
    exact hk'
  · rw [hs, chained_gen (i := w.1) rfl] at g2 g3
    rw [hs, ordered_gen (i := w.1) rfl] at g1
    exact ⟨g1, g2, g3, g4⟩
  · rw [hs, chained_gen (i := w.1) rfl] at g2 g3
    rw [hs, ordered_gen (i := w.1) rfl] at g1
    exact ⟨(ordered_gen (i := w.1) rfl _).mpr g1, by rw [chained_gen (i := w.1) rfl]; exact g2,
      by rw [chained_gen (i := w.1) rfl]; exact g3, g4⟩
  · exact ⟨g1, g2, g3, g4⟩
  · exact ⟨(ordered_gen (i := en.w.1) rfl _).mpr g1, by rw [chained_gen (i := en.w.1) rfl]; exact g2,
      by rw [chained_gen (i := en.w.1) rfl]; exact g3, g4⟩
  · rw [hs] at g1 g2 g3
    exact ⟨ordered_pop g1, g2.sublist (chained_pop d rest), fun k hk => g3 k ((chained_pop d rest).subset hk), g4⟩

theorem Deep.act {s : St} (h : Inv s) (g : Deep s) (a : Act) : Deep (act s a) := by
  obtain ⟨g1, g2, g3, g4⟩ := g
  have top : ∀ {i last rest}, s.stack = .body i last :: rest →
      Ordered rest ∧ (chained rest).Nodup ∧ (∀ k ∈ chained rest, s.phase k = .finished ∧ k ≠ i) ∧ s.result (.own i) = none := by
    intro i last rest hs
    rw [hs, chained_gen (i := i) rfl] at g2 g3
    rw [hs, ordered_gen (i := i) rfl] at g1
    have hp := h.ctl.bodyPhase i last (by rw [hs]; simp)
    refine ⟨g1, g2, fun k hk => ⟨g3 k hk, ?_⟩, ?_⟩
    · rintro rfl
      rw [g3 k hk] at hp
      cases hp
    · by_contra hc
      have := (h.ctl.own i).mp hc
      rw [hp] at this
      cases this
  have hend : ∀ {i last rest e r}, s.stack = .body i last :: rest →
      Deep (finish { s with stack := rest, phase := upd s.phase i .finished, log := s.log ++ [e] } i r) := by
    intro i last rest e r hs
    obtain ⟨t1, t2, t3, t4⟩ := top hs
    unfold finish
    simp only [t4]
    unfold fireD
    refine ⟨(ordered_own i rest).mpr t1, ?_, ?_, fun j hj => by simp [g4 j hj]⟩
    · rcases chained_own i rest with hc | hc <;> simp only [hc]
      · exact t2
      · exact List.nodup_cons.mpr ⟨fun hi => (t3 i hi).2 rfl, t2⟩
    · intro k hk
      simp only [upd]
      split
      · rfl
      · rename_i hki
        rcases chained_own i rest with hc | hc <;> simp only [hc] at hk
        · exact (t3 k hk).1
        · rcases List.mem_cons.mp hk with hk | hk
          · exact absurd hk hki
          · exact (t3 k hk).1
  have hfire : ∀ n r, (s.stack = [] ∨ ∃ i v rest, s.stack = .body i v :: rest) →
      Deep (match s.result (.ext n) with
        | some _ => { s with log := s.log ++ [.again (.ext n)] }
        | none => fireD s (.ext n) r) := by
    intro n r hs
    cases s.result (.ext n) with
    | some x => exact ⟨g1, g2, g3, fun j hj => List.mem_append_left _ (g4 j hj)⟩
    | none =>
      have hc : chained (.firing (.ext n) :: s.stack) = chained s.stack := by
        rcases hs with hs | ⟨i, v, rest, hs⟩ <;> rw [hs] <;> rfl
      have ho : Ordered (.firing (.ext n) :: s.stack) ↔ Ordered s.stack := by
        rcases hs with hs | ⟨i, v, rest, hs⟩ <;> rw [hs] <;> exact Iff.rfl
      exact ⟨ho.mpr g1, by simp only [fireD, hc]; exact g2, by simp only [fireD, hc]; exact g3,
        fun j hj => List.mem_append_left _ (g4 j hj)⟩
  have hstart : ∀ j, Deep (if s.started j then s
      else { s with started := upd s.started j true, stack := .loop j none :: s.stack, log := s.log ++ [.started j] }) := by
    intro j
    split
    · exact ⟨g1, g2, g3, g4⟩
    · refine ⟨(ordered_gen (i := j) rfl _).mpr g1, by rw [chained_gen (i := j) rfl]; exact g2,
        by rw [chained_gen (i := j) rfl]; exact g3, ?_⟩
      intro i hi
      simp only [upd] at hi
      split at hi
      · rename_i hij; rw [hij]; simp
      · exact List.mem_append_left _ (g4 i hi)
  unfold GenRun.act
  split
  · rename_i i last rest hs
    exact hend hs
  · rename_i i last rest e hs
    exact hend hs
  · rename_i i last rest v hs
    obtain ⟨t1, t2, t3, -⟩ := top hs
    refine ⟨(ordered_gen (i := i) rfl _).mpr t1, by simp only [leave]; rw [chained_gen (i := i) rfl]; exact t2, ?_,
      fun j hj => List.mem_append_left _ (g4 j hj)⟩
    intro k hk
    simp only [leave] at hk ⊢
    rw [chained_gen (i := i) rfl] at hk
    simp only [upd, if_neg (t3 k hk).2]
    exact (t3 k hk).1
  · rename_i i last rest hs
    obtain ⟨t1, t2, t3, -⟩ := top hs
    refine ⟨t1, t2, ?_, fun j hj => List.mem_append_left _ (g4 j hj)⟩
    intro k hk
    simp only [leave, upd, if_neg (t3 k hk).2]
    exact (t3 k hk).1
  · rename_i i last rest d hs
    obtain ⟨t1, t2, t3, -⟩ := top hs
    have hc : chained (if s.result d ≠ none ∧ .firing d ∉ rest then .firing d :: .adding (i, s.count i) :: rest
        else .adding (i, s.count i) :: rest) = chained rest := by
      split
      · exact chained_above (i := i) rfl d rest
      · exact chained_gen (i := i) rfl rest
    have ho : Ordered (if s.result d ≠ none ∧ .firing d ∉ rest then .firing d :: .adding (i, s.count i) :: rest
        else .adding (i, s.count i) :: rest) := by
      split
      · exact (ordered_above (i := i) rfl d rest).mpr t1
      · exact (ordered_gen (i := i) rfl rest).mpr t1
    refine ⟨ho, by simp only [leave, hc]; exact t2, ?_, fun j hj => List.mem_append_left _ (g4 j hj)⟩
    intro k hk
    simp only [leave, hc] at hk ⊢
    simp only [upd, if_neg (t3 k hk).2]
    exact (t3 k hk).1
  · rename_i hs; exact hfire _ _ (Or.inl hs)
  · rename_i i v rest n r hs; exact hfire _ _ (Or.inr ⟨_, _, _, hs⟩)
  · exact hstart _
  · exact hstart _
  · exact ⟨g1, g2, g3, g4⟩

theorem Deep.exec (is : List Input) : Deep (exec is) := by
  unfold GenRun.exec
  have : ∀ s, Inv s → Deep s → Deep (is.foldl GenRun.step s) := by
    induction is with
    | nil => exact fun s _ h => h
    | cons i is ih =>
      intro s h g
      refine ih _ (h.step i) ?_
      cases i with
      | go => exact g.go h
      | act a => exact g.act h a
  exact this _ .init ⟨trivial, List.nodup_nil, by simp [chained], by simp⟩

/-- **C144**: however many Deferreds the generators wait for, and whether or not these have fired already, the depth of the stack is
bounded by the number of generators: for each there are at most two frames, and one more for the Deferred that is fired.  A single
generator never needs more than three. -/
theorem shallow (is : List Input) : (exec is).stack.length ≤ 2 * (startedBy (exec is).log).length + 1 := by
  have inv := Inv.exec is
  obtain ⟨g1, g2, g3, g4⟩ := Deep.exec is
  have hn : (gens (exec is).stack ++ chained (exec is).stack).Nodup := by
    rw [List.nodup_append]
    refine ⟨inv.ctl.nodupS, g2, ?_⟩
    rintro a ha b hb rfl
    have hf := g3 a hb
    obtain ⟨f, hf1, hf2⟩ := mem_gens.mp ha
    cases f with
    | loop i v =>
      cases hf2
      obtain ⟨x, hx⟩ := inv.ctl.loopPhase _ v hf1
      rw [hf] at hx; cases hx
    | body i v =>
      cases hf2
      have hx := inv.ctl.bodyPhase _ v hf1
      rw [hf] at hx; cases hx
    | adding w =>
      cases hf2
      obtain ⟨d, hx⟩ := inv.ctl.addPhase w hf1
      rw [hf] at hx; cases hx
    | firing d => cases hf2
  have hsub : gens (exec is).stack ++ chained (exec is).stack ⊆ startedBy (exec is).log := by
    intro i hi
    rw [mem_startedBy]
    refine g4 i ?_
    by_contra hc
    obtain ⟨hp, hg⟩ := inv.ctl.fresh i (by simpa using hc)
    rcases List.mem_append.mp hi with hi | hi
    · exact hg hi
    · rw [g3 i hi] at hp
      cases hp
  have hle := hn.length_le_of_subset hsub
  rw [List.length_append] at hle
  have := (length_le g1).1
  omega

/-- Generators that wait for one another in a row do take frames, one for each that has ended. -/
example : (exec [.act (.start 0), .go, .act (.wait (.own 1)), .go, .act (.start 1), .go, .act (.wait (.own 2)), .go, .act (.start 2), .go,
    .act (.wait (.ext 5)), .go, .act (.fire 5 (.value none)), .go, .go, .act .stop, .go, .go, .act .stop, .go, .go]).stack =
  [.body 0 none, .firing (.own 1), .firing (.own 2), .firing (.ext 5)] := rfl

theorem exec_snoc (is : List Input) (i : Input) : exec (is ++ [i]) = step (exec is) i := by simp [exec]

/-- What an action adds to the log. -/
theorem act_log (s : St) (a : Act) : ∃ evs, (act s a).log = s.log ++ evs ∧ ∀ j x, .next j x ∉ evs := by
  unfold act
  split
  · simp only [leave, finish]
    split <;> simp [fireD]
  · simp only [leave, finish]
    split <;> simp [fireD]
  · exact ⟨_, rfl, by simp⟩
  · exact ⟨_, rfl, by simp⟩
  · exact ⟨_, rfl, by simp⟩
  · split <;> exact ⟨_, rfl, by simp⟩
  · split <;> exact ⟨_, rfl, by simp⟩
  · split
    · exact ⟨[], by simp, by simp⟩
    · exact ⟨_, rfl, by simp⟩
  · split
    · exact ⟨[], by simp, by simp⟩
    · exact ⟨_, rfl, by simp⟩
  · exact ⟨[], by simp, by simp⟩

theorem abandoned_pairwise (is : List Input) :
    (exec is).log.Pairwise fun a b => ∀ i x, a = .abandoned i → b ≠ .next i x := by
  generalize hn : is.length = n
  induction n generalizing is with
  | zero =>
    cases is with
    | nil => exact List.Pairwise.nil
    | cons => cases hn
  | succ n ih =>
    have hne : is ≠ [] := by rintro rfl; cases hn
    rw [← List.dropLast_concat_getLast hne, exec_snoc]
    have ih := ih is.dropLast (by rw [List.length_dropLast, hn]; rfl)
    have inv := Inv.exec is.dropLast
    have gone := gone_exec is.dropLast
    generalize exec is.dropLast = s at ih inv gone
    cases is.getLast hne with
    | act a =>
      obtain ⟨evs, he, hx⟩ := act_log s a
      simp only [step, he, List.pairwise_append]
      refine ⟨ih, ?_, ?_⟩
      · refine List.Pairwise.imp_of_mem ?_ (List.pairwise_of_forall (R := fun _ _ => True) fun _ _ => trivial)
        rintro a b - hb - i x - rfl
        exact hx i x hb
      · rintro a - b hb i x - rfl
        exact hx i x hb
    | go =>
      simp only [step]
      rcases go_cases inv with ⟨-, e⟩ | ⟨_, _, _, -, e⟩ | ⟨j, last, rest, x, hs, hp, e⟩ | ⟨w, rest, hs, hw, e⟩ |
        ⟨w, rest, hs, hw, e⟩ | ⟨d, rest, en, q, r, hs, ht, hr, hw, e⟩ | ⟨d, rest, en, q, r, hs, ht, hr, hw, e⟩ | ⟨d, rest, hs, ht, e⟩ <;>
        rw [e]
      · exact ih
      · exact ih
      · simp only [List.pairwise_append]
        refine ⟨ih, List.pairwise_singleton _ _, ?_⟩
        rintro a ha b hb i y rfl rfl
        simp only [List.mem_singleton, Ev.next.injEq] at hb
        obtain ⟨rfl, -⟩ := hb
        have := (gone i ha).2.1
        rw [hs] at this
        simp at this
      all_goals exact ih

/-- **C144**: a generator that yields a Deferred itself is not called any more. -/
theorem abandoned_silent (is : List Input) (i : Nat) (pre post : List Ev) (h : (exec is).log = pre ++ .abandoned i :: post)
    (x : Option (W × Option Res)) : .next i x ∉ post := by
  have hp := abandoned_pairwise is
  rw [h, List.pairwise_append, List.pairwise_cons] at hp
  intro hm
  exact hp.2.1.1 _ hm i x rfl rfl

/-- It is resumed, yields a Deferred, and the Deferred it waited for before changes nothing any more. -/
example : (exec [.act (.start 0), .go, .act (.wait (.ext 1)), .go, .act (.fire 1 (.value none)), .go, .go, .act .yieldDeferred, .go,
    .act (.fire 2 (.value none)), .go]).log =
  [.started 0, .next 0 none, .waits (0, 0) (.ext 1), .fired (.ext 1) (.value none), .next 0 (some ((0, 0), some (.value none)))] ++
    .abandoned 0 :: [.fired (.ext 2) (.value none)] := rfl

end Verif.GenRun
