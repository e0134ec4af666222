import Verif.Props.GenRunRes
/-!
# Lemmas for C144: what happened, and the invariant
-/
namespace Verif.GenRun
open Verif.Py
open Verif.DeferredGenerator (Val Res)

theorem snoc_eq {l : List Ev} {e x : Ev} {pre post : List Ev} (h : l ++ [e] = pre ++ x :: post) :
    (post = [] ∧ pre = l ∧ x = e) ∨ ∃ post', post = post' ++ [e] ∧ l = pre ++ x :: post' := by
  rcases List.eq_nil_or_concat post with rfl | ⟨post', y, rfl⟩
  · left
    obtain ⟨h1, h2⟩ := List.append_inj' h rfl
    simp at h2
    exact ⟨rfl, h1.symm, h2.symm⟩
  · right
    have h' : l ++ [e] = (pre ++ x :: post') ++ [y] := by rw [h]; simp
    obtain ⟨h1, h2⟩ := List.append_inj' h' rfl
    simp at h2
    exact ⟨post', by rw [h2]; simp, h1⟩

structure Hist (l : List Ev) : Prop where
  noFault : ∀ i, .fault i ∉ l
  outcome : ∀ pre post i r, l = pre ++ .fired (.own i) r :: post →
    ∃ p, (pre = p ++ [.stopped i] ∧ r = .value (lastYield i p)) ∨ ∃ e, pre = p ++ [.raised i e] ∧ r = .failure e
  silent : ∀ pre post i r, l = pre ++ .fired (.own i) r :: post → ∀ x, .next i x ∉ post
  ended : ∀ pre post i e, e = .stopped i ∨ (∃ x, e = .raised i x) → l = pre ++ e :: post →
    ∃ r post', post = .fired (.own i) r :: post'

theorem Hist.init : Hist [] := by
  constructor <;> simp

theorem Hist.snoc {l : List Ev} {e : Ev} (h : Hist l) (h1 : ∀ i, e ≠ .fault i) (h2 : ∀ i r, e ≠ .fired (.own i) r)
    (h3 : ∀ i, e ≠ .stopped i) (h4 : ∀ i x, e ≠ .raised i x) (h5 : ∀ i x, e = .next i x → firedBy (.own i) l = []) : Hist (l ++ [e]) := by
  obtain ⟨g1, g2, g3, g4⟩ := h
  constructor
  · intro i hi
    rcases List.mem_append.mp hi with hi | hi
    · exact g1 i hi
    · exact h1 i (List.mem_singleton.mp hi).symm
  · intro pre post i r hl
    rcases snoc_eq hl with ⟨-, -, hx⟩ | ⟨post', -, hl1⟩
    · exact absurd hx.symm (h2 i r)
    · exact g2 pre post' i r hl1
  · intro pre post i r hl x hx
    rcases snoc_eq hl with ⟨rfl, -, -⟩ | ⟨post', rfl, hl1⟩
    · simp at hx
    · rcases List.mem_append.mp hx with hx | hx
      · exact g3 pre post' i r hl1 x hx
      · have hf := h5 i x (List.mem_singleton.mp hx).symm
        have : r ∈ firedBy (.own i) l := (mem_firedBy _ _ _).mpr (by rw [hl1]; simp)
        rw [hf] at this
        simp at this
  · intro pre post i y hy hl
    rcases snoc_eq hl with ⟨-, -, hx⟩ | ⟨post', rfl, hl1⟩
    · rcases hy with rfl | ⟨z, rfl⟩
      · exact absurd hx.symm (h3 i)
      · exact absurd hx.symm (h4 i z)
    · obtain ⟨r, p, rfl⟩ := g4 pre post' i y hy hl1
      exact ⟨r, p ++ [e], by simp⟩

theorem Hist.finish {l : List Ev} {e : Ev} {r : Res} {i : Nat} (h : Hist l)
    (he : (e = .stopped i ∧ r = .value (lastYield i l)) ∨ ∃ x, e = .raised i x ∧ r = .failure x) :
    Hist (l ++ [e] ++ [.fired (.own i) r]) := by
  obtain ⟨g1, g2, g3, g4⟩ := h
  constructor
  · intro j hj
    rcases he with ⟨rfl, -⟩ | ⟨x, rfl, -⟩ <;> simp at hj <;> exact g1 j hj
  · intro pre post j r' hl
    rcases snoc_eq hl with ⟨-, rfl, hx⟩ | ⟨post', -, hl1⟩
    · cases hx
      rcases he with ⟨rfl, rfl⟩ | ⟨x, rfl, rfl⟩
      · exact ⟨l, Or.inl ⟨rfl, rfl⟩⟩
      · exact ⟨l, Or.inr ⟨x, rfl, rfl⟩⟩
    · rcases snoc_eq hl1 with ⟨-, -, hx⟩ | ⟨post'', -, hl2⟩
      · rcases he with ⟨rfl, -⟩ | ⟨x, rfl, -⟩ <;> cases hx
      · exact g2 pre post'' j r' hl2
  · intro pre post j r' hl x hx
    rcases snoc_eq hl with ⟨rfl, -, -⟩ | ⟨post', rfl, hl1⟩
    · simp at hx
    · rcases snoc_eq hl1 with ⟨rfl, -, -⟩ | ⟨post'', rfl, hl2⟩
      · simp at hx
      · rcases he with ⟨rfl, -⟩ | ⟨x, rfl, -⟩ <;> simp at hx <;> exact g3 pre post'' j r' hl2 _ hx
  · intro pre post j y hy hl
    rcases snoc_eq hl with ⟨-, -, hx⟩ | ⟨post', rfl, hl1⟩
    · rcases hy with rfl | ⟨z, rfl⟩ <;> cases hx
    · rcases snoc_eq hl1 with ⟨rfl, -, hx⟩ | ⟨post'', rfl, hl2⟩
      · rcases he with ⟨rfl, -⟩ | ⟨x, rfl, -⟩ <;> rcases hy with rfl | ⟨z, rfl⟩ <;> cases hx <;> exact ⟨r, [], rfl⟩
      · obtain ⟨r', p, rfl⟩ := g4 pre post'' j y hy hl2
        exact ⟨r', p ++ [e] ++ [.fired (.own i) r], by simp⟩

structure Inv (s : St) : Prop where
  ctl : Ctl s
  rs : Rs s
  hist : Hist s.log

theorem Inv.init : Inv {} := ⟨.init, .init, .init⟩

theorem Inv.firedBy_none {s : St} (h : Inv s) {d : D} (hd : s.result d = none) : firedBy d s.log = [] := by
  obtain ⟨pre, -, hf⟩ := h.rs.seq d
  rcases hf with ⟨-, hf, -⟩ | ⟨r, -, hf, -⟩
  · exact hf
  · rw [hd] at hf; cases hf

/-- What a step of the loop or of a Deferred comes to. -/
theorem go_cases {s : St} (h : Inv s) :
    (s.stack = [] ∧ go s = s) ∨ (∃ i v rest, s.stack = .body i v :: rest ∧ go s = s) ∨
    (∃ i last rest x, s.stack = .loop i last :: rest ∧ s.phase i = .suspended x ∧
      go s = { s with stack := .body i last :: rest, phase := upd s.phase i .running,
                      log := s.log ++ [.next i (x.map fun p => (p.1, s.got p.1))] }) ∨
    (∃ w rest, s.stack = .adding w :: rest ∧ s.waiting w = true ∧
      go s = { s with waiting := upd s.waiting w false, stack := rest }) ∨
    (∃ w rest, s.stack = .adding w :: rest ∧ s.waiting w = false ∧ go s = { s with stack := .loop w.1 none :: rest }) ∨
    (∃ d rest e q r, s.stack = .firing d :: rest ∧ takeFirst d s.queue = some (e, q) ∧ s.result d = some r ∧ s.waiting e.w = true ∧
      go s = { s with queue := q, got := upd s.got e.w (some r), result := upd s.result d (some (.value none)),
                      waiting := upd s.waiting e.w false }) ∨
    (∃ d rest e q r, s.stack = .firing d :: rest ∧ takeFirst d s.queue = some (e, q) ∧ s.result d = some r ∧ s.waiting e.w = false ∧
      go s = { s with queue := q, got := upd s.got e.w (some r), result := upd s.result d (some (.value none)),
                      stack := .loop e.w.1 none :: s.stack }) ∨
    (∃ d rest, s.stack = .firing d :: rest ∧ takeFirst d s.queue = none ∧ go s = { s with stack := rest }) := by
  cases hs : s.stack with
  | nil => exact Or.inl ⟨rfl, by unfold go; rw [hs]⟩
  | cons f rest =>
    right
    cases f with
    | body i v => exact Or.inl ⟨i, v, rest, rfl, by unfold go; rw [hs]⟩
    | loop i last =>
      obtain ⟨x, hx⟩ := h.ctl.loopPhase i last (by rw [hs]; simp)
      exact Or.inr (Or.inl ⟨i, last, rest, x, rfl, hx, by unfold go; rw [hs]; simp only [hx]⟩)
    | adding w =>
      right; right
      cases hw : s.waiting w with
      | true => exact Or.inl ⟨w, rest, rfl, hw, by unfold go; rw [hs]; simp only [hw, if_true]⟩
      | false => exact Or.inr (Or.inl ⟨w, rest, rfl, hw, by unfold go; rw [hs]; simp [hw]⟩)
    | firing d =>
      right; right; right; right
      cases ht : takeFirst d s.queue with
      | none => exact Or.inr (Or.inr ⟨d, rest, rfl, ht, by unfold go; rw [hs]; simp only [ht]⟩)
      | some p =>
        obtain ⟨e, q⟩ := p
        cases hr : s.result d with
        | none => exact absurd hr (h.ctl.firing d (by rw [hs]; simp))
        | some r =>
          cases hw : s.waiting e.w with
          | true => exact Or.inl ⟨d, rest, e, q, r, rfl, ht, hr, hw, by unfold go; rw [hs]; simp only [ht, hr, hw, if_true]⟩
          | false =>
            exact Or.inr (Or.inl ⟨d, rest, e, q, r, rfl, ht, hr, hw, by unfold go; rw [hs]; simp [ht, hr, hw]⟩)

theorem Inv.go {s : St} (h : Inv s) : Inv (go s) := by
  rcases go_cases h with ⟨-, e⟩ | ⟨_, _, _, -, e⟩ | ⟨i, last, rest, x, hs, hp, e⟩ | ⟨w, rest, hs, hw, e⟩ | ⟨w, rest, hs, hw, e⟩ |
    ⟨d, rest, en, q, r, hs, ht, hr, hw, e⟩ | ⟨d, rest, en, q, r, hs, ht, hr, hw, e⟩ | ⟨d, rest, hs, ht, e⟩ <;> rw [e]
  · exact h
  · exact h
  · refine ⟨h.ctl.next hs hp, h.rs.next h.ctl hs hp, h.hist.snoc (by simp) (by simp) (by simp) (by simp) ?_⟩
    intro j y hy
    cases hy
    refine h.firedBy_none ?_
    by_contra hc
    have := (h.ctl.own i).mp hc
    rw [hp] at this
    cases this
  · exact ⟨h.ctl.addTrue hs hw, h.rs.addTrue hs, h.hist⟩
  · exact ⟨h.ctl.addFalse hs hw, h.rs.addFalse h.ctl hs, h.hist⟩
  · exact ⟨h.ctl.takeTrue hs ht (by rw [hr]; simp) hw, h.rs.take h.ctl ht hr (Or.inl rfl), h.hist⟩
  · exact ⟨h.ctl.takeFalse hs ht (by rw [hr]; simp) hw, h.rs.take h.ctl ht hr (Or.inr rfl), h.hist⟩
  · exact ⟨h.ctl.popFiring hs (takeFirst_none ht), h.rs.popFiring hs, h.hist⟩

theorem Inv.finish {s : St} (h : Inv s) {i : Nat} {last : Val} {rest : List Frame} {e : Ev} {r : Res}
    (hs : s.stack = .body i last :: rest) (he : (e = .stopped i ∧ r = .value last) ∨ ∃ x, e = .raised i x ∧ r = .failure x) :
    Inv (finish { s with stack := rest, phase := upd s.phase i .finished, log := s.log ++ [e] } i r) := by
  have hr : s.result (.own i) = none := by
    by_contra hc
    have := (h.ctl.own i).mp hc
    rw [h.ctl.bodyPhase i last (by rw [hs]; simp)] at this
    cases this
  have hl := h.rs.lastB i last (by rw [hs]; simp)
  unfold GenRun.finish
  simp only [hr]
  refine ⟨h.ctl.ended hs, h.rs.ended h.ctl hs ?_, h.hist.finish ?_⟩
  · rcases he with ⟨he, -⟩ | ⟨x, he, -⟩
    · exact Or.inl he
    · exact Or.inr ⟨x, he⟩
  · rw [← hl]; exact he

theorem Inv.fireExt {s : St} (h : Inv s) (n : Nat) (r : Res) :
    Inv (match s.result (.ext n) with
      | some _ => { s with log := s.log ++ [.again (.ext n)] }
      | none => fireD s (.ext n) r) := by
  cases hr : s.result (.ext n) with
  | none => exact ⟨h.ctl.fire hr, h.rs.fire hr, h.hist.snoc (by simp) (by simp) (by simp) (by simp) (by simp)⟩
  | some x =>
    refine ⟨?_, h.rs.remark (Or.inl ⟨_, rfl⟩) (Or.inl rfl) (fun _ h => h), h.hist.snoc (by simp) (by simp) (by simp) (by simp) (by simp)⟩
    obtain ⟨h1, h2, h3, h4, h5, h6, h7, h8, h9, h10, h11, h12, h13, h14, h15⟩ := h.ctl
    constructor <;> assumption

theorem Inv.start {s : St} (h : Inv s) (j : Nat) :
    Inv (if s.started j then s
      else { s with started := upd s.started j true, stack := .loop j none :: s.stack, log := s.log ++ [.started j] }) := by
  split
  · exact h
  · rename_i hj
    have hj : s.started j = false := by simpa using hj
    refine ⟨h.ctl.start hj, h.rs.remark (Or.inr ⟨_, rfl⟩) (Or.inr ⟨j, hj, rfl⟩) ?_,
      h.hist.snoc (by simp) (by simp) (by simp) (by simp) (by simp)⟩
    intro i hi
    simp only [upd] at hi
    split at hi
    · cases hi
    · exact hi

theorem Inv.act {s : St} (h : Inv s) (a : Act) : Inv (act s a) := by
  unfold GenRun.act
  split
  · rename_i i last rest hs
    exact h.finish hs (Or.inl ⟨rfl, rfl⟩)
  · rename_i i last rest e hs
    exact h.finish hs (Or.inr ⟨e, rfl, rfl⟩)
  · rename_i i last rest v hs
    exact ⟨h.ctl.yield hs, h.rs.yield h.ctl hs, h.hist.snoc (by simp) (by simp) (by simp) (by simp) (by simp)⟩
  · rename_i i last rest hs
    exact ⟨h.ctl.abandon hs, h.rs.abandon h.ctl hs, h.hist.snoc (by simp) (by simp) (by simp) (by simp) (by simp)⟩
  · rename_i i last rest d hs
    refine ⟨h.ctl.wait hs, h.rs.wait h.ctl hs ?_, h.hist.snoc (by simp) (by simp) (by simp) (by simp) (by simp)⟩
    split
    · exact Or.inl rfl
    · exact Or.inr rfl
  · exact h.fireExt _ _
  · exact h.fireExt _ _
  · exact h.start _
  · exact h.start _
  · exact h

theorem Inv.step {s : St} (h : Inv s) (i : Input) : Inv (step s i) := by
  cases i with
  | go => exact h.go
  | act a => exact h.act a

theorem Inv.exec (is : List Input) : Inv (exec is) := by
  unfold GenRun.exec
  have : ∀ s, Inv s → Inv (is.foldl GenRun.step s) := by
    induction is with
    | nil => exact fun s h => h
    | cons i is ih => exact fun s h => ih _ (h.step i)
  exact this _ .init

end Verif.GenRun
