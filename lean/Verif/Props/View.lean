import Verif.Lemmas.View
/-!
# C48 — a sliced view is the slice

Specification: the Python reference manual's description of `l[i:j:k]` (Common Sequence Operations,
notes 3–5), written with `filter` over the valid positions, not with `slice.indices`/`range`.
-/
namespace Verif.View
open Verif.Py

/-- A bound relative to the end when negative. -/
def relBound (n : Nat) (x : Int) : Int := if x < 0 then x + n else x

/-- The positions of a list of length `n` selected by a slice, in the order they are produced. -/
def specPositions (n : Nat) (s : Slice) : Except PyErr (List Int) :=
  let positions : List Int := (List.range n).map Int.ofNat
  let k := s.step.getD 1
  if k = 0 then .error .valueError
  else if k > 0 then
    -- missing start: the beginning; a start before the beginning is the beginning
    let i := match s.start with | none => 0 | some x => max 0 (relBound n x)
    .ok (positions.filter fun x =>
      decide (i ≤ x) && decide (k ∣ x - i) &&
      (match s.stop with | none => true | some j => decide (x < relBound n j)))
  else
    -- missing start: the last element; a start beyond the end is the last element
    let i := match s.start with | none => (n : Int) - 1 | some x => min ((n : Int) - 1) (relBound n x)
    .ok (positions.reverse.filter fun x =>
      decide (x ≤ i) && decide (k ∣ x - i) &&
      (match s.stop with | none => true | some j => decide (relBound n j < x)))

/-- `l[s]` for a list. -/
def specSlice {α : Type} (l : List α) (s : Slice) : Except PyErr (List α) :=
  (specPositions l.length s).map fun ps => ps.filterMap fun x => l[x.toNat]?

/-- The list a (possibly nested) view should look like. -/
def specList {α : Type} (σ : Store α) : Seq → Except PyErr (List α)
  | .base r => .ok (σ r)
  | .view s b => do specSlice (← specList σ s) b

theorem indices_spec (n : Nat) (s : Slice) :
    specPositions n s = (s.indices n).map fun p => rangeList p.1 p.2.1 p.2.2 := by
  obtain ⟨start, stop, step⟩ := s
  unfold specPositions Slice.indices
  generalize hk : (step.getD 1) = k
  simp only []
  by_cases h0 : k = 0
  · simp [h0, Except.map]
  rw [if_neg h0, if_neg h0]
  by_cases hpos : k > 0
  · rw [if_pos hpos]
    simp only [Except.map, Except.ok.injEq]
    have hneg : ¬ k < 0 := by omega
    simp only [if_neg hneg]
    apply eq_of_sorted_of_mem (r := (· < ·)) (fun a => by omega) (fun a b c => by omega)
    · apply List.Pairwise.filter
      rw [List.pairwise_map]
      exact List.Pairwise.imp (by intro a b; simp) List.pairwise_lt_range
    · exact rangeList_sorted_pos hpos
    · intro x
      rw [mem_rangeList_pos hpos]
      simp only [List.mem_filter, List.mem_map, List.mem_range, Bool.and_eq_true, decide_eq_true_eq]
      have hex : (∃ a, a < n ∧ Int.ofNat a = x) ↔ 0 ≤ x ∧ x < n := by
        constructor
        · rintro ⟨a, h, rfl⟩; simp; omega
        · rintro ⟨h1, h2⟩; exact ⟨x.toNat, by omega, by simp; omega⟩
      rw [hex]
      have hst : ∀ a : Int, (adjustBound 0 0 n n start = a) →
          ((match start with | none => (0 : Int) | some x => max 0 (relBound n x)) = a ∨
            (n ≤ a ∧ (n : Int) ≤ match start with | none => (0 : Int) | some x => max 0 (relBound n x))) := by
        intro a ha
        cases start with
        | none => left; simpa [adjustBound] using ha
        | some y =>
          simp only [adjustBound, relBound] at ha ⊢
          split at ha <;> rename_i hy
          · left; rw [if_pos hy]; omega
          · rw [if_neg hy]; omega
      have hsp : (x < adjustBound (n : Int) 0 n n stop) ↔
          (x < n ∧ (0 ≤ x → (match stop with | none => true | some j => decide (x < relBound n j)) = true) ) ∨
            (x < 0 ∧ x < adjustBound (n : Int) 0 n n stop) := by
        cases stop with
        | none => simp [adjustBound]
        | some y =>
          simp only [adjustBound, relBound]
          split <;> simp only [decide_eq_true_eq] <;> omega
      have hst0 : 0 ≤ adjustBound 0 0 (n : Int) n start := by
        cases start with
        | none => simp [adjustBound]
        | some y => simp only [adjustBound]; split <;> omega
      rw [hsp]
      rcases hst _ rfl with h | ⟨h, h'⟩
      · rw [h]
        constructor
        · rintro ⟨⟨h1, h2⟩, ⟨h3, h4⟩, h5⟩
          exact ⟨h3, Or.inl ⟨h2, fun _ => h5⟩, h4⟩
        · rintro ⟨h3, h5, h4⟩
          rcases h5 with ⟨h5, h6⟩ | ⟨h5, h6⟩
          · exact ⟨⟨by omega, h5⟩, ⟨h3, h4⟩, h6 (by omega)⟩
          · omega
      · constructor
        · rintro ⟨⟨h1, h2⟩, ⟨h3, h4⟩, h5⟩; omega
        · rintro ⟨h3, h5, h4⟩
          rcases h5 with ⟨h5, h6⟩ | ⟨h5, h6⟩ <;> omega
  · have hneg : k < 0 := by omega
    rw [if_neg hpos]
    simp only [Except.map, Except.ok.injEq, if_pos hneg]
    apply eq_of_sorted_of_mem (r := (· > ·)) (fun a => by omega) (fun a b c => by omega)
    · apply List.Pairwise.filter
      rw [List.pairwise_reverse, List.pairwise_map]
      exact List.Pairwise.imp (by intro a b; simp) List.pairwise_lt_range
    · exact rangeList_sorted_neg hneg
    · intro x
      rw [mem_rangeList_neg hneg]
      simp only [List.mem_filter, List.mem_reverse, List.mem_map, List.mem_range, Bool.and_eq_true,
        decide_eq_true_eq]
      have hex : (∃ a, a < n ∧ Int.ofNat a = x) ↔ 0 ≤ x ∧ x < n := by
        constructor
        · rintro ⟨a, h, rfl⟩; simp; omega
        · rintro ⟨h1, h2⟩; exact ⟨x.toNat, by omega, by simp; omega⟩
      rw [hex]
      have hst : ∀ a : Int, (adjustBound ((n : Int) - 1) (-1) (n - 1) n start = a) →
          ((match start with | none => (n : Int) - 1 | some x => min ((n : Int) - 1) (relBound n x)) = a ∨
            (a ≤ -1 ∧ (match start with | none => (n : Int) - 1 | some x => min ((n : Int) - 1) (relBound n x)) ≤ -1)) := by
        intro a ha
        cases start with
        | none => left; simpa [adjustBound] using ha
        | some y =>
          simp only [adjustBound, relBound] at ha ⊢
          split at ha <;> rename_i hy
          · rw [if_pos hy]; omega
          · rw [if_neg hy]; omega
      have hst0 : adjustBound ((n : Int) - 1) (-1) (n - 1) n start ≤ (n : Int) - 1 := by
        cases start with
        | none => simp [adjustBound]
        | some y => simp only [adjustBound]; split <;> omega
      have hsp : (adjustBound (-1 : Int) (-1) (n - 1) n stop < x) ↔
          (-1 < x ∧ (x < n → (match stop with | none => true | some j => decide (relBound n j < x)) = true) ) ∨
            (n ≤ x ∧ adjustBound (-1 : Int) (-1) (n - 1) n stop < x) := by
        cases stop with
        | none => simp [adjustBound]
        | some y =>
          simp only [adjustBound, relBound]
          split <;> simp only [decide_eq_true_eq] <;> omega
      rw [hsp]
      rcases hst _ rfl with h | ⟨h, h'⟩
      · rw [h]
        constructor
        · rintro ⟨⟨h1, h2⟩, ⟨h3, h4⟩, h5⟩
          exact ⟨Or.inl ⟨by omega, fun _ => h5⟩, h3, h4⟩
        · rintro ⟨h5, h3, h4⟩
          rcases h5 with ⟨h5, h6⟩ | ⟨h5, h6⟩
          · exact ⟨⟨by omega, by omega⟩, ⟨h3, h4⟩, h6 (by omega)⟩
          · omega
      · constructor
        · rintro ⟨⟨h1, h2⟩, ⟨h3, h4⟩, h5⟩; omega
        · rintro ⟨h5, h3, h4⟩
          rcases h5 with ⟨h5, h6⟩ | ⟨h5, h6⟩ <;> omega

theorem mem_specPositions {n : Nat} {s : Slice} {ps : List Int} (h : specPositions n s = .ok ps) :
    ∀ x ∈ ps, 0 ≤ x ∧ x < n := by
  unfold specPositions at h
  simp only [] at h
  split at h
  · cases h
  · split at h
    · cases h
      intro x hx
      simp only [List.mem_filter, List.mem_map, List.mem_range] at hx
      obtain ⟨⟨a, ha, rfl⟩, -⟩ := hx
      simp; omega
    · cases h
      intro x hx
      simp only [List.mem_filter, List.mem_reverse, List.mem_map, List.mem_range] at hx
      obtain ⟨⟨a, ha, rfl⟩, -⟩ := hx
      simp; omega

theorem length_filterMap_positions {α : Type} (l : List α) (ps : List Int)
    (h : ∀ x ∈ ps, 0 ≤ x ∧ x < l.length) :
    (ps.filterMap fun x => l[x.toNat]?).length = ps.length ∧
    ∀ i : Nat, (ps.filterMap fun x => l[x.toNat]?)[i]? = ps[i]?.bind fun x => l[x.toNat]? := by
  induction ps with
  | nil => simp
  | cons x ps ih =>
    have hx := h x (by simp)
    have ih := ih (fun y hy => h y (List.mem_cons_of_mem _ hy))
    have hlt : x.toNat < l.length := by omega
    have he : l[x.toNat]? = some l[x.toNat] := List.getElem?_eq_getElem hlt
    rw [List.filterMap_cons, he]
    refine ⟨by simp [ih.1], ?_⟩
    intro i
    cases i with
    | zero => simp [he]
    | succ i => simpa using ih.2 i

/-- **C48.** `len(view)` is the length of the slice, to any nesting depth; a zero step anywhere in the
nest raises `ValueError` and nothing else does. -/
theorem view_len {α : Type} (σ : Store α) (v : Seq) :
    v.len σ = (specList σ v).map List.length := by
  induction v with
  | base r => rfl
  | view s b ih =>
    simp only [Seq.len, specList, ih]
    cases hs : specList σ s with
    | error e => rfl
    | ok l =>
      simp only [Except.map, bind, Except.bind, specSlice, indices_spec]
      cases hi : b.indices l.length with
      | error e => rfl
      | ok p =>
        have hp : specPositions l.length b = .ok (rangeList p.1 p.2.1 p.2.2) := by
          rw [indices_spec, hi]; rfl
        have := (length_filterMap_positions l _ (mem_specPositions hp)).1
        simp only [this]
        simp [rangeList, pure, Except.pure]

/-- **C48.** `view[i]` is `slice[i]` — the same element, or the same `IndexError` — for every integer
index, every slice, every nesting depth and the *current* contents of the underlying list. -/
theorem view_getitem {α : Type} (σ : Store α) (v : Seq) (i : Int) :
    v.getInt σ i = (specList σ v).bind fun l => listGet l i := by
  induction v generalizing i with
  | base r => rfl
  | view s b ih =>
    simp only [Seq.getInt, specList, view_len]
    cases hs : specList σ s with
    | error e => rfl
    | ok l =>
      simp only [Except.map, bind, Except.bind, specSlice]
      cases hi : b.indices l.length with
      | error e => simp [indices_spec, hi, Except.map]
      | ok p =>
        have hp : specPositions l.length b = .ok (rangeList p.1 p.2.1 p.2.2) := by
          rw [indices_spec, hi]; rfl
        have hlen := length_filterMap_positions l _ (mem_specPositions hp)
        have hmem := mem_specPositions hp
        rw [hp]
        simp only [rangeGet_eq]
        generalize rangeList p.1 p.2.1 p.2.2 = ps at *
        unfold listGet
        rw [hlen.1]
        simp only [hlen.2]
        generalize (if i < 0 then i + (ps.length : Int) else i) = j
        by_cases hj : j < 0
        · simp [hj]
        · simp only [if_neg hj]
          cases hps : ps[j.toNat]? with
          | none => simp
          | some x =>
            have hx := hmem x (List.mem_of_getElem? hps)
            have hlt : x.toNat < l.length := by omega
            have hx0 : ¬ x < 0 := by omega
            simp only [Option.bind_some, ih, hs, Except.bind, listGet, if_neg hx0]

/-- **C48.** Slicing a view gives a view equal to slicing the sliced list. -/
theorem view_getslice {α : Type} (σ : Store α) (v : Seq) (b : Slice) :
    specList σ (v.getSlice b) = (specList σ v).bind fun l => specSlice l b := rfl

theorem iterFrom_spec {α : Type} (σ : Store α) (v : Seq) (l : List α) (h : specList σ v = .ok l) :
    ∀ (fuel i : Nat), l.length < fuel + i → i ≤ l.length →
      v.iterFrom σ fuel i = some (.ok (l.drop i)) := by
  intro fuel
  induction fuel with
  | zero => intro i h1 h2; omega
  | succ fuel ih =>
    intro i h1 h2
    unfold Seq.iterFrom
    rw [view_getitem, h]
    have hni : ¬ ((i : Int) < 0) := by omega
    simp only [Except.bind, listGet, if_neg hni, Int.toNat_natCast]
    by_cases hlt : i < l.length
    · rw [List.getElem?_eq_getElem hlt]
      simp only []
      rw [ih (i + 1) (by omega) (by omega)]
      rw [List.drop_eq_getElem_cons hlt]
      rfl
    · have : i = l.length := by omega
      subst this
      simp only [List.getElem?_eq_none_iff.2 (Nat.le_refl _), List.drop_length]

/-- **C48.** Iterating a view yields exactly the elements of the slice and terminates (after at most one
`__getitem__` call more than there are elements). -/
theorem view_iter {α : Type} (σ : Store α) (v : Seq) (l : List α) (h : specList σ v = .ok l)
    (fuel : Nat) (hf : l.length < fuel) : v.iterFrom σ fuel 0 = some (.ok l) := by
  simpa using iterFrom_spec σ v l h fuel 0 (by omega) (by omega)

/-- **C48.** A view with a zero step anywhere raises `ValueError` on iteration rather than looking empty. -/
theorem view_iter_error {α : Type} (σ : Store α) (v : Seq) (e : PyErr) (h : specList σ v = .error e)
    (fuel : Nat) : v.iterFrom σ (fuel + 1) 0 = some (.error e) := by
  have he : e = .valueError := by
    clear fuel
    induction v generalizing e with
    | base r => cases h
    | view s b ih =>
      simp only [specList, bind, Except.bind] at h
      cases hs : specList σ s with
      | error e' => rw [hs] at h; cases h; exact ih _ hs
      | ok l =>
        rw [hs] at h
        simp only [specSlice, specPositions] at h
        split at h
        · simp only [Except.map] at h; cases h; rfl
        · split at h <;> simp [Except.map] at h
  subst he
  unfold Seq.iterFrom
  rw [view_getitem, h]
  rfl

/-- Non-vacuity: `SlicedView(SlicedView([0,1,2,3,4,5,6], slice(-1, None, -2)), slice(1, None))`. -/
example : specList (fun _ => [0, 1, 2, 3, 4, 5, 6])
    (.view (.view (.base 0) ⟨some (-1), none, some (-2)⟩) ⟨some 1, none, none⟩) = .ok [4, 2, 0] := by
  decide
example : (Seq.view (.view (.base 0) ⟨some (-1), none, some (-2)⟩) ⟨some 1, none, none⟩).getInt
    (fun _ => [0, 1, 2, 3, 4, 5, 6]) (-3) = .ok 4 := by decide
example : (Seq.view (.base 0) ⟨none, none, some 0⟩).getInt (fun _ => [0, 1]) 0
    = (.error .valueError : Except PyErr Nat) := by decide

end Verif.View
