/-!
# Searching for a two-character separator
-/
namespace Verif.Py

/-- Split at the first occurrence of the two-element separator `a b`. -/
def splitPair (a b : Nat) : List Nat → Option (List Nat × List Nat)
  | [] => none
  | c :: s =>
    if c = a ∧ s.head? = some b then some ([], s.tail) else (splitPair a b s).map fun (x, y) => (c :: x, y)

/-- `[a, b]` does not occur in `s`. -/
def NoPair (a b : Nat) (s : List Nat) : Prop := ¬ [a, b] <:+: s

instance (a b : Nat) (s : List Nat) : Decidable (NoPair a b s) := inferInstanceAs (Decidable (¬ _))

variable {a b : Nat}

theorem noPair_cons {c : Nat} {s : List Nat} :
    NoPair a b (c :: s) ↔ ¬ (c = a ∧ s.head? = some b) ∧ NoPair a b s := by
  unfold NoPair
  rw [List.infix_cons_iff, not_or]
  constructor
  · rintro ⟨h1, h2⟩
    refine ⟨?_, h2⟩
    rintro ⟨rfl, h⟩
    cases s with
    | nil => cases h
    | cons d s => cases h; exact h1 ⟨s, rfl⟩
  · rintro ⟨h1, h2⟩
    refine ⟨?_, h2⟩
    rintro ⟨t, ht⟩
    cases ht
    exact h1 ⟨rfl, rfl⟩

theorem noPair_nil : NoPair a b [] := by
  rintro ⟨x, y, h⟩
  have := congrArg List.length h
  simp at this

theorem noPair_append {s t : List Nat} :
    NoPair a b (s ++ t) ↔ NoPair a b s ∧ NoPair a b t ∧ ¬ (s.getLast? = some a ∧ t.head? = some b) := by
  induction s with
  | nil => simp only [List.nil_append, List.getLast?_nil]; exact ⟨fun h => ⟨noPair_nil, h, by simp⟩, fun h => h.2.1⟩
  | cons c s ih =>
    rw [List.cons_append, noPair_cons, noPair_cons, ih]
    cases s with
    | nil =>
      simp only [List.nil_append, List.getLast?_singleton, List.head?_nil, Option.some.injEq]
      exact ⟨fun h => ⟨⟨by simp, noPair_nil⟩, h.2.2.1, h.1⟩, fun h => ⟨h.2.2, noPair_nil, h.2.1, by simp⟩⟩
    | cons d s =>
      simp only [List.cons_append, List.head?_cons, List.getLast?_cons_cons]
      constructor
      · rintro ⟨h1, h2, h3, h4⟩; exact ⟨⟨h1, h2⟩, h3, h4⟩
      · rintro ⟨⟨h1, h2⟩, h3, h4⟩; exact ⟨h1, h2, h3, h4⟩

theorem splitPair_none_iff {s : List Nat} : splitPair a b s = none ↔ NoPair a b s := by
  induction s with
  | nil => simp [splitPair, noPair_nil]
  | cons c s ih =>
    rw [splitPair, noPair_cons]
    by_cases h : c = a ∧ s.head? = some b
    · rw [if_pos h]; simp [h]
    · rw [if_neg h]; simp [h, ih]

theorem splitPair_some {s l r : List Nat} (h : splitPair a b s = some (l, r)) :
    s = l ++ a :: b :: r ∧ NoPair a b l := by
  induction s generalizing l with
  | nil => simp [splitPair] at h
  | cons c s ih =>
    rw [splitPair] at h
    by_cases hc : c = a ∧ s.head? = some b
    · rw [if_pos hc] at h
      cases h
      obtain ⟨rfl, h2⟩ := hc
      cases s with
      | nil => cases h2
      | cons d s => cases h2; exact ⟨rfl, noPair_nil⟩
    · rw [if_neg hc] at h
      cases hs : splitPair a b s with
      | none => rw [hs] at h; cases h
      | some p =>
        obtain ⟨x, y⟩ := p
        rw [hs] at h
        simp only [Option.map_some, Option.some.injEq, Prod.mk.injEq] at h
        obtain ⟨rfl, rfl⟩ := h
        have := ih hs
        refine ⟨by rw [this.1]; rfl, ?_⟩
        rw [noPair_cons]
        refine ⟨?_, this.2⟩
        rintro ⟨rfl, h2⟩
        apply hc
        refine ⟨rfl, ?_⟩
        rw [this.1]
        cases x with
        | nil => cases h2
        | cons d x => exact h2

theorem splitPair_append (hab : a ≠ b) {l : List Nat} (r : List Nat) (h : NoPair a b l) :
    splitPair a b (l ++ a :: b :: r) = some (l, r) := by
  induction l with
  | nil => simp [splitPair]
  | cons c l ih =>
    rw [noPair_cons] at h
    rw [List.cons_append, splitPair, ih h.2, if_neg]
    · rfl
    · rintro ⟨rfl, h2⟩
      cases l with
      | nil => simp at h2; exact hab h2
      | cons d l => exact h.1 ⟨rfl, h2⟩

end Verif.Py
