import Verif.Py.Str
/-! Lemmas about the string primitives. -/
namespace Verif.Py
variable {α : Type} [DecidableEq α]

theorem matchAt_iff (s sub : List α) (i : Nat) :
    matchAt s sub i = true ↔ ∀ j, j < sub.length → s[i + j]? = sub[j]? := by
  unfold matchAt
  rw [beq_iff_eq]
  constructor
  · intro h j hj
    have := congrArg (fun l => l[j]?) h
    simp only [List.getElem?_take, if_pos hj, List.getElem?_drop] at this
    exact this
  · intro h
    apply List.ext_getElem?
    intro j
    by_cases hj : j < sub.length
    · simp only [List.getElem?_take, if_pos hj, List.getElem?_drop]
      exact h j hj
    · simp only [List.getElem?_take, if_neg hj]
      rw [List.getElem?_eq_none_iff.2 (by omega)]

/-- `scanUp` finds the least candidate position. -/
theorem scanUp_spec (s sub : List α) (k i : Nat) :
    (scanUp s sub k i = -1 ∧ ∀ p, i ≤ p → p < i + k → matchAt s sub p = false) ∨
    (∃ p : Nat, scanUp s sub k i = p ∧ i ≤ p ∧ p < i + k ∧ matchAt s sub p = true ∧
      ∀ q, i ≤ q → q < p → matchAt s sub q = false) := by
  induction k generalizing i with
  | zero => left; exact ⟨rfl, fun p h1 h2 => by omega⟩
  | succ k ih =>
    unfold scanUp
    by_cases h : matchAt s sub i = true
    · right; exact ⟨i, by simp [h], by omega, by omega, h, fun q h1 h2 => by omega⟩
    · have hf : matchAt s sub i = false := by simpa using h
      simp only [hf]
      rcases ih (i + 1) with ⟨h1, h2⟩ | ⟨p, h1, h2, h3, h4, h5⟩
      · left; refine ⟨by simpa using h1, ?_⟩
        intro p hp1 hp2
        by_cases e : p = i
        · subst e; exact hf
        · exact h2 p (by omega) (by omega)
      · right; refine ⟨p, by simpa using h1, by omega, by omega, h4, ?_⟩
        intro q hq1 hq2
        by_cases e : q = i
        · subst e; exact hf
        · exact h5 q (by omega) (by omega)

/-- `scanDown` finds the greatest candidate position. -/
theorem scanDown_spec (s sub : List α) (k i : Nat) :
    (scanDown s sub k i = -1 ∧ ∀ p, i ≤ p → p < i + k → matchAt s sub p = false) ∨
    (∃ p : Nat, scanDown s sub k i = p ∧ i ≤ p ∧ p < i + k ∧ matchAt s sub p = true ∧
      ∀ q, p < q → q < i + k → matchAt s sub q = false) := by
  induction k with
  | zero => left; exact ⟨rfl, fun p h1 h2 => by omega⟩
  | succ k ih =>
    unfold scanDown
    by_cases h : matchAt s sub (i + k) = true
    · right; exact ⟨i + k, by simp [h], by omega, by omega, h, fun q h1 h2 => by omega⟩
    · have hf : matchAt s sub (i + k) = false := by simpa using h
      simp only [hf]
      rcases ih with ⟨h1, h2⟩ | ⟨p, h1, h2, h3, h4, h5⟩
      · left; refine ⟨by simpa using h1, ?_⟩
        intro p hp1 hp2
        by_cases e : p = i + k
        · subst e; exact hf
        · exact h2 p (by omega) (by omega)
      · right; refine ⟨p, by simpa using h1, by omega, by omega, h4, ?_⟩
        intro q hq1 hq2
        by_cases e : q = i + k
        · subst e; exact hf
        · exact h5 q (by omega) (by omega)

theorem candidates_iff (m a b p : Nat) : (a ≤ p ∧ p < a + candidates m a b) ↔ (a ≤ p ∧ p + m ≤ b) := by
  unfold candidates
  split <;> omega

/-- The greedy left-to-right count achieves itself: there is a list of that many matching, pairwise
non-overlapping candidate positions. -/
theorem scanCount_achieved (s sub : List α) (hne : 0 < sub.length) (k skip i : Nat) :
    ∃ ps : List Nat, ps.length = scanCount s sub k skip i ∧
      (∀ p ∈ ps, i + skip ≤ p ∧ p < i + k ∧ matchAt s sub p = true) ∧
      ps.Pairwise (fun p q => p + sub.length ≤ q) := by
  induction k generalizing skip i with
  | zero => exact ⟨[], by simp [scanCount]⟩
  | succ k ih =>
    cases skip with
    | succ skip =>
      obtain ⟨ps, h1, h2, h3⟩ := ih skip (i + 1)
      refine ⟨ps, by simpa [scanCount] using h1, ?_, h3⟩
      intro p hp; have := h2 p hp; exact ⟨by omega, by omega, this.2.2⟩
    | zero =>
      by_cases h : matchAt s sub i = true
      · obtain ⟨ps, h1, h2, h3⟩ := ih (sub.length - 1) (i + 1)
        refine ⟨i :: ps, by simp [scanCount, h, h1]; omega, ?_, ?_⟩
        · intro p hp
          rcases List.mem_cons.1 hp with e | hp
          · subst e; exact ⟨by omega, by omega, h⟩
          · have := h2 p hp; exact ⟨by omega, by omega, this.2.2⟩
        · rw [List.pairwise_cons]
          exact ⟨fun q hq => by have := h2 q hq; omega, h3⟩
      · obtain ⟨ps, h1, h2, h3⟩ := ih 0 (i + 1)
        refine ⟨ps, by simpa [scanCount, h] using h1, ?_, h3⟩
        intro p hp; have := h2 p hp; exact ⟨by omega, by omega, this.2.2⟩

/-- Skipping more candidates can only lower the count by what is skipped past one match. -/
theorem scanCount_optimal (s sub : List α) (hne : 0 < sub.length) (k skip i : Nat) (ps : List Nat)
    (h : ∀ p ∈ ps, i + skip ≤ p ∧ p < i + k ∧ matchAt s sub p = true)
    (hp : ps.Pairwise (fun p q => p + sub.length ≤ q)) :
    ps.length ≤ scanCount s sub k skip i := by
  induction k generalizing skip i ps with
  | zero =>
    cases ps with
    | nil => simp
    | cons p ps => have := h p (by simp); omega
  | succ k ih =>
    cases skip with
    | succ skip =>
      simp only [scanCount]
      exact ih skip (i + 1) ps (fun p hp => by have := h p hp; exact ⟨by omega, by omega, this.2.2⟩) hp
    | zero =>
      by_cases hm : matchAt s sub i = true
      · simp only [scanCount, hm, if_true]
        cases ps with
        | nil => simp
        | cons p ps =>
          rw [List.pairwise_cons] at hp
          have hp0 := h p (by simp)
          have : ps.length ≤ scanCount s sub k (sub.length - 1) (i + 1) := by
            apply ih
            · intro q hq
              have h1 := h q (List.mem_cons_of_mem _ hq)
              have h2 := hp.1 q hq
              exact ⟨by omega, by omega, h1.2.2⟩
            · exact hp.2
          simp; omega
      · have hf : matchAt s sub i = false := by simpa using hm
        simp only [scanCount, hf]
        apply ih
        · intro p hp'
          have h1 := h p hp'
          have : p ≠ i := by intro e; subst e; rw [hf] at h1; simp at h1
          exact ⟨by omega, by omega, h1.2.2⟩
        · exact hp

/-- The empty string is counted once per candidate position. -/
theorem scanCount_empty (s : List α) (k i : Nat) : scanCount s [] k 0 i = k := by
  induction k generalizing i with
  | zero => rfl
  | succ k ih =>
    have : matchAt s ([] : List α) i = true := by simp [matchAt]
    simp only [scanCount, this, if_true, List.length_nil]
    rw [ih]; omega

/-- `strCmp` agrees with "first difference". -/
theorem strCmp_eq_iff (s t : List Nat) : strCmp s t = .eq ↔ s = t := by
  induction s generalizing t with
  | nil => cases t <;> simp [strCmp]
  | cons a s ih =>
    cases t with
    | nil => simp [strCmp]
    | cons b t =>
      simp only [strCmp, List.cons.injEq]
      split
      · simp; omega
      · split
        · simp; omega
        · rw [ih]; constructor
          · intro h; exact ⟨by omega, h⟩
          · exact fun h => h.2

theorem strCmp_lt_iff (s t : List Nat) :
    strCmp s t = .lt ↔ (∃ c r, t = s ++ c :: r) ∨
      (∃ p a b s' t', s = p ++ a :: s' ∧ t = p ++ b :: t' ∧ a < b) := by
  induction s generalizing t with
  | nil =>
    cases t with
    | nil => simp [strCmp]
    | cons b t => simp only [strCmp, true_iff]; left; exact ⟨b, t, rfl⟩
  | cons a s ih =>
    cases t with
    | nil => simp [strCmp]
    | cons b t =>
      simp only [strCmp]
      split
      · rename_i h
        simp only [true_iff]
        right; exact ⟨[], a, b, s, t, rfl, rfl, h⟩
      · split
        · rename_i h1 h2
          simp only [reduceCtorEq, false_iff, not_or]
          constructor
          · rintro ⟨c, r, h⟩; simp at h; omega
          · rintro ⟨p, x, y, s', t', h3, h4, h5⟩
            cases p with
            | nil => simp at h3 h4; omega
            | cons z p => simp at h3 h4; omega
        · rename_i h1 h2
          have e : a = b := by omega
          subst e
          rw [ih]
          constructor
          · rintro (⟨c, r, h⟩ | ⟨p, x, y, s', t', h3, h4, h5⟩)
            · left; exact ⟨c, r, by simp [h]⟩
            · right; exact ⟨a :: p, x, y, s', t', by simp [h3], by simp [h4], h5⟩
          · rintro (⟨c, r, h⟩ | ⟨p, x, y, s', t', h3, h4, h5⟩)
            · left; exact ⟨c, r, by simpa using h⟩
            · right
              cases p with
              | nil => simp at h3 h4; omega
              | cons z p =>
                simp at h3 h4
                exact ⟨p, x, y, s', t', h3.2, h4.2, h5⟩

theorem strCmp_swap (s t : List Nat) : (strCmp s t).swap = strCmp t s := by
  induction s generalizing t with
  | nil => cases t <;> rfl
  | cons a s ih =>
    cases t with
    | nil => rfl
    | cons b t =>
      simp only [strCmp]
      rcases Nat.lt_trichotomy a b with h | h | h
      · rw [if_pos h, if_neg (by omega), if_pos h]; rfl
      · subst h; simpa using ih t
      · rw [if_neg (by omega), if_pos h, if_pos h]; rfl

theorem strCmp_lt_trans {s t u : List Nat} (h1 : strCmp s t = .lt) (h2 : strCmp t u = .lt) :
    strCmp s u = .lt := by
  induction s generalizing t u with
  | nil =>
    cases u with
    | nil => cases t <;> simp [strCmp] at h1 h2
    | cons c u => rfl
  | cons a s ih =>
    cases t with
    | nil => simp [strCmp] at h1
    | cons b t =>
      cases u with
      | nil => simp [strCmp] at h2
      | cons c u =>
        simp only [strCmp] at h1 h2 ⊢
        split at h1
        · split at h2
          · rw [if_pos (by omega)]
          · split at h2
            · cases h2
            · rw [if_pos (by omega)]
        · split at h1
          · cases h1
          · split at h2
            · rw [if_pos (by omega)]
            · split at h2
              · cases h2
              · rw [if_neg (by omega), if_neg (by omega)]; exact ih h1 h2

end Verif.Py
