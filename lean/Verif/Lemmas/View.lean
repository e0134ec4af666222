import Verif.Model.View
import Mathlib.Tactic.Linarith
import Mathlib.Tactic.Ring
/-! Helper lemmas for `Verif/Props/View.lean`. -/
namespace Verif.View
open Verif.Py

/-- Two strictly sorted lists with the same members are equal. -/
theorem eq_of_sorted_of_mem {r : Int → Int → Prop} (irr : ∀ a, ¬ r a a)
    (tr : ∀ a b c, r a b → r b c → r a c) :
    ∀ {l₁ l₂ : List Int}, l₁.Pairwise r → l₂.Pairwise r → (∀ x, x ∈ l₁ ↔ x ∈ l₂) → l₁ = l₂
  | [], [], _, _, _ => rfl
  | [], b :: l₂, _, _, h => by simpa using (h b).2 (by simp)
  | a :: l₁, [], _, _, h => by simpa using (h a).1 (by simp)
  | a :: l₁, b :: l₂, h₁, h₂, h => by
    rw [List.pairwise_cons] at h₁ h₂
    have hab : a = b := by
      have ha := (h a).1 (by simp)
      have hb := (h b).2 (by simp)
      rcases List.mem_cons.1 ha with e | ha
      · exact e
      · rcases List.mem_cons.1 hb with e | hb
        · exact e.symm
        · exact absurd (tr _ _ _ (h₁.1 b hb) (h₂.1 a ha)) (irr a)
    subst hab
    have : l₁ = l₂ := by
      apply eq_of_sorted_of_mem irr tr h₁.2 h₂.2
      intro x
      have hx := h x
      constructor
      · intro hm
        rcases List.mem_cons.1 (hx.1 (List.mem_cons_of_mem _ hm)) with e | h'
        · subst e; exact absurd (h₁.1 x hm) (irr x)
        · exact h'
      · intro hm
        rcases List.mem_cons.1 (hx.2 (List.mem_cons_of_mem _ hm)) with e | h'
        · subst e; exact absurd (h₂.1 x hm) (irr x)
        · exact h'
    rw [this]

/-- The members of `range(start, stop, step)` in order. -/
def rangeList (start stop step : Int) : List Int :=
  (List.range (rangeLen start stop step)).map (fun i : Nat => start + (i : Int) * step)

theorem rangeLen_pos_iff {start stop step : Int} (h : 0 < step) (i : Nat) :
    i < rangeLen start stop step ↔ start + i * step < stop := by
  unfold rangeLen
  rw [if_pos h]
  split
  · rename_i hlt
    have h1 : (stop - 1 - start) / step ≥ (i : Int) ↔ (i : Int) * step ≤ stop - 1 - start := by
      exact Int.le_ediv_iff_mul_le h
    have h0 : 0 ≤ (stop - 1 - start) / step := Int.ediv_nonneg (by omega) (by omega)
    omega
  · rename_i hlt
    have : 0 ≤ (i : Int) * step := Int.mul_nonneg (by omega) (by omega)
    constructor <;> intro h <;> omega

theorem rangeLen_neg_iff {start stop step : Int} (h : step < 0) (i : Nat) :
    i < rangeLen start stop step ↔ stop < start + i * step := by
  have h' : 0 < -step := by omega
  unfold rangeLen
  rw [if_neg (by omega)]
  split
  · rename_i hlt
    have h1 : (start - 1 - stop) / (-step) ≥ (i : Int) ↔ (i : Int) * (-step) ≤ start - 1 - stop :=
      Int.le_ediv_iff_mul_le h'
    have h0 : 0 ≤ (start - 1 - stop) / (-step) := Int.ediv_nonneg (by omega) (by omega)
    have h2 : (i : Int) * (-step) = -(i * step) := by ring
    rw [h2] at h1
    omega
  · rename_i hlt
    have : 0 ≤ (i : Int) * (-step) := Int.mul_nonneg (by omega) (by omega)
    have h2 : (i : Int) * (-step) = -(i * step) := by ring
    constructor <;> intro h <;> omega

theorem mem_rangeList_pos {start stop step x : Int} (h : 0 < step) :
    x ∈ rangeList start stop step ↔ start ≤ x ∧ x < stop ∧ step ∣ x - start := by
  simp only [rangeList, List.mem_map, List.mem_range, rangeLen_pos_iff h]
  constructor
  · rintro ⟨i, hi, rfl⟩
    have : 0 ≤ (i : Int) * step := Int.mul_nonneg (by omega) (by omega)
    refine ⟨by omega, hi, ⟨i, by ring⟩⟩
  · rintro ⟨h1, h2, k, hk⟩
    have hk0 : 0 ≤ k := by
      by_contra hneg
      have : step * k < 0 := Int.mul_neg_of_pos_of_neg h (by omega)
      omega
    refine ⟨k.toNat, ?_, ?_⟩
    · rw [Int.toNat_of_nonneg hk0, Int.mul_comm]; omega
    · rw [Int.toNat_of_nonneg hk0, Int.mul_comm]; omega

theorem mem_rangeList_neg {start stop step x : Int} (h : step < 0) :
    x ∈ rangeList start stop step ↔ stop < x ∧ x ≤ start ∧ step ∣ x - start := by
  simp only [rangeList, List.mem_map, List.mem_range, rangeLen_neg_iff h]
  constructor
  · rintro ⟨i, hi, rfl⟩
    have : 0 ≤ (i : Int) * (-step) := Int.mul_nonneg (by omega) (by omega)
    have h2 : (i : Int) * (-step) = -(i * step) := by ring
    refine ⟨hi, by omega, ⟨i, by ring⟩⟩
  · rintro ⟨h1, h2, k, hk⟩
    have hk0 : 0 ≤ k := by
      by_contra hneg
      have : 0 < step * k := Int.mul_pos_of_neg_of_neg h (by omega)
      omega
    refine ⟨k.toNat, ?_, ?_⟩
    · rw [Int.toNat_of_nonneg hk0, Int.mul_comm]; omega
    · rw [Int.toNat_of_nonneg hk0, Int.mul_comm]; omega

theorem rangeList_sorted_pos {start stop step : Int} (h : 0 < step) :
    (rangeList start stop step).Pairwise (· < ·) := by
  unfold rangeList
  rw [List.pairwise_map]
  refine List.Pairwise.imp ?_ List.pairwise_lt_range
  intro a b hab
  have : (a : Int) * step < b * step := Int.mul_lt_mul_of_pos_right (by omega) h
  omega

theorem rangeList_sorted_neg {start stop step : Int} (h : step < 0) :
    (rangeList start stop step).Pairwise (· > ·) := by
  unfold rangeList
  rw [List.pairwise_map]
  refine List.Pairwise.imp ?_ List.pairwise_lt_range
  intro a b hab
  have : (a : Int) * (-step) < b * (-step) := Int.mul_lt_mul_of_pos_right (by omega) (by omega)
  have h2 : (a : Int) * (-step) = -(a * step) := by ring
  have h3 : (b : Int) * (-step) = -(b * step) := by ring
  omega

theorem rangeGet_eq (start stop step i : Int) :
    rangeGet start stop step i = listGet (rangeList start stop step) i := by
  unfold rangeGet listGet
  have hl : (rangeList start stop step).length = rangeLen start stop step := by simp [rangeList]
  rw [hl]
  simp only []
  generalize hj : (if i < 0 then i + (rangeLen start stop step : Int) else i) = j
  by_cases h0 : j < 0
  · simp [h0]
  · by_cases h1 : j ≥ (rangeLen start stop step : Int)
    · have : (rangeList start stop step)[j.toNat]? = none := by
        rw [List.getElem?_eq_none_iff, hl]; omega
      simp [h0, h1, this]
    · have : (rangeList start stop step)[j.toNat]? = some (start + j * step) := by
        have hlt : j.toNat < rangeLen start stop step := by omega
        unfold rangeList
        rw [List.getElem?_map, List.getElem?_range hlt]
        simp only [Option.map_some]
        rw [Int.toNat_of_nonneg (by omega)]
      simp only [this, h0, h1]; simp

end Verif.View
