import Verif.Py.Float
/-!
# IEEE binary64 arithmetic: rounding keeps the order, and exact differences

A rational `t` is a float when `roundF t = t` (the range is not bounded above, as in `Py/Float`).
-/
namespace Verif.Py

/-- `a - b` for floats. -/
def fsub (a b : Rat) : Rat := roundF (a - b)

theorem roundF_zero : roundF 0 = 0 := by unfold roundF; simp

/-- A float is a multiple of its spacing. -/
theorem float_multiple {t : Rat} (h : roundF t = t) : ∃ k : Int, t = k * ulp t := by
  by_cases h0 : t = 0
  · exact ⟨0, by rw [h0]; simp⟩
  · refine ⟨rhe (t / ulp t), ?_⟩
    conv_lhs => rw [← h]
    unfold roundF
    rw [if_neg h0]

/-- The spacing grows by powers of two. -/
theorem ulp_grows {a b : Rat} (ha : a ≠ 0) (h : |a| ≤ |b|) : ∃ n : Nat, ulp b = 2 ^ n * ulp a := by
  unfold ulp
  have hl : Int.log 2 |a| ≤ Int.log 2 |b| := Int.log_mono_right (abs_pos.2 ha) h
  refine ⟨(max (Int.log 2 |b| - 52) (-1074) - max (Int.log 2 |a| - 52) (-1074)).toNat, ?_⟩
  rw [← zpow_natCast, Int.toNat_of_nonneg (by omega), ← zpow_add₀ (by norm_num)]
  congr 1; omega

/-- A number has less than 2^53 spacings. -/
theorem lt_ulp (q : Rat) : |q| < 2 ^ 53 * ulp q := by
  have h1 : |q| < 2 ^ (Int.log 2 |q| + 1) := by
    have := Int.lt_zpow_succ_log_self (R := Rat) (b := 2) (by norm_num) |q|
    exact_mod_cast this
  refine lt_of_lt_of_le h1 ?_
  unfold ulp
  rw [show ((2 : Rat) ^ 53) = 2 ^ (53 : Int) by norm_num, ← zpow_add₀ (by norm_num)]
  apply zpow_le_zpow_right₀ (by norm_num)
  omega

theorem rhe_le {q : Rat} {n : Int} (h : q ≤ n) : rhe q ≤ n := by
  have h1 := Int.floor_le q
  have hf : ⌊q⌋ ≤ n := by
    have : (⌊q⌋ : Rat) ≤ n := le_trans h1 h
    exact_mod_cast this
  by_cases he : ⌊q⌋ = n
  · have : q = n := le_antisymm h (by rw [← he]; exact h1)
    rw [this, rhe_int]
  · unfold rhe
    split
    · exact hf
    · split
      · omega
      · split <;> omega

theorem rhe_neg (q : Rat) : rhe (-q) = - rhe q := by
  by_cases hi : (⌊q⌋ : Rat) = q
  · rw [← hi, rhe_int, ← Int.cast_neg, rhe_int]
  · have h1 := Int.floor_le q
    have h2 := Int.lt_floor_add_one q
    have h1' : (⌊q⌋ : Rat) < q := lt_of_le_of_ne h1 hi
    have hn : ⌊-q⌋ = -⌊q⌋ - 1 := by
      rw [Int.floor_eq_iff]
      push_cast
      constructor <;> linarith
    unfold rhe
    rw [hn]
    push_cast
    by_cases a : q - ⌊q⌋ < 1 / 2
    · rw [if_pos a, if_neg (by linarith), if_pos (by linarith)]; ring
    · by_cases b : q - ⌊q⌋ > 1 / 2
      · rw [if_neg a, if_pos b, if_pos (by linarith)]; ring
      · rw [if_neg a, if_neg b, if_neg (by linarith), if_neg (by linarith)]
        by_cases c : ⌊q⌋ % 2 = 0
        · rw [if_pos c, if_neg (by omega)]; ring
        · rw [if_neg c, if_pos (by omega)]; ring

theorem ulp_neg (q : Rat) : ulp (-q) = ulp q := by unfold ulp; rw [abs_neg]

theorem roundF_neg (q : Rat) : roundF (-q) = - roundF q := by
  unfold roundF
  by_cases h : q = 0
  · simp [h]
  · rw [if_neg h, if_neg (by simpa using h), ulp_neg, neg_div, rhe_neg]; push_cast; ring

/-- A float above a positive number stays above it. -/
theorem roundF_le_pos {t q : Rat} (ht : roundF t = t) (hq : 0 < q) (h : q ≤ t) : roundF q ≤ t := by
  have hu := ulp_pos q
  obtain ⟨k, hk⟩ := float_multiple ht
  obtain ⟨n, hn⟩ := ulp_grows hq.ne' (b := t) (by rw [abs_of_pos hq, abs_of_pos (lt_of_lt_of_le hq h)]; exact h)
  unfold roundF
  rw [if_neg hq.ne']
  have hm : t = ((k * 2 ^ n : Int) : Rat) * ulp q := by
    conv_lhs => rw [hk, hn]
    push_cast; ring
  have : rhe (q / ulp q) ≤ k * 2 ^ n := rhe_le (by rw [div_le_iff₀ hu, ← hm]; exact h)
  have h2 : ((rhe (q / ulp q) : Int) : Rat) ≤ ((k * 2 ^ n : Int) : Rat) := by exact_mod_cast this
  calc _ ≤ ((k * 2 ^ n : Int) : Rat) * ulp q := mul_le_mul_of_nonneg_right h2 hu.le
    _ = t := hm.symm

/-- A float below a positive number stays below it. -/
theorem le_roundF_pos {t q : Rat} (ht : roundF t = t) (hq : 0 < q) (h : t ≤ q) : t ≤ roundF q := by
  have hu := ulp_pos q
  have key : ∀ m : Int, (m : Rat) * ulp q ≤ q → (m : Rat) * ulp q ≤ roundF q := by
    intro m hm
    unfold roundF
    rw [if_neg hq.ne']
    apply mul_le_mul_of_nonneg_right _ hu.le
    have : m ≤ rhe (q / ulp q) := rhe_ge (by rw [le_div_iff₀ hu]; exact hm)
    exact_mod_cast this
  by_cases h0 : t ≤ 0
  · have := key 0 (by simpa using hq.le)
    simp only [Int.cast_zero, zero_mul] at this
    exact le_trans h0 this
  push Not at h0
  obtain ⟨k, hk⟩ := float_multiple ht
  by_cases hl : Int.log 2 |t| = Int.log 2 |q| ∨ Int.log 2 |q| - 52 ≤ -1074
  · have hlt : Int.log 2 |t| ≤ Int.log 2 |q| :=
      Int.log_mono_right (abs_pos.2 h0.ne') (by rw [abs_of_pos h0, abs_of_pos hq]; exact h)
    have : ulp t = ulp q := by unfold ulp; congr 1; omega
    have := key k (by rw [← this, ← hk]; exact h)
    rwa [← ‹ulp t = ulp q›, ← hk] at this
  · push Not at hl
    obtain ⟨h1, h2⟩ := hl
    have hlt : Int.log 2 |t| < Int.log 2 |q| :=
      lt_of_le_of_ne (Int.log_mono_right (abs_pos.2 h0.ne') (by rw [abs_of_pos h0, abs_of_pos hq]; exact h)) h1
    have hpow : (2 : Rat) ^ Int.log 2 |q| ≤ q := by
      have := Int.zpow_log_le_self (R := Rat) (b := 2) (by norm_num) (abs_pos.2 hq.ne')
      rw [abs_of_pos hq] at this ⊢
      exact_mod_cast this
    have ht2 : t < 2 ^ Int.log 2 |q| := by
      have := (Int.lt_zpow_iff_log_lt (R := Rat) (b := 2) (by norm_num) (abs_pos.2 h0.ne')).mpr hlt
      rw [abs_of_pos h0] at this
      exact_mod_cast this
    have hu2 : ((2 ^ 52 : Int) : Rat) * ulp q = 2 ^ Int.log 2 |q| := by
      unfold ulp
      rw [max_eq_left (by omega)]
      rw [show ((2 ^ 52 : Int) : Rat) = 2 ^ (52 : Int) by norm_num, ← zpow_add₀ (by norm_num)]
      congr 1; ring
    have := key (2 ^ 52) (by rw [hu2]; exact hpow)
    rw [hu2] at this
    exact le_trans ht2.le this

/-- Rounding does not cross a float, from above… -/
theorem le_roundF {t q : Rat} (ht : roundF t = t) (h : t ≤ q) : t ≤ roundF q := by
  rcases lt_trichotomy q 0 with hq | hq | hq
  · have := roundF_le_pos (t := -t) (q := -q) (by rw [roundF_neg, ht]) (by linarith) (by linarith)
    rw [roundF_neg] at this; linarith
  · subst hq; rw [roundF_zero]; exact h
  · exact le_roundF_pos ht hq h

/-- …and from below. -/
theorem roundF_le {t q : Rat} (ht : roundF t = t) (h : q ≤ t) : roundF q ≤ t := by
  have := le_roundF (t := -t) (q := -q) (by rw [roundF_neg, ht]) (by linarith)
  rw [roundF_neg] at this; linarith

/-- The result of rounding is a float. -/
theorem roundF_roundF (q : Rat) : roundF (roundF q) = roundF q := by
  by_cases h0 : q = 0
  · subst h0; rw [roundF_zero, roundF_zero]
  have hu := ulp_pos q
  have hval : roundF q = rhe (q / ulp q) * ulp q := by unfold roundF; rw [if_neg h0]
  have hb : |q / ulp q| < 2 ^ 53 := by
    rw [abs_div, abs_of_pos hu, div_lt_iff₀ hu]; exact lt_ulp q
  rw [abs_lt] at hb
  have hle : rhe (q / ulp q) ≤ 2 ^ 53 := rhe_le (by push_cast; exact hb.2.le)
  have hge : -(2 ^ 53) ≤ rhe (q / ulp q) := rhe_ge (by push_cast; exact hb.1.le)
  have hulp : ulp q = 2 ^ (max (Int.log 2 |q| - 52) (-1074) : Int) := rfl
  rw [hval]
  generalize rhe (q / ulp q) = k at *
  rw [hulp]
  obtain ⟨j, hj, he⟩ : ∃ j : Int, -1074 ≤ j ∧ max (Int.log 2 |q| - 52) (-1074) = j := ⟨_, by omega, rfl⟩
  rw [he]
  by_cases hk : |k| < 2 ^ 53
  · exact roundF_exact k j hk hj
  · have e : k = 2 ^ 53 ∨ k = -(2 ^ 53) := by
      rw [abs_lt] at hk
      omega
    have h1 : ∀ s : Int, |s| = 1 → roundF ((s : Rat) * 2 ^ (53 + j)) = s * 2 ^ (53 + j) := fun s hs =>
      roundF_exact s (53 + j) (by rw [hs]; norm_num) (by omega)
    rcases e with rfl | rfl
    · have := h1 1 (by norm_num)
      rw [zpow_add₀ (by norm_num)] at this
      push_cast at *
      rw [one_mul] at this
      exact_mod_cast this
    · have := h1 (-1) (by norm_num)
      rw [zpow_add₀ (by norm_num)] at this
      push_cast at *
      rw [neg_mul, one_mul] at this
      rw [neg_mul]
      exact_mod_cast this

/-- The sum with a number that is not negative is not less. -/
theorem le_fadd {t d : Rat} (ht : roundF t = t) (hd : 0 ≤ d) : t ≤ fadd t d := le_roundF ht (by linarith)
theorem fadd_le {t d : Rat} (ht : roundF t = t) (hd : d ≤ 0) : fadd t d ≤ t := roundF_le ht (by linarith)

/-- Sterbenz: the difference of two floats of which neither is more than twice the other is exact. -/
theorem fsub_exact {a b : Rat} (ha : roundF a = a) (hb : roundF b = b) (h0 : 0 < b) (h1 : b ≤ a) (h2 : a ≤ 2 * b) :
    fsub a b = a - b := by
  have hu := ulp_pos b
  obtain ⟨k, hk⟩ := float_multiple ha
  obtain ⟨l, hl⟩ := float_multiple hb
  obtain ⟨n, hn⟩ := ulp_grows h0.ne' (b := a) (by rw [abs_of_pos h0, abs_of_pos (lt_of_lt_of_le h0 h1)]; exact h1)
  have hd : a - b = ((k * 2 ^ n - l : Int) : Rat) * ulp b := by
    have e1 : a = k * (2 ^ n * ulp b) := by rw [← hn]; exact hk
    calc a - b = k * (2 ^ n * ulp b) - l * ulp b := by rw [← e1, ← hl]
      _ = _ := by push_cast; ring
  have hlt := lt_ulp b
  rw [abs_of_pos h0] at hlt
  have hbound : |k * 2 ^ n - l| < 2 ^ 53 := by
    have h3 : ((k * 2 ^ n - l : Int) : Rat) * ulp b < 2 ^ 53 * ulp b := by rw [← hd]; linarith
    have h4 : 0 ≤ ((k * 2 ^ n - l : Int) : Rat) * ulp b := by rw [← hd]; linarith
    have h5 := lt_of_mul_lt_mul_right h3 hu.le
    have h6 := nonneg_of_mul_nonneg_left h4 hu
    have h5' : k * 2 ^ n - l < 2 ^ 53 := by exact_mod_cast h5
    have h6' : 0 ≤ k * 2 ^ n - l := by exact_mod_cast h6
    rw [abs_of_nonneg h6']; exact h5'
  unfold fsub
  rw [hd]
  exact roundF_exact _ _ hbound (by omega)

end Verif.Py
