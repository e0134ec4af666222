import Mathlib.Data.Int.Log
import Mathlib.Data.Rat.Floor
import Mathlib.Tactic.Linarith
import Mathlib.Tactic.Positivity
import Mathlib.Tactic.FieldSimp
import Mathlib.Tactic.Ring
import Mathlib.Algebra.Order.Round
/-!
# IEEE binary64 arithmetic, as far as it is used

A finite float is its exact rational value; every operation is the exact one followed by `roundF`, rounding to
the nearest float, ties to even.  Infinities, NaNs and the sign of zero do not occur in the modelled code and
are left out.
-/
namespace Verif.Py

/-- Round to the nearest integer, ties to even (`round(x)` for a float, and the rounding of `timedelta`). -/
def rhe (q : Rat) : Int :=
  if q - ⌊q⌋ < 1 / 2 then ⌊q⌋
  else if q - ⌊q⌋ > 1 / 2 then ⌊q⌋ + 1
  else if ⌊q⌋ % 2 = 0 then ⌊q⌋ else ⌊q⌋ + 1

/-- The spacing of floats around `q`. -/
def ulp (q : Rat) : Rat := 2 ^ (max (Int.log 2 |q| - 52) (-1074) : Int)

/-- The float nearest to `q`. -/
def roundF (q : Rat) : Rat := if q = 0 then 0 else rhe (q / ulp q) * ulp q

theorem rhe_near (q : Rat) : |(rhe q : Rat) - q| ≤ 1 / 2 := by
  have h1 := Int.floor_le q
  have h2 := Int.lt_floor_add_one q
  unfold rhe
  split
  · rw [abs_le]; constructor <;> linarith
  · split
    · push_cast; rw [abs_le]; constructor <;> linarith
    · split
      · rw [abs_le]; constructor <;> linarith
      · push_cast; rw [abs_le]; constructor <;> linarith

/-- `rhe` finds the integer closer than a half. -/
theorem rhe_eq (q : Rat) (k : Int) (h : |q - k| < 1 / 2) : rhe q = k := by
  have hn := rhe_near q
  rw [abs_le] at hn
  rw [abs_lt] at h
  have h1 : (rhe q : Rat) - k < 1 := by linarith
  have h2 : (k : Rat) - rhe q < 1 := by linarith
  have h1' : rhe q - k < 1 := by exact_mod_cast h1
  have h2' : k - rhe q < 1 := by exact_mod_cast h2
  omega

theorem rhe_int (k : Int) : rhe (k : Rat) = k := rhe_eq _ _ (by simp)

theorem ulp_pos (q : Rat) : 0 < ulp q := by unfold ulp; exact zpow_pos (by norm_num) _

/-- The rounding error is at most half a spacing. -/
theorem roundF_near (q : Rat) : |roundF q - q| ≤ ulp q / 2 := by
  have hu := ulp_pos q
  unfold roundF
  split
  · rename_i h; subst h; simp only [sub_self, abs_zero]; linarith
  · have h := rhe_near (q / ulp q)
    have : (rhe (q / ulp q) : Rat) * ulp q - q = ((rhe (q / ulp q) : Rat) - q / ulp q) * ulp q := by
      field_simp
    rw [this, abs_mul, abs_of_pos hu]
    nlinarith

theorem ulp_le (q : Rat) (b : Int) (h0 : q ≠ 0) (h : |q| < 2 ^ b) (hb : -1021 ≤ b) : ulp q ≤ 2 ^ (b - 53) := by
  unfold ulp
  apply zpow_le_zpow_right₀ (by norm_num)
  have hq : 0 < |q| := abs_pos.2 h0
  have : Int.log 2 |q| < b := by
    rw [← Int.lt_zpow_iff_log_lt (by norm_num) hq]; exact_mod_cast h
  omega

/-- Error of rounding a number below `2 ^ b`. -/
theorem roundF_error (q : Rat) (b : Int) (h : |q| < 2 ^ b) (hb : -1021 ≤ b) : |roundF q - q| ≤ 2 ^ (b - 54) := by
  by_cases h0 : q = 0
  · subst h0
    simp only [roundF, if_true, sub_self, abs_zero]
    exact (zpow_pos (by norm_num) _).le
  have h1 := roundF_near q
  have h2 := ulp_le q b h0 h hb
  have h3 : (2 : Rat) ^ (b - 53) = 2 ^ (b - 54) * 2 := by
    rw [← zpow_add_one₀ (by norm_num)]; congr 1; ring
  rw [h3] at h2
  linarith

/-- Multiples of `2 ^ j` with at most 53 significant bits are floats. -/
theorem roundF_exact (k j : Int) (hk : |k| < 2 ^ 53) (hj : -1074 ≤ j) : roundF ((k : Rat) * 2 ^ j) = k * 2 ^ j := by
  by_cases h0 : (k : Rat) * 2 ^ j = 0
  · unfold roundF; rw [if_pos h0, h0]
  · have hu := ulp_pos ((k : Rat) * 2 ^ j)
    have hb : |(k : Rat) * 2 ^ j| < 2 ^ (53 + j) := by
      rw [abs_mul, zpow_add₀ (by norm_num), abs_of_pos (show (0 : Rat) < 2 ^ j from zpow_pos (by norm_num) _)]
      apply mul_lt_mul_of_pos_right _ (zpow_pos (by norm_num) _)
      have : ((|k| : Int) : Rat) < ((2 ^ 53 : Int) : Rat) := by exact_mod_cast hk
      rw [Int.cast_abs] at this
      refine lt_of_lt_of_le this (by norm_num)
    -- the spacing divides `2 ^ j`
    have : ∃ n : Int, (k : Rat) * 2 ^ j / ulp ((k : Rat) * 2 ^ j) = n := by
      unfold ulp
      have hlog : Int.log 2 |(k : Rat) * 2 ^ j| < 53 + j := by
        rw [← Int.lt_zpow_iff_log_lt (by norm_num) (abs_pos.2 h0)]; exact_mod_cast hb
      generalize hm : max (Int.log 2 |(k : Rat) * 2 ^ j| - 52) (-1074) = m
      have hmj : m ≤ j := by omega
      refine ⟨k * 2 ^ (j - m).toNat, ?_⟩
      push_cast
      rw [mul_div_assoc, ← zpow_sub₀ (by norm_num), ← zpow_natCast, Int.toNat_of_nonneg (by omega)]
    obtain ⟨n, hn⟩ := this
    unfold roundF
    rw [if_neg h0, hn, rhe_int, ← hn]
    field_simp

/-- Integers below `2 ^ 53` are floats. -/
theorem roundF_int (k : Int) (hk : |k| < 2 ^ 53) : roundF (k : Rat) = k := by
  have := roundF_exact k 0 hk (by norm_num)
  simpa using this

theorem rhe_ge {q : Rat} {n : Int} (h : (n : Rat) ≤ q) : n ≤ rhe q := by
  have : n ≤ ⌊q⌋ := Int.le_floor.2 h
  unfold rhe
  split
  · exact this
  · split
    · omega
    · split <;> omega

/-- Rounding does not cross an integer. -/
theorem roundF_ge {q : Rat} {k : Int} (hq : |q| < 2 ^ (53 : Int)) (h : (k : Rat) ≤ q) : (k : Rat) ≤ roundF q := by
  by_cases h0 : q = 0
  · subst h0; unfold roundF; simpa using h
  have hu := ulp_pos q
  have : ∃ n : Int, (k : Rat) = n * ulp q := by
    unfold ulp
    have hlog : Int.log 2 |q| < 53 := by
      rw [← Int.lt_zpow_iff_log_lt (by norm_num) (abs_pos.2 h0)]; exact_mod_cast hq
    generalize hm : max (Int.log 2 |q| - 52) (-1074) = m
    have hm0 : m ≤ 0 := by omega
    refine ⟨k * 2 ^ (-m).toNat, ?_⟩
    push_cast
    rw [← zpow_natCast, Int.toNat_of_nonneg (by omega), mul_assoc, ← zpow_add₀ (by norm_num)]
    simp
  obtain ⟨n, hn⟩ := this
  unfold roundF
  rw [if_neg h0, hn]
  apply mul_le_mul_of_nonneg_right _ hu.le
  have : n ≤ rhe (q / ulp q) := rhe_ge (by rw [le_div_iff₀ hu, ← hn]; exact h)
  exact_mod_cast this

/-- Rounding to the nearest float, when the binade is known. -/
theorem roundF_eq (q : Rat) (k j : Int) (h1 : (2 : Rat) ^ (j + 52) ≤ |q|) (h2 : |q| < 2 ^ (j + 53)) (hj : -1074 ≤ j)
    (h : |q / 2 ^ j - k| < 1 / 2) : roundF q = k * 2 ^ j := by
  have hq : 0 < |q| := lt_of_lt_of_le (zpow_pos (by norm_num) _) h1
  have h0 : q ≠ 0 := abs_pos.1 hq
  have hl : Int.log 2 |q| = j + 52 := by
    have a1 : j + 52 ≤ Int.log 2 |q| := by
      rw [← Int.zpow_le_iff_le_log (by norm_num) hq]; exact_mod_cast h1
    have a2 : Int.log 2 |q| < j + 53 := by
      rw [← Int.lt_zpow_iff_log_lt (by norm_num) hq]; exact_mod_cast h2
    omega
  unfold roundF
  rw [if_neg h0]
  have hu : ulp q = 2 ^ j := by
    unfold ulp; rw [hl]; congr 1; omega
  rw [hu, rhe_eq _ k h]

/-- `a * b`, `a / b`, `a + b` for floats. -/
def fmul (a b : Rat) : Rat := roundF (a * b)
def fdiv (a b : Rat) : Rat := roundF (a / b)
def fadd (a b : Rat) : Rat := roundF (a + b)

end Verif.Py
