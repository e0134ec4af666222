import Verif.Model.ExtimePosix
import Verif.Props.Extime
import Mathlib.Tactic.ByContra
/-!
# C18: POSIX timestamps

`Time.sinceEpoch` is the exact number of microseconds since 1970; timestamps are IEEE doubles.
-/
namespace Verif.Extime
open Verif.Py

/-- Microseconds since 1 January 1970. -/
def Time.sinceEpoch (x : Time) : Int := x.start - 719162 * dayUs

theorem epoch_toUs : epoch.toUs = 719162 * dayUs := by decide

/-- `fromPOSIXTimestamp` adds the seconds to the epoch. -/
theorem fromPOSIX_spec (s : Secs) :
    (Representable (719162 * dayUs + timedeltaSeconds s) →
      ∃ y, fromPOSIX s = .ok y ∧ y.t.Valid ∧ y.sinceEpoch = timedeltaSeconds s ∧ y.res = 0) ∧
    (¬ Representable (719162 * dayUs + timedeltaSeconds s) → fromPOSIX s = .error .overflowError) := by
  unfold fromPOSIX DT.add
  rw [epoch_toUs]
  constructor
  · intro h
    unfold Representable at h
    rw [if_pos h]
    refine ⟨_, rfl, DT.ofUs_valid h.1 h.2, ?_, rfl⟩
    unfold Time.sinceEpoch Time.start
    simp only
    rw [DT.toUs_ofUs h.1]; omega
  · intro h
    unfold Representable at h
    rw [if_neg h]

theorem trunc_near (q : Rat) : |q - trunc q| < 1 := by
  unfold trunc
  split
  · have h1 := Int.floor_le q
    have h2 := Int.lt_floor_add_one q
    rw [abs_lt]; constructor <;> linarith
  · have h1 := Int.le_ceil q
    have h2 := Int.ceil_lt_add_one q
    rw [abs_lt]; constructor <;> linarith

/-- A float within half a microsecond (less a little) of `n` microseconds is read as `n` microseconds. -/
theorem timedelta_near (q : Rat) (n : Int) (h : |q * 1000000 - n| < 1 / 2 - 1 / 1000) : timedeltaSeconds (.float q) = n := by
  unfold timedeltaSeconds
  have ht := trunc_near q
  have hb : |(q - trunc q) * 1000000| < 2 ^ (20 : Int) := by
    rw [abs_lt] at ht ⊢; norm_num; constructor <;> linarith
  have e := roundF_error ((q - trunc q) * 1000000) 20 hb (by norm_num)
  norm_num at e
  have : rhe (fmul (q - trunc q) 1000000) = n - trunc q * 1000000 := by
    apply rhe_eq
    unfold fmul
    rw [abs_le] at e
    rw [abs_lt] at h ⊢
    push_cast
    constructor <;> linarith
  simp only [this]; ring

/-- The error of a timestamp of less than `2 ^ b` seconds. -/
theorem asPOSIX_error {x : Time} (b : Int) (hb : 1 ≤ b)
    (h : |(x.sinceEpoch : Rat)| + 1000000 ≤ 1000000 * 2 ^ b) :
    |asPOSIX x - (x.sinceEpoch : Rat) / 1000000| ≤ 2 ^ (b - 54) + 2 ^ (-52 : Int) := by
  have hd : x.t.toUs - epoch.toUs = x.sinceEpoch := by rw [epoch_toUs]; rfl
  unfold asPOSIX timedeltaToSeconds
  rw [hd]
  generalize x.sinceEpoch = d at *
  have hS : d / dayUs * 86400 + d % dayUs / 1000000 = d / 1000000 := by unfold dayUs; omega
  rw [hS]
  have hu0 : 0 ≤ d % 1000000 := by omega
  have hu1 : d % 1000000 < 1000000 := by omega
  have hdiv : d = d / 1000000 * 1000000 + d % 1000000 := by omega
  generalize hSe : d / 1000000 = S at *
  generalize hue : d % 1000000 = u at *
  have hu0' : (0 : Rat) ≤ u := by exact_mod_cast hu0
  have hu1' : (u : Rat) ≤ 999999 := by exact_mod_cast (by omega : u ≤ 999999)
  have e1 := roundF_error (1 / 1000000) (-19) (by rw [abs_of_pos (by norm_num)]; norm_num) (by norm_num)
  have e1' : |roundF (1 / 1000000) - 1 / 1000000| ≤ 2 ^ (-73 : Int) := by simpa using e1
  generalize roundF (1 / 1000000) = m at *
  have hm : |(u : Rat) * m - u / 1000000| ≤ 2 ^ (-53 : Int) := by
    have : (u : Rat) * m - u / 1000000 = u * (m - 1 / 1000000) := by ring
    rw [this, abs_mul, abs_of_nonneg hu0']
    calc (u : Rat) * |m - 1 / 1000000| ≤ 2 ^ (20 : Int) * 2 ^ (-73 : Int) := by
          apply mul_le_mul (by norm_num; linarith) e1' (abs_nonneg _) (by norm_num)
      _ = 2 ^ (-53 : Int) := by rw [← zpow_add₀ (by norm_num)]; norm_num
  have hsmall : (2 : Rat) ^ (-53 : Int) ≤ 1 / 1000000000 := by norm_num
  have e2 := roundF_error ((u : Rat) * m) 0 (by
    rw [abs_le] at hm
    rw [abs_lt]
    norm_num at hm ⊢
    constructor <;> linarith) (by norm_num)
  have e2' : |fmul (u : Rat) m - u * m| ≤ 2 ^ (-54 : Int) := by unfold fmul; simpa using e2
  have h54 : (2 : Rat) ^ (-54 : Int) = 2 ^ (-53 : Int) / 2 := by norm_num
  have h52 : (2 : Rat) ^ (-52 : Int) = 2 ^ (-53 : Int) * 2 := by norm_num
  have hf : |fmul (u : Rat) m - u / 1000000| ≤ 2 ^ (-52 : Int) := by
    have : fmul (u : Rat) m - u / 1000000 = (fmul (u : Rat) m - u * m) + (u * m - u / 1000000) := by ring
    rw [this]
    refine (abs_add_le _ _).trans ((add_le_add e2' hm).trans ?_)
    norm_num
  generalize fmul (u : Rat) m = f at *
  have hdq : (d : Rat) = S * 1000000 + u := by exact_mod_cast hdiv
  have h52' : (2 : Rat) ^ (-52 : Int) ≤ 1 / 1000000000 := by norm_num
  have hbig : |(S : Rat) + f| < 2 ^ b := by
    have h2 : |(d : Rat)| / 1000000 + 1 ≤ 2 ^ b := by
      rw [div_add_one (by norm_num), div_le_iff₀ (by norm_num)]; linarith
    have h3 : |(d : Rat) / 1000000| + 1 ≤ 2 ^ b := by rwa [abs_div, abs_of_pos (show (0 : Rat) < 1000000 by norm_num)]
    have h4 : (S : Rat) + f = d / 1000000 + (f - u / 1000000) := by rw [hdq]; ring
    rw [h4]
    calc _ ≤ |(d : Rat) / 1000000| + |f - u / 1000000| := abs_add_le _ _
      _ < 2 ^ b := by linarith
  have e3 := roundF_error ((S : Rat) + f) b hbig (by omega)
  unfold fadd
  have : (d : Rat) / 1000000 = S + u / 1000000 := by rw [hdq]; ring
  rw [this]
  rw [abs_le] at *
  constructor <;> linarith

/-- Within 2³³ seconds of 1970 the timestamp is read as the microsecond it was made from. -/
theorem timedelta_asPOSIX {x : Time} (h : |x.sinceEpoch| ≤ 1000000 * (2 ^ 33 - 1)) :
    timedeltaSeconds (.float (asPOSIX x)) = x.sinceEpoch := by
  have e := asPOSIX_error (x := x) 33 (by norm_num) (by
    have : ((|x.sinceEpoch| : Int) : Rat) ≤ 1000000 * (2 ^ 33 - 1) := by exact_mod_cast h
    push_cast at this
    norm_num at this ⊢
    linarith)
  apply timedelta_near
  norm_num at e
  rw [abs_le] at e
  rw [abs_lt]
  constructor <;> linarith

/-- Everywhere, it is read within sixteen microseconds. -/
theorem timedelta_asPOSIX_near {x : Time} (hx : x.t.Valid) :
    |timedeltaSeconds (.float (asPOSIX x)) - x.sinceEpoch| ≤ 16 := by
  have hs := start_representable hx
  have hbound : |x.sinceEpoch| ≤ 1000000 * (2 ^ 38 - 1) := by
    unfold Time.sinceEpoch Representable maxUs at *
    rw [abs_le]
    unfold dayUs
    constructor <;> omega
  have e := asPOSIX_error (x := x) 38 (by norm_num) (by
    have : ((|x.sinceEpoch| : Int) : Rat) ≤ 1000000 * (2 ^ 38 - 1) := by exact_mod_cast hbound
    push_cast at this
    norm_num at this ⊢
    linarith)
  generalize asPOSIX x = q at *
  have ht := trunc_near q
  have hb : |(q - trunc q) * 1000000| < 2 ^ (20 : Int) := by
    rw [abs_lt] at ht ⊢; norm_num; constructor <;> linarith
  have e2 := roundF_error ((q - trunc q) * 1000000) 20 hb (by norm_num)
  have e3 := rhe_near (fmul (q - trunc q) 1000000)
  unfold timedeltaSeconds
  simp only
  unfold fmul at *
  norm_num at e e2
  rw [abs_le] at e e2 e3
  have : |((trunc q * 1000000 + rhe (roundF ((q - trunc q) * 1000000)) - x.sinceEpoch : Int) : Rat)| < 17 := by
    push_cast
    rw [abs_lt]
    constructor <;> linarith
  have h17 : |trunc q * 1000000 + rhe (roundF ((q - trunc q) * 1000000)) - x.sinceEpoch| < 17 := by exact_mod_cast this
  omega

/-- **C18, partial.**  Within 2³³ seconds of 1970 (from 1697 to 2242) the round trip is exact. -/
theorem posix_roundtrip_partial {x : Time} (hx : x.t.Valid)
    (h : |x.sinceEpoch| ≤ 1000000 * (2 ^ 33 - 1)) :
    ∃ y, fromPOSIX (.float (asPOSIX x)) = .ok y ∧ y.t = x.t ∧ eq y (some x) = true ∧ y.res = 0 := by
  have hn := timedelta_asPOSIX h
  have hs := start_representable hx
  obtain ⟨y, h1, h2, h3, h4⟩ := (fromPOSIX_spec (.float (asPOSIX x))).1 (by
    rw [hn]; unfold Time.sinceEpoch; convert hs using 1; omega)
  rw [hn] at h3
  have hyx : y.t = x.t := DT.toUs_inj h2 hx (by unfold Time.sinceEpoch Time.start at h3; omega)
  refine ⟨y, h1, hyx, ?_, h4⟩
  unfold eq
  simp only [beq_iff_eq]
  rw [hyx]
  exact (dtCmp_zero hx hx).2 rfl

example : (⟨⟨2000, 1, 2, 3, 4, 5, 678901⟩, 1⟩ : Time).t.Valid ∧
    |(⟨⟨2000, 1, 2, 3, 4, 5, 678901⟩, 1⟩ : Time).sinceEpoch| ≤ 1000000 * (2 ^ 33 - 1) := by decide

/-- …and everywhere the round trip is off by at most sixteen microseconds, if it does not leave the year 9999. -/
theorem posix_roundtrip_near {x y : Time} (hx : x.t.Valid) (h : fromPOSIX (.float (asPOSIX x)) = .ok y) :
    |y.start - x.start| ≤ 16 := by
  by_cases hr : Representable (719162 * dayUs + timedeltaSeconds (.float (asPOSIX x)))
  · obtain ⟨y', h1, -, h3, -⟩ := (fromPOSIX_spec (.float (asPOSIX x))).1 hr
    rw [h] at h1; cases h1
    have hd : y.start - x.start = timedeltaSeconds (.float (asPOSIX x)) - x.sinceEpoch := by
      unfold Time.sinceEpoch at *; omega
    rw [hd]
    exact timedelta_asPOSIX_near hx
  · rw [(fromPOSIX_spec (.float (asPOSIX x))).2 hr] at h; cases h

/-- **C18**, second half: whole seconds go through unchanged, in all of the years 1 to 9999. -/
theorem posix_seconds {n : Int} (h : Representable (719162 * dayUs + n * 1000000)) :
    ∃ y, fromPOSIX (.int n) = .ok y ∧ y.t.Valid ∧ asPOSIX y = n ∧ y.res = 0 := by
  obtain ⟨y, h1, h2, h3, h4⟩ := (fromPOSIX_spec (.int n)).1 h
  refine ⟨y, h1, h2, ?_, h4⟩
  have hd : y.t.toUs - epoch.toUs = n * 1000000 := by rw [epoch_toUs]; exact h3
  unfold asPOSIX timedeltaToSeconds
  rw [hd]
  have e1 : n * 1000000 / dayUs * 86400 + n * 1000000 % dayUs / 1000000 = n := by unfold dayUs; omega
  have e2 : n * 1000000 % 1000000 = 0 := by omega
  rw [e1, e2]
  have e3 : fmul ((0 : Int) : Rat) (roundF (1 / 1000000)) = 0 := by unfold fmul roundF; simp
  rw [e3]
  unfold fadd
  rw [add_zero]
  apply roundF_int
  unfold Representable maxUs dayUs at h
  rw [abs_lt]
  constructor <;> omega

example : Representable (719162 * dayUs + -62135596800 * 1000000) ∧ Representable (719162 * dayUs + 253402300799 * 1000000) := by
  decide

/-- Beyond 2³⁷ seconds (the year 6325) the last microsecond of a second is rounded to the next second. -/
theorem asPOSIX_round_up {x : Time} {S : Int} (hS : x.sinceEpoch = S * 1000000 + 999999) (h1 : 2 ^ 37 ≤ S)
    (h2 : S < 2 ^ 38 - 1) : asPOSIX x = S + 1 := by
  have hd : x.t.toUs - epoch.toUs = S * 1000000 + 999999 := by rw [epoch_toUs, ← hS]; rfl
  unfold asPOSIX timedeltaToSeconds
  rw [hd]
  have e1 : (S * 1000000 + 999999) / dayUs * 86400 + (S * 1000000 + 999999) % dayUs / 1000000 = S := by
    unfold dayUs; omega
  have e2 : (((S * 1000000 + 999999) % 1000000 : Int) : Rat) = 999999 := by
    have : ((S * 1000000 + 999999) % 1000000 : Int) = 999999 := by omega
    rw [this]; norm_num
  rw [e1, e2]
  have h1' : (2 ^ 37 : Rat) ≤ S := by exact_mod_cast h1
  have h2' : (S : Rat) ≤ 2 ^ 38 - 2 := by
    have : S ≤ 2 ^ 38 - 2 := by omega
    exact_mod_cast this
  have e3 := roundF_error (1 / 1000000) (-19) (by rw [abs_of_pos (by norm_num)]; norm_num) (by norm_num)
  norm_num at e3
  generalize roundF (1 / 1000000) = m at e3 ⊢
  have e4 : |999999 * m - 999999 / 1000000| ≤ 1 / 1000000000 := by
    rw [abs_le] at *; constructor <;> linarith
  have e5 := roundF_error (999999 * m) 0 (by
    rw [abs_le] at e4
    rw [abs_lt]
    norm_num
    constructor <;> linarith) (by norm_num)
  norm_num at e5
  unfold fadd
  have e6 : |fmul 999999 m - 999999 / 1000000| ≤ 2 / 1000000000 := by
    unfold fmul
    rw [abs_le] at *
    constructor <;> linarith
  generalize fmul 999999 m = f at *
  rw [abs_le] at e6
  have hpos : |(S : Rat) + f| = S + f := abs_of_pos (by linarith)
  have e7 := roundF_eq ((S : Rat) + f) ((S + 1) * 32768) (-15)
    (by rw [hpos]; norm_num at h1' ⊢; linarith) (by rw [hpos]; norm_num at h2' ⊢; linarith) (by norm_num)
    (by push_cast; rw [abs_lt]; norm_num; constructor <;> linarith)
  rw [e7]
  push_cast
  norm_num
  ring

/-- C18 as stated is false: the last representable instant comes back as the year 10000, an `OverflowError`. -/
theorem posix_roundtrip_fails : ∃ x : Time, x.t.Valid ∧ x.res = 1 ∧
    fromPOSIX (.float (asPOSIX x)) = .error .overflowError := by
  refine ⟨⟨⟨9999, 12, 31, 23, 59, 59, 999999⟩, 1⟩, by decide, rfl, ?_⟩
  have hp : asPOSIX ⟨⟨9999, 12, 31, 23, 59, 59, 999999⟩, 1⟩ = 253402300800 := by
    rw [asPOSIX_round_up (S := 253402300799) (by decide) (by norm_num) (by norm_num)]; norm_num
  have ht : timedeltaSeconds (.float (253402300800)) = 253402300800 * 1000000 :=
    timedelta_near _ _ (by norm_num)
  apply (fromPOSIX_spec _).2
  rw [hp, ht]
  decide

/-- The bound of `posix_roundtrip_partial` cannot be raised: one microsecond after 2³³ seconds comes back as two. -/
theorem posix_roundtrip_fails_beyond : ∃ x y : Time, x.t.Valid ∧ x.res = 1 ∧ x.sinceEpoch = 1000000 * 2 ^ 33 + 1 ∧
    fromPOSIX (.float (asPOSIX x)) = .ok y ∧ y.sinceEpoch = 1000000 * 2 ^ 33 + 2 := by
  have hp : timedeltaSeconds (.float (asPOSIX ⟨⟨2242, 3, 16, 12, 56, 32, 1⟩, 1⟩)) = 1000000 * 2 ^ 33 + 2 := by decide +kernel
  obtain ⟨y, hy, _, hs, _⟩ := (fromPOSIX_spec (.float (asPOSIX ⟨⟨2242, 3, 16, 12, 56, 32, 1⟩, 1⟩))).1 (by rw [hp]; decide)
  exact ⟨⟨⟨2242, 3, 16, 12, 56, 32, 1⟩, 1⟩, y, by decide, rfl, by decide +kernel, hy, by rw [hs, hp]⟩

end Verif.Extime
