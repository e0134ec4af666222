import Verif.Py.Calendar
/-!
# The calendar of the model is the proleptic Gregorian calendar

The properties of `Time` are stated with day numbers and microseconds since 1 January of year 1.  Here those
numbers are tied to the calendar rules alone: day 1 is 1 January of year 1, and each further day is the calendar's
next day.
-/
namespace Verif.Extime
open Verif.Py

/-- Thirty days hath September… -/
def lengthOfMonth (y m : Nat) : Nat :=
  if m = 2 then if 4 ∣ y ∧ (¬ 100 ∣ y ∨ 400 ∣ y) then 29 else 28
  else if m = 4 ∨ m = 6 ∨ m = 9 ∨ m = 11 then 30 else 31

/-- The day after a day. -/
def dayAfter : Nat × Nat × Nat → Nat × Nat × Nat
  | (y, m, d) => if d < lengthOfMonth y m then (y, m, d + 1) else if m < 12 then (y, m + 1, 1) else (y + 1, 1, 1)

/-- The `n`-th day after 1 January of year 1. -/
def dayNo : Nat → Nat × Nat × Nat
  | 0 => (1, 1, 1)
  | n + 1 => dayAfter (dayNo n)

theorem isLeap_iff (y : Nat) : isLeap y = true ↔ 4 ∣ y ∧ (¬ 100 ∣ y ∨ 400 ∣ y) := by
  unfold isLeap
  simp only [Bool.and_eq_true, Bool.or_eq_true, beq_iff_eq, bne_iff_ne, Nat.dvd_iff_mod_eq_zero, ne_eq]

theorem daysInMonth_eq (y m : Nat) (h1 : 1 ≤ m) (h2 : m ≤ 12) : daysInMonth y m = lengthOfMonth y m := by
  unfold daysInMonth lengthOfMonth
  have hl := isLeap_iff y
  cases hb : isLeap y
  · rw [hb] at hl
    have hn : ¬ (4 ∣ y ∧ (¬ 100 ∣ y ∨ 400 ∣ y)) := by simpa using hl
    simp only [hn, if_false]
    interval_cases m <;> decide
  · have hn := hl.1 hb
    simp only [hn, true_and]
    interval_cases m <;> simp [monthLen]

theorem ymd2ord_dayAfter {y m d : Nat} (h : DateOK y m d) :
    (DateOK (dayAfter (y, m, d)).1 (dayAfter (y, m, d)).2.1 (dayAfter (y, m, d)).2.2) ∧
    ymd2ord (dayAfter (y, m, d)).1 (dayAfter (y, m, d)).2.1 (dayAfter (y, m, d)).2.2 = ymd2ord y m d + 1 := by
  obtain ⟨h1, h2, h3, h4, h5⟩ := h
  have e := daysInMonth_eq y m h2 h3
  by_cases c : d < daysInMonth y m
  · have ea : dayAfter (y, m, d) = (y, m, d + 1) := by simp only [dayAfter]; rw [← e, if_pos c]
    rw [ea]
    refine ⟨⟨h1, h2, h3, by simp, c⟩, ?_⟩
    unfold ymd2ord; simp only; omega
  · have hd : d = daysInMonth y m := by omega
    by_cases c2 : m < 12
    · have ea : dayAfter (y, m, d) = (y, m + 1, 1) := by simp only [dayAfter]; rw [← e, if_neg c, if_pos c2]
      rw [ea]
      have hp : ∀ (leap : Bool) (k : Nat), 1 ≤ k → k ≤ 12 → 1 ≤ monthLen leap k := by
        intro leap k a b; cases leap <;> interval_cases k <;> decide
      refine ⟨⟨h1, by simp, by simp only; omega, by simp, hp _ _ (by simp) (by simp only; omega)⟩, ?_⟩
      unfold ymd2ord; simp only
      have := beforeMonth_len (isLeap y) m h2 c2
      unfold daysInMonth at hd
      omega
    · have ea : dayAfter (y, m, d) = (y + 1, 1, 1) := by simp only [dayAfter]; rw [← e, if_neg c, if_neg c2]
      rw [ea]
      have hm : m = 12 := by omega
      subst hm
      refine ⟨⟨by simp, by simp, by simp, by simp, ?_⟩, ?_⟩
      · simp only; unfold daysInMonth; cases isLeap (y + 1) <;> decide
      · unfold ymd2ord; simp only
        have := beforeYear_succ y h1
        have := yearLen_eq (isLeap y)
        have : beforeMonth (isLeap (y + 1)) 1 = 0 := by cases isLeap (y + 1) <;> decide
        unfold daysInMonth at hd
        omega

theorem dayNo_ok (n : Nat) : DateOK (dayNo n).1 (dayNo n).2.1 (dayNo n).2.2 ∧
    ymd2ord (dayNo n).1 (dayNo n).2.1 (dayNo n).2.2 = n + 1 := by
  induction n with
  | zero => exact ⟨by show DateOK 1 1 1; decide, rfl⟩
  | succ n ih =>
    have := ymd2ord_dayAfter ih.1
    exact ⟨this.1, this.2.trans (congrArg (· + 1) ih.2)⟩

/-- **The calendar.**  A date exists in the model exactly when some number of steps from 1 January of year 1 reaches
it, and its day number is that number of steps plus one. -/
theorem calendar (y m d : Nat) : (DateOK y m d ↔ ∃ n, dayNo n = (y, m, d)) ∧
    ∀ n, dayNo n = (y, m, d) → ymd2ord y m d = n + 1 := by
  refine ⟨⟨fun h => ?_, ?_⟩, ?_⟩
  · have hp := ymd2ord_pos h
    refine ⟨ymd2ord y m d - 1, ?_⟩
    have h2 := dayNo_ok (ymd2ord y m d - 1)
    have := ord2ymd_ymd2ord h2.1
    rw [h2.2, show ymd2ord y m d - 1 + 1 = ymd2ord y m d by omega, ord2ymd_ymd2ord h] at this
    exact this.symm
  · rintro ⟨n, hn⟩
    have := (dayNo_ok n).1
    rw [hn] at this; exact this
  · intro n hn
    have := (dayNo_ok n).2
    rw [hn] at this; exact this

example : DateOK 2004 2 29 := by decide
example : ¬ DateOK 1900 2 29 := by decide
example : dayNo 59 = (1, 3, 1) := by decide

/-- **Weekdays** come round: 1 January of year 1 was a Monday (0), and each day's weekday is the next one. -/
theorem weekday_step (n : Nat) (t : DT) (h : (t.year, t.month, t.day) = dayNo n) : t.weekday = n % 7 := by
  have := (dayNo_ok n).2
  rw [← h] at this
  unfold DT.weekday DT.ord
  simp only at this
  omega

end Verif.Extime
