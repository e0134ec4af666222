import Verif.Py.Core
import Mathlib.Tactic.IntervalCases
/-!
# `datetime` (CPython): dates, ordinals, naive date-times, `timedelta`

The functions below mirror the pure-Python implementation of `datetime` in the standard library
(`_is_leap`, `_days_in_month`, `_ymd2ord`, `_ord2ymd`, `_isoweek1monday`, `datetime.__new__`,
`datetime.__add__`, `isocalendar`).  A `timedelta` is its number of microseconds.
-/
namespace Verif.Py

/-- `_is_leap(year)` -/
def isLeap (y : Nat) : Bool := y % 4 == 0 && (y % 100 != 0 || y % 400 == 0)

/-- `_DAYS_IN_MONTH`, with the leap day -/
def monthLen (leap : Bool) : Nat → Nat
  | 1 => 31
  | 2 => if leap then 29 else 28
  | 3 => 31
  | 4 => 30
  | 5 => 31
  | 6 => 30
  | 7 => 31
  | 8 => 31
  | 9 => 30
  | 10 => 31
  | 11 => 30
  | 12 => 31
  | _ => 0

/-- `_days_in_month(year, month)` -/
def daysInMonth (y m : Nat) : Nat := monthLen (isLeap y) m

/-- `_DAYS_BEFORE_MONTH` -/
def beforeMonth0 : Nat → Nat
  | 1 => 0
  | 2 => 31
  | 3 => 59
  | 4 => 90
  | 5 => 120
  | 6 => 151
  | 7 => 181
  | 8 => 212
  | 9 => 243
  | 10 => 273
  | 11 => 304
  | 12 => 334
  | _ => 0

/-- `_days_before_month(year, month)` -/
def beforeMonth (leap : Bool) (m : Nat) : Nat := beforeMonth0 m + if m > 2 && leap then 1 else 0

/-- `_days_before_year(year)` -/
def beforeYear (y : Nat) : Nat := (y - 1) * 365 + (y - 1) / 4 - (y - 1) / 100 + (y - 1) / 400

/-- `_ymd2ord(year, month, day)`: 1 January of year 1 is day 1. -/
def ymd2ord (y m d : Nat) : Nat := beforeYear y + beforeMonth (isLeap y) m + d

/-- The end of `_ord2ymd`: month and day from the 0-based day of the year. -/
def monthOfDay (leap : Bool) (n : Nat) : Nat × Nat :=
  let month := (n + 50) / 32
  let preceding := beforeMonth leap month
  if preceding > n then
    let month := month - 1
    (month, n - (preceding - monthLen leap month) + 1)
  else (month, n - preceding + 1)

/-- `_ord2ymd(n)` -/
def ord2ymd (n : Nat) : Nat × Nat × Nat :=
  let n := n - 1
  let n400 := n / 146097
  let n := n % 146097
  let n100 := n / 36524
  let n := n % 36524
  let n4 := n / 1461
  let n := n % 1461
  let n1 := n / 365
  let n := n % 365
  let year := n400 * 400 + 1 + n100 * 100 + n4 * 4 + n1
  if n1 = 4 ∨ n100 = 4 then (year - 1, 12, 31)
  else
    let p := monthOfDay (n1 == 3 && (n4 != 24 || n100 == 3)) n
    (year, p.1, p.2)

/-- The date exists (in any year from 1). -/
def DateOK (y m d : Nat) : Prop := 1 ≤ y ∧ 1 ≤ m ∧ m ≤ 12 ∧ 1 ≤ d ∧ d ≤ daysInMonth y m

instance (y m d : Nat) : Decidable (DateOK y m d) := by unfold DateOK; infer_instance

/-! ## The two directions are inverse -/

theorem beforeYear_succ (y : Nat) (h : 1 ≤ y) :
    beforeYear (y + 1) = beforeYear y + 365 + if isLeap y then 1 else 0 := by
  unfold beforeYear isLeap
  obtain ⟨k, rfl⟩ : ∃ k, y = k + 1 := ⟨y - 1, by omega⟩
  simp only [Nat.add_sub_cancel]
  by_cases h4 : (k + 1) % 4 = 0 <;> by_cases h100 : (k + 1) % 100 = 0 <;> by_cases h400 : (k + 1) % 400 = 0 <;>
    simp [h4, h100, h400] <;> omega

theorem beforeMonth_len : ∀ (leap : Bool) (m : Nat), 1 ≤ m → m < 12 →
    beforeMonth leap (m + 1) = beforeMonth leap m + monthLen leap m := by
  intro leap m h1 h2
  interval_cases m <;> cases leap <;> rfl

theorem yearLen_eq (leap : Bool) : beforeMonth leap 12 + monthLen leap 12 = 365 + if leap then 1 else 0 := by
  cases leap <;> rfl

theorem beforeMonth_mono (leap : Bool) (m m' : Nat) (h1 : 1 ≤ m) (h2 : m < m') (h3 : m' ≤ 12) :
    beforeMonth leap m + monthLen leap m ≤ beforeMonth leap m' := by
  induction m' with
  | zero => omega
  | succ k ih =>
    by_cases hk : m = k
    · subst hk; rw [beforeMonth_len leap m h1 (by omega)]
    · have := ih (by omega) (by omega)
      rw [beforeMonth_len leap k (by omega) (by omega)]; omega

theorem dayOfYear_le (leap : Bool) (m d : Nat) (h1 : 1 ≤ m) (h2 : m ≤ 12) (h3 : d ≤ monthLen leap m) :
    beforeMonth leap m + d ≤ 365 + if leap then 1 else 0 := by
  rw [← yearLen_eq]
  by_cases hm : m = 12
  · subst hm; omega
  · have := beforeMonth_mono leap m 12 h1 (by omega) (by omega); omega

theorem monthOfDay_spec : ∀ (leap : Bool) (n : Nat), n < 366 → (leap = false → n < 365) →
    1 ≤ (monthOfDay leap n).1 ∧ (monthOfDay leap n).1 ≤ 12 ∧ 1 ≤ (monthOfDay leap n).2 ∧
    (monthOfDay leap n).2 ≤ monthLen leap (monthOfDay leap n).1 ∧
    beforeMonth leap (monthOfDay leap n).1 + (monthOfDay leap n).2 = n + 1 := by
  have key : ∀ leap : Bool, ∀ n : Fin 366, (leap = false → n.val < 365) →
      1 ≤ (monthOfDay leap n).1 ∧ (monthOfDay leap n).1 ≤ 12 ∧ 1 ≤ (monthOfDay leap n).2 ∧
      (monthOfDay leap n).2 ≤ monthLen leap (monthOfDay leap n).1 ∧
      beforeMonth leap (monthOfDay leap n).1 + (monthOfDay leap n).2 = n.val + 1 := by
    set_option maxRecDepth 4000 in decide
  intro leap n h1 h2
  exact key leap ⟨n, h1⟩ h2

theorem ord2ymd_spec (n : Nat) (h : 1 ≤ n) : DateOK (ord2ymd n).1 (ord2ymd n).2.1 (ord2ymd n).2.2 ∧
    ymd2ord (ord2ymd n).1 (ord2ymd n).2.1 (ord2ymd n).2.2 = n := by
  obtain ⟨k, rfl⟩ : ∃ k, n = k + 1 := ⟨n - 1, by omega⟩
  unfold ord2ymd
  simp only [Nat.add_sub_cancel]
  generalize ha : k / 146097 = a
  generalize hr1 : k % 146097 = r1
  have e1 : k = 146097 * a + r1 := by omega
  have b1 : r1 < 146097 := by omega
  clear ha hr1
  generalize hb : r1 / 36524 = b
  generalize hr2 : r1 % 36524 = r2
  have e2 : r1 = 36524 * b + r2 := by omega
  have b2 : r2 < 36524 := by omega
  have bb : b ≤ 4 := by omega
  clear hb hr2
  generalize hc : r2 / 1461 = c
  generalize hr3 : r2 % 1461 = r3
  have e3 : r2 = 1461 * c + r3 := by omega
  have b3 : r3 < 1461 := by omega
  have bc : c ≤ 24 := by omega
  clear hc hr3
  generalize he : r3 / 365 = e
  generalize hr4 : r3 % 365 = r4
  have e4 : r3 = 365 * e + r4 := by omega
  have b4 : r4 < 365 := by omega
  have be : e ≤ 4 := by omega
  clear he hr4
  by_cases hx : e = 4 ∨ b = 4
  · rw [if_pos hx]
    -- the last day of a leap year that closes a cycle
    simp only
    have hy : ∃ y, a * 400 + 1 + b * 100 + c * 4 + e = y + 1 ∧ 1 ≤ y ∧ isLeap y = true ∧
        beforeYear y + 366 = k + 1 := by
      rcases hx with rfl | rfl
      · refine ⟨a * 400 + b * 100 + c * 4 + 4, by omega, by omega, ?_, ?_⟩
        · unfold isLeap
          have h4 : (a * 400 + b * 100 + c * 4 + 4) % 4 = 0 := by omega
          by_cases h100 : (a * 400 + b * 100 + c * 4 + 4) % 100 = 0
          · have : (a * 400 + b * 100 + c * 4 + 4) % 400 = 0 := by omega
            simp [h4, this]
          · simp [h4, h100]
        · unfold beforeYear
          have h0 : a * 400 + b * 100 + c * 4 + 4 - 1 = 400 * a + 100 * b + 4 * c + 3 := by omega
          have hb3 : b ≤ 3 := by omega
          have d4 : (400 * a + 100 * b + 4 * c + 3) / 4 = 100 * a + 25 * b + c := by omega
          have d100 : (400 * a + 100 * b + 4 * c + 3) / 100 = 4 * a + b := by omega
          have d400 : (400 * a + 100 * b + 4 * c + 3) / 400 = a := by omega
          rw [h0, d4, d100, d400]
          omega
      · have : c = 0 ∧ e = 0 ∧ r4 = 0 := by omega
        obtain ⟨rfl, rfl, rfl⟩ := this
        refine ⟨a * 400 + 400, by omega, by omega, ?_, ?_⟩
        · unfold isLeap
          have h4 : (a * 400 + 400) % 4 = 0 := by omega
          have : (a * 400 + 400) % 400 = 0 := by omega
          simp [h4, this]
        · unfold beforeYear
          have h0 : a * 400 + 400 - 1 = 400 * a + 399 := by omega
          rw [h0]
          omega
    obtain ⟨y, h1, h2, h3, h4⟩ := hy
    rw [h1, Nat.add_sub_cancel]
    refine ⟨⟨h2, by omega, by omega, by omega, ?_⟩, ?_⟩
    · unfold daysInMonth; rw [h3]; decide
    · unfold ymd2ord; rw [h3]
      have : beforeMonth true 12 = 335 := rfl
      omega
  · rw [if_neg hx]
    push Not at hx
    obtain ⟨he4, hb4⟩ := hx
    simp only
    have hleap : (e == 3 && (c != 24 || b == 3)) = isLeap (a * 400 + 1 + b * 100 + c * 4 + e) := by
      unfold isLeap
      rw [Bool.eq_iff_iff]
      simp only [Bool.and_eq_true, Bool.or_eq_true, beq_iff_eq, bne_iff_ne, ne_eq]
      constructor
      · rintro ⟨rfl, h⟩
        refine ⟨by omega, ?_⟩
        rcases h with h | rfl <;> omega
      · rintro ⟨h1, h2⟩
        refine ⟨by omega, ?_⟩
        omega
    rw [hleap]
    generalize hy : a * 400 + 1 + b * 100 + c * 4 + e = y
    have hby : beforeYear y + r4 = k := by
      unfold beforeYear
      have : y - 1 = 400 * a + 100 * b + 4 * c + e := by omega
      have d4 : (400 * a + 100 * b + 4 * c + e) / 4 = 100 * a + 25 * b + c := by omega
      have d100 : (400 * a + 100 * b + 4 * c + e) / 100 = 4 * a + b := by omega
      have d400 : (400 * a + 100 * b + 4 * c + e) / 400 = a := by omega
      rw [this, d4, d100, d400]
      omega
    have hm := monthOfDay_spec (isLeap y) r4 (by omega) (by omega)
    obtain ⟨m1, m2, m3, m4, m5⟩ := hm
    refine ⟨⟨by omega, m1, m2, m3, m4⟩, ?_⟩
    unfold ymd2ord
    omega

theorem beforeYear_mono (y y' : Nat) (h1 : 1 ≤ y) (h2 : y < y') :
    beforeYear y + 365 + (if isLeap y then 1 else 0) ≤ beforeYear y' := by
  induction y' with
  | zero => omega
  | succ k ih =>
    by_cases hk : y = k
    · subst hk; rw [beforeYear_succ y h1]
    · have := ih (by omega)
      rw [beforeYear_succ k (by omega)]; omega

/-- The ordinal determines the date. -/
theorem ymd2ord_inj {y m d y' m' d' : Nat} (h : DateOK y m d) (h' : DateOK y' m' d')
    (he : ymd2ord y m d = ymd2ord y' m' d') : y = y' ∧ m = m' ∧ d = d' := by
  obtain ⟨a1, a2, a3, a4, a5⟩ := h
  obtain ⟨b1, b2, b3, b4, b5⟩ := h'
  unfold daysInMonth at a5 b5
  unfold ymd2ord at he
  have ha := dayOfYear_le (isLeap y) m d a2 a3 a5
  have hb := dayOfYear_le (isLeap y') m' d' b2 b3 b5
  have hy : y = y' := by
    rcases Nat.lt_trichotomy y y' with hlt | heq | hlt
    · have := beforeYear_mono y y' a1 hlt; omega
    · exact heq
    · have := beforeYear_mono y' y b1 hlt; omega
  subst hy
  have hm : m = m' := by
    rcases Nat.lt_trichotomy m m' with hlt | heq | hlt
    · have := beforeMonth_mono (isLeap y) m m' a2 hlt b3; omega
    · exact heq
    · have := beforeMonth_mono (isLeap y) m' m b2 hlt a3; omega
  subst hm
  exact ⟨rfl, rfl, by omega⟩

theorem ymd2ord_pos {y m d : Nat} (h : DateOK y m d) : 1 ≤ ymd2ord y m d := by
  have := h.2.2.2.1
  unfold ymd2ord; omega

theorem ord2ymd_ymd2ord {y m d : Nat} (h : DateOK y m d) : ord2ymd (ymd2ord y m d) = (y, m, d) := by
  have hs := ord2ymd_spec (ymd2ord y m d) (ymd2ord_pos h)
  obtain ⟨h1, h2, h3⟩ := ymd2ord_inj hs.1 h hs.2
  exact Prod.ext h1 (Prod.ext h2 h3)

/-! ## Naive date-times -/

/-- A `datetime` without `tzinfo`. -/
structure DT where
  year : Nat
  month : Nat
  day : Nat
  hour : Nat
  minute : Nat
  second : Nat
  us : Nat
  deriving DecidableEq, Repr

/-- What the constructor accepts. -/
def DT.Valid (t : DT) : Prop :=
  DateOK t.year t.month t.day ∧ t.year ≤ 9999 ∧ t.hour < 24 ∧ t.minute < 60 ∧ t.second < 60 ∧ t.us < 1000000

instance (t : DT) : Decidable t.Valid := by unfold DT.Valid; infer_instance

/-- `datetime(year, month, day, hour, minute, second, microsecond)` -/
def DT.mk? (y m d h mi s us : Int) : Except PyErr DT :=
  if 0 ≤ y ∧ 0 ≤ m ∧ 0 ≤ d ∧ 0 ≤ h ∧ 0 ≤ mi ∧ 0 ≤ s ∧ 0 ≤ us ∧
      DT.Valid ⟨y.toNat, m.toNat, d.toNat, h.toNat, mi.toNat, s.toNat, us.toNat⟩ then
    .ok ⟨y.toNat, m.toNat, d.toNat, h.toNat, mi.toNat, s.toNat, us.toNat⟩
  else .error .valueError

/-- `toordinal()` -/
def DT.ord (t : DT) : Nat := ymd2ord t.year t.month t.day

/-- `weekday()`: Monday is 0. -/
def DT.weekday (t : DT) : Nat := (t.ord + 6) % 7

/-- Microseconds in a day. -/
def dayUs : Int := 86400000000

/-- Microseconds since midnight of 1 January of year 1. -/
def DT.toUs (t : DT) : Int :=
  (t.ord - 1 : Int) * 86400000000 + ((t.hour * 3600 + t.minute * 60 + t.second : Nat) : Int) * 1000000 + t.us

/-- One more than the largest `toUs` of a `datetime`. -/
def maxUs : Int := 3652059 * 86400000000

/-- `datetime.fromordinal` plus a time of day. -/
def DT.ofUs (n : Int) : DT :=
  let k := n.toNat
  let p := ord2ymd (k / 86400000000 + 1)
  ⟨p.1, p.2.1, p.2.2, k / 3600000000 % 24, k / 60000000 % 60, k / 1000000 % 60, k % 1000000⟩

/-- `datetime + timedelta` -/
def DT.add (t : DT) (d : Int) : Except PyErr DT :=
  if 0 ≤ t.toUs + d ∧ t.toUs + d < maxUs then .ok (DT.ofUs (t.toUs + d)) else .error .overflowError

theorem DT.toUs_range {t : DT} (h : t.Valid) : 0 ≤ t.toUs ∧ t.toUs < maxUs := by
  obtain ⟨h1, h2, h3, h4, h5, h6⟩ := h
  have hp : 1 ≤ t.ord := ymd2ord_pos h1
  have hm : t.ord ≤ 3652059 := by
    obtain ⟨a1, a2, a3, a4, a5⟩ := h1
    have ha := dayOfYear_le (isLeap t.year) t.month t.day a2 a3 a5
    have hb : beforeYear t.year + 365 + (if isLeap t.year then 1 else 0) ≤ beforeYear 10000 :=
      beforeYear_mono _ _ a1 (by omega)
    have : beforeYear 10000 = 3652059 := by decide
    unfold DT.ord ymd2ord
    omega
  unfold DT.toUs maxUs
  omega

theorem DT.ofUs_valid {n : Int} (h0 : 0 ≤ n) (h1 : n < maxUs) : (DT.ofUs n).Valid := by
  unfold DT.ofUs
  have hs := ord2ymd_spec (n.toNat / 86400000000 + 1) (by omega)
  refine ⟨hs.1, ?_, by simp only; omega, by simp only; omega, by simp only; omega, by simp only; omega⟩
  simp only
  by_contra hc
  push Not at hc
  have hb := beforeYear_mono 9999 (ord2ymd (n.toNat / 86400000000 + 1)).1 (by omega) hc
  have h9 : beforeYear 9999 + 365 + (if isLeap 9999 then 1 else 0) = 3652059 := by decide
  have hd := hs.1.2.2.2.1
  have he := hs.2
  unfold ymd2ord at he
  unfold maxUs at h1
  omega

theorem DT.toUs_ofUs {n : Int} (h0 : 0 ≤ n) : (DT.ofUs n).toUs = n := by
  have hs := ord2ymd_spec (n.toNat / 86400000000 + 1) (by omega)
  have : (DT.ofUs n).ord = n.toNat / 86400000000 + 1 := hs.2
  unfold DT.toUs
  rw [this]
  simp only [DT.ofUs]
  omega

theorem DT.toUs_inj {t t' : DT} (h : t.Valid) (h' : t'.Valid) (he : t.toUs = t'.toUs) : t = t' := by
  obtain ⟨a1, a2, a3, a4, a5, a6⟩ := h
  obtain ⟨b1, b2, b3, b4, b5, b6⟩ := h'
  have hp := ymd2ord_pos a1
  have hp' := ymd2ord_pos b1
  unfold DT.toUs at he
  have ho : t.ord = t'.ord := by unfold DT.ord at he ⊢; omega
  obtain ⟨e1, e2, e3⟩ := ymd2ord_inj a1 b1 ho
  rw [ho] at he
  have e4 : t.hour = t'.hour := by omega
  have e5 : t.minute = t'.minute := by omega
  have e6 : t.second = t'.second := by omega
  have e7 : t.us = t'.us := by omega
  cases t; cases t'; simp_all

theorem DT.ofUs_toUs {t : DT} (h : t.Valid) : DT.ofUs t.toUs = t :=
  DT.toUs_inj (DT.ofUs_valid (DT.toUs_range h).1 (DT.toUs_range h).2) h (DT.toUs_ofUs (DT.toUs_range h).1)

theorem DT.mk?_ok {y m d h mi s us : Nat} : DT.mk? y m d h mi s us =
    if DT.Valid ⟨y, m, d, h, mi, s, us⟩ then .ok ⟨y, m, d, h, mi, s, us⟩ else .error .valueError := by
  unfold DT.mk?
  simp

theorem DT.mk?_valid {y m d h mi s us : Int} {t : DT} (he : DT.mk? y m d h mi s us = .ok t) :
    t.Valid ∧ (t.year : Int) = y ∧ (t.month : Int) = m ∧ (t.day : Int) = d ∧ (t.hour : Int) = h ∧
      (t.minute : Int) = mi ∧ (t.second : Int) = s ∧ (t.us : Int) = us := by
  unfold DT.mk? at he
  split at he
  · rename_i hv
    cases he
    refine ⟨hv.2.2.2.2.2.2.2, ?_⟩
    simp only
    omega
  · cases he

theorem DT.mk?_err {y m d h mi s us : Int} {e : PyErr} (he : DT.mk? y m d h mi s us = .error e) : e = .valueError := by
  unfold DT.mk? at he
  split at he
  · cases he
  · cases he; rfl

theorem DT.add_ok {t t' : DT} {d : Int} (h : t.add d = .ok t') : t'.Valid ∧ t'.toUs = t.toUs + d := by
  unfold DT.add at h
  split at h
  · rename_i hr
    cases h
    exact ⟨DT.ofUs_valid hr.1 hr.2, DT.toUs_ofUs hr.1⟩
  · cases h

theorem DT.add_iff {t t' : DT} {d : Int} (h' : t'.Valid) : t.add d = .ok t' ↔ t'.toUs = t.toUs + d := by
  constructor
  · intro h; exact (DT.add_ok h).2
  · intro h
    have hr := DT.toUs_range h'
    unfold DT.add
    rw [if_pos (by omega), ← h, DT.ofUs_toUs h']

theorem DT.add_err {t : DT} {d : Int} {e : PyErr} (h : t.add d = .error e) :
    e = .overflowError ∧ ¬ (0 ≤ t.toUs + d ∧ t.toUs + d < maxUs) := by
  unfold DT.add at h
  split at h
  · cases h
  · rename_i hr; cases h; exact ⟨rfl, hr⟩

theorem DT.add_total (t : DT) (d : Int) : (∃ t', t.add d = .ok t') ↔ (0 ≤ t.toUs + d ∧ t.toUs + d < maxUs) := by
  unfold DT.add
  constructor
  · rintro ⟨t', h⟩
    split at h
    · assumption
    · cases h
  · intro h; rw [if_pos h]; exact ⟨_, rfl⟩

/-! ## ISO weeks -/

/-- `_isoweek1monday(year)` -/
def isoWeek1Monday (y : Nat) : Int :=
  let firstday : Int := ymd2ord y 1 1
  let firstweekday := (firstday + 6) % 7
  let week1monday := firstday - firstweekday
  if firstweekday > 3 then week1monday + 7 else week1monday

/-- `isocalendar()` -/
def DT.isocalendar (t : DT) : Nat × Nat × Nat :=
  let today : Int := t.ord
  let w1 := isoWeek1Monday t.year
  let week := (today - w1) / 7
  let day := (today - w1) % 7
  if week < 0 then
    let w1 := isoWeek1Monday (t.year - 1)
    (t.year - 1, ((today - w1) / 7).toNat + 1, ((today - w1) % 7).toNat + 1)
  else if week ≥ 52 ∧ today ≥ isoWeek1Monday (t.year + 1) then (t.year + 1, 1, day.toNat + 1)
  else (t.year, week.toNat + 1, day.toNat + 1)

end Verif.Py
