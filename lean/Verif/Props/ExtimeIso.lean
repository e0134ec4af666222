import Verif.Lemmas.ExtimeIsoPrint
/-!
# C01–C08: ISO 8601

The vocabulary: `Iso` (`Lemmas/ExtimeIso`) is the grammar of the strings, `Iso.render` writes one down;
`Rest.Names`, `Rest.since`, `Zone.read`, `Rest.len` (`Lemmas/ExtimeIsoSem`) say what day, time of day, offset and period
a piece of the grammar stands for; `IsoDay` and `OrdinalDay` (`Lemmas/ExtimeIsoDate`) define week dates and ordinal
dates.  All theorems hold for whatever characters beyond ASCII count as digits (`D`).
-/
namespace Verif.Extime
open Verif.Py

section
variable (D : Digits)

/-! ## Printing, then parsing -/

/-- The period that is printed contains the local time. -/
theorem periodStart_contains (res : Int) {l : DT} (hl : l.Valid) (b : Bool) (z : Zone) :
    periodStart res l ≤ l.toUs ∧ l.toUs < periodStart res l + (restOf res l b z).len D l.year := by
  have hl' := hl
  obtain ⟨⟨a1, a2, a3, a4, a5⟩, a6, a7, a8, a9, a10⟩ := hl
  have htod : 0 ≤ l.toUs - ((l.ord : Int) - 1) * 86400000000 ∧
      l.toUs - ((l.ord : Int) - 1) * 86400000000 < 86400000000 := by
    unfold DT.toUs; push_cast; omega
  have hk := (frac_printed D a10).2.1
  unfold periodStart restOf
  simp only
  by_cases c1 : res ≤ 1
  · simp only [c1, if_true]
    by_cases h0 : l.us = 0
    · simp only [h0, if_true, Rest.len, Clock.unit]; omega
    · simp only [h0, if_false, Rest.len, Clock.unit, if_pos hk]
      have : (1 : Int) ≤ 10 ^ (6 - (rstrip0 (padZero 6 l.us)).length) := one_le_pow₀ (by norm_num)
      omega
  by_cases c2 : res ≤ 1000000
  · simp only [c1, c2, if_true, if_false, Rest.len, Clock.unit]; omega
  by_cases c3 : res ≤ 60000000
  · simp only [c1, c2, c3, if_true, if_false, Rest.len, Clock.unit]; omega
  by_cases c4 : res ≤ 3600000000
  · simp only [c1, c2, c3, c4, if_true, if_false, Rest.len, Clock.unit]; omega
  by_cases c5 : res ≤ dayUs
  · simp only [c1, c2, c3, c4, c5, if_true, if_false, Rest.len]; unfold dayUs; omega
  have e1 : DT.toUs ⟨l.year, l.month, 1, 0, 0, 0, 0⟩ = ((l.ord : Int) - l.day) * 86400000000 := by
    unfold DT.toUs DT.ord ymd2ord; push_cast; omega
  by_cases c6 : res ≤ 31 * dayUs
  · simp only [c1, c2, c3, c4, c5, c6, if_true, if_false, Rest.len, int_pad]
    rw [← daysInMonth_eq l.year l.month a2 a3, e1]
    unfold dayUs
    omega
  · simp only [c1, c2, c3, c4, c5, c6, if_false, Rest.len]
    have e2 : DT.toUs ⟨l.year, 1, 1, 0, 0, 0, 0⟩ = (beforeYear l.year : Int) * 86400000000 := by
      unfold DT.toUs DT.ord
      simp only
      rw [jan1]; push_cast; omega
    have e3 := year_step a1
    rw [jan1, jan1, beforeYear_succ l.year a1] at e3
    have e4 := dayOfYear_le (isLeap l.year) l.month l.day a2 a3 a5
    have e5 : l.ord = beforeYear l.year + (beforeMonth (isLeap l.year) l.month + l.day) := by
      unfold DT.ord ymd2ord; omega
    rw [e2]
    unfold dayUs
    generalize beforeMonth (isLeap l.year) l.month + l.day = k at *
    have : 1 ≤ k := by
      have := a4
      have h6 : l.ord = ymd2ord l.year l.month l.day := rfl
      unfold ymd2ord at h6
      omega
    have : (lengthOfYear l.year : Int) = 365 + (if isLeap l.year = true then (1 : Nat) else 0 : Nat) := by omega
    omega

/-- A string names one day. -/
theorem names_unique {y N N' : Nat} {r : Rest} (h : r.Names D y N) (h' : r.Names D y N') : N = N' := by
  have fd : ∀ fd : FullDate, fd.Names D y N → fd.Names D y N' → N = N' := by
    intro fd h h'
    cases fd with
    | ymd b m b' d => exact h.2.trans h'.2.symm
    | ywd b w b' d =>
      simp only [FullDate.Names, IsoDay] at h h'
      omega
    | yd b n =>
      simp only [FullDate.Names, OrdinalDay] at h h'
      omega
  cases r with
  | nothing => exact h.trans h'.symm
  | month b m => exact h.2.2.trans h'.2.2.symm
  | week b w =>
    simp only [Rest.Names, IsoDay] at h h'
    omega
  | day f => exact fd f h h'
  | time f c z => exact fd f h h'

/-- What `asISO8601TimeAndDate` prints for the local time `a.dt`, and what `fromISO8601TimeAndDate` makes of it. -/
theorem print_parse {x : Time} {b incl : Bool} {tz tzp : Option Tz} (hz : ∀ z, tz = some z → z.Good)
    (hp : incl = false → tzp = tz) (hr : x.res ≤ 366 * dayUs) {a : ADT}
    (ha : asDatetime x (if x.res < dayUs then tz else none) = .ok a) (hv : a.dt.Valid) :
    ∃ s, asIso x b tz incl = .ok s ∧ ∀ y, parseIso D s tzp = .ok y ↔
      (31 * dayUs < x.res → a.dt.year < 9999) ∧ y.t.Valid ∧
      y.start = periodStart x.res a.dt -
        (if x.res ≤ 3600000000 then (readBack incl tz).minutes * 60000000 else 0) ∧
      y.res = (restOf x.res a.dt b (zoneOf b tz incl)).len D a.dt.year := by
  have hprint := asIso_render D (b := b) (incl := incl) hz ha hv
  rw [if_pos hr] at hprint
  refine ⟨_, hprint, fun y => ?_⟩
  have hwf := restOf_wf D x.res hv b (zoneOf_wf D b hz incl)
  have hpi := parse_iff D _ hwf false tzp y
  rw [show endOf false = [] from rfl, List.append_nil] at hpi
  rw [hpi]
  have hyear : D.int (isoOf x.res a.dt b (zoneOf b tz incl)).year = a.dt.year := int_pad D 4 _
  rw [hyear]
  have hrest : (isoOf x.res a.dt b (zoneOf b tz incl)).rest = restOf x.res a.dt b (zoneOf b tz incl) := rfl
  rw [hrest]
  obtain ⟨m1, N, m2, m3, m4⟩ := restOf_means D x.res hv b (zoneOf b tz incl)
  have hread := zoneOf_read D b tz incl tzp hp
  have hgood : (readBack incl tz).Good := by
    cases tz with
    | none => unfold readBack; exact (by decide : (⟨0⟩ : Tz).Good)
    | some z =>
      have hz := hz z rfl
      unfold readBack
      simp only
      split
      · unfold Tz.Good at *; simp only; omega
      · exact hz
  have hzone : (restOf x.res a.dt b (zoneOf b tz incl)).zone D tzp =
      if x.res ≤ 3600000000 then some (readBack incl tz) else none := by
    unfold restOf
    simp only
    by_cases c1 : x.res ≤ 1
    · have : x.res ≤ 3600000000 := by omega
      simp only [c1, this, if_true, Rest.zone, hread]
    by_cases c2 : x.res ≤ 1000000
    · have : x.res ≤ 3600000000 := by omega
      simp only [c1, c2, this, if_true, if_false, Rest.zone, hread]
    by_cases c3 : x.res ≤ 60000000
    · have : x.res ≤ 3600000000 := by omega
      simp only [c1, c2, c3, this, if_true, if_false, Rest.zone, hread]
    by_cases c4 : x.res ≤ 3600000000
    · simp only [c1, c2, c3, c4, if_true, if_false, Rest.zone, hread]
    by_cases c5 : x.res ≤ dayUs
    · simp only [c1, c2, c3, c4, c5, if_true, if_false, Rest.zone]
    by_cases c6 : x.res ≤ 31 * dayUs
    · simp only [c1, c2, c3, c4, c5, c6, if_true, if_false, Rest.zone]
    · simp only [c1, c2, c3, c4, c5, c6, if_false, Rest.zone]
  have hmin : (restOf x.res a.dt b (zoneOf b tz incl)).minutes D tzp * 60000000 =
      if x.res ≤ 3600000000 then (readBack incl tz).minutes * 60000000 else 0 := by
    unfold Rest.minutes
    rw [hzone]
    split <;> simp_all
  have hnothing : restOf x.res a.dt b (zoneOf b tz incl) = .nothing ↔ 31 * dayUs < x.res := by
    unfold restOf dayUs
    simp only
    by_cases c1 : x.res ≤ 1
    · simp only [c1, if_true]; simp; omega
    by_cases c2 : x.res ≤ 1000000
    · simp only [c1, c2, if_true, if_false]; simp; omega
    by_cases c3 : x.res ≤ 60000000
    · simp only [c1, c2, c3, if_true, if_false]; simp; omega
    by_cases c4 : x.res ≤ 3600000000
    · simp only [c1, c2, c3, c4, if_true, if_false]; simp; omega
    by_cases c5 : x.res ≤ 86400000000
    · simp only [c1, c2, c3, c4, c5, if_true, if_false]; simp; omega
    by_cases c6 : x.res ≤ 31 * 86400000000
    · simp only [c1, c2, c3, c4, c5, c6, if_true, if_false]; simp; omega
    · simp only [c1, c2, c3, c4, c5, c6, if_false]; simp; omega
  have hgood' : ∀ z, (restOf x.res a.dt b (zoneOf b tz incl)).zone D tzp = some z → z.Good := by
    intro z h
    rw [hzone] at h
    split at h
    · cases h; exact hgood
    · cases h
  rw [hnothing]
  constructor
  · rintro ⟨-, -, -, h9, N', n1, n2, n3, n4, n5⟩
    refine ⟨h9, n3, ?_, n5⟩
    have : N' = N := names_unique D n1 m2
    rw [n4, this, m4, hmin]
  · rintro ⟨h9, n3, n4, n5⟩
    refine ⟨hv.1.1, m1, hgood', h9, N, m2, m3, n3, ?_, n5⟩
    rw [n4, m4, hmin]

/-- Microseconds ahead of UTC. -/
def ahead : Option Tz → Int
  | some z => z.minutes * 60000000
  | none => 0

/-- The local time that is printed, and when there is one. -/
theorem local_time {x : Time} (hx : x.t.Valid) {tz : Option Tz} (hz : ∀ z, tz = some z → z.Good)
    (hr : Representable (x.start + ahead tz)) :
    ∃ a, asDatetime x (if x.res < dayUs then tz else none) = .ok a ∧ a.dt.Valid ∧
      a.dt.toUs = x.start + (if x.res < dayUs then ahead tz else 0) := by
  by_cases h : x.res < dayUs
  · simp only [if_pos h]
    cases tz with
    | none =>
      obtain ⟨a, h1, h2, h3, h4⟩ := (asDatetime_instant hx h (z := ⟨0⟩) ⟨by decide, by decide⟩).1 (by simpa [ahead] using hr)
      refine ⟨a, h1, h3, ?_⟩
      unfold ADT.instant at h4
      rw [h2] at h4
      simp only [ahead] at h4 ⊢
      omega
    | some z =>
      obtain ⟨a, h1, h2, h3, h4⟩ := (asDatetime_instant hx h (hz z rfl)).1 hr
      refine ⟨a, h1, h3, ?_⟩
      unfold ADT.instant at h4
      rw [h2] at h4
      simp only [ahead] at h4 ⊢
      omega
  · simp only [if_neg h]
    refine ⟨⟨x.t, some utc⟩, ?_, hx, ?_⟩
    · unfold asDatetime isTimezoneDependent
      simp [h]
    · unfold Time.start; simp

/-! ## C01 -/

/-- **C01.**  A `Time` of the finest resolution, printed with or without delimiters and with or without the zone, is
read back as an equal `Time`. -/
theorem iso_roundtrip {x : Time} (hx : x.t.Valid) (hr : x.res ≤ 1) (b incl : Bool) :
    ∃ s y, asIso x b none incl = .ok s ∧ parseIso D s none = .ok y ∧ eq y (some x) = true ∧ y.t = x.t := by
  have hs := start_representable hx
  obtain ⟨a, h1, h2, h3⟩ := local_time (tz := none) hx (by intro z h; cases h) (by simpa [ahead] using hs)
  obtain ⟨s, p1, p2⟩ := print_parse D (b := b) (incl := incl) (tz := none) (tzp := none) (by intro z h; cases h)
    (fun _ => rfl) (by unfold dayUs; omega) h1 h2
  refine ⟨s, ⟨x.t, (restOf x.res a.dt b (zoneOf b none incl)).len D a.dt.year⟩, p1,
    (p2 _).2 ⟨fun h => ?_, hx, ?_, rfl⟩, ?_, rfl⟩
  · unfold dayUs at h; omega
  · unfold periodStart readBack
    rw [if_pos hr, h3]
    unfold Time.start ahead
    simp
  · unfold eq; simp only [beq_iff_eq]; exact (dtCmp_zero hx hx).2 rfl

example : ∃ x : Time, x.t.Valid ∧ x.res ≤ 1 ∧ x.t.us = 120 := ⟨⟨⟨2024, 2, 29, 23, 59, 59, 120⟩, 1⟩, by decide, by decide, rfl⟩

/-! ## C02 -/

/-- Exactly when an offset survives printing and parsing. -/
theorem iso_zone_iff {x : Time} (hx : x.t.Valid) (hr : x.res ≤ 1) {z : Tz} (hz : z.Good)
    (hl : Representable (x.start + z.minutes * 60000000)) (b incl : Bool) (tzp : Option Tz)
    (hp : incl = false → tzp = some z) :
    ∃ s, asIso x b (some z) incl = .ok s ∧
      ((∃ y, parseIso D s tzp = .ok y ∧ eq y (some x) = true) ↔
        (incl = true → 0 ≤ z.minutes ∨ 60 ∣ z.minutes)) := by
  obtain ⟨a, h1, h2, h3⟩ := local_time (tz := some z) hx (by intro z h; cases h; exact hz) (by simpa [ahead] using hl)
  obtain ⟨s, p1, p2⟩ := print_parse D (b := b) (incl := incl) (tz := some z) (tzp := tzp)
    (by intro z h; cases h; exact hz) hp (by unfold dayUs; omega) h1 h2
  refine ⟨s, p1, ?_⟩
  have hres : x.res < dayUs := by unfold dayUs; omega
  simp only [if_pos hres, ahead] at h3
  have hback : z.minutes = (readBack incl (some z)).minutes ↔ (incl = true → 0 ≤ z.minutes ∨ 60 ∣ z.minutes) := by
    unfold readBack
    simp only
    cases incl with
    | false => simp
    | true =>
      by_cases h : z.minutes < 0
      · simp only [h, and_self, if_true, forall_const]
        constructor
        · intro e; right; omega
        · intro e; omega
      · simp only [h, and_false, if_false, true_iff, forall_const]
        left; omega
  rw [← hback]
  have hper : periodStart x.res a.dt = a.dt.toUs := by unfold periodStart; rw [if_pos hr]
  have hif : x.res ≤ 3600000000 := by omega
  constructor
  · rintro ⟨y, hy, he⟩
    obtain ⟨-, q1, q2, -⟩ := (p2 y).1 hy
    have hyx : y.t = x.t := by
      unfold eq at he
      simp only [beq_iff_eq] at he
      exact DT.toUs_inj q1 hx ((dtCmp_zero q1 hx).1 he)
    rw [hper, if_pos hif, h3] at q2
    have : y.start = x.start := by unfold Time.start; rw [hyx]
    omega
  · intro e
    refine ⟨⟨x.t, (restOf x.res a.dt b (zoneOf b (some z) incl)).len D a.dt.year⟩,
      (p2 _).2 ⟨fun h => ?_, hx, ?_, rfl⟩, ?_⟩
    · unfold dayUs at h; omega
    · rw [hper, if_pos hif, h3, ← e]
      unfold Time.start; simp
    · unfold eq; simp only [beq_iff_eq]; exact (dtCmp_zero hx hx).2 rfl

/-- **C02, partial.**  Printed in a zone east of Greenwich or a whole number of hours west of it, a `Time` is read back
as an equal one; what is missing are the zones west of Greenwich by hours and minutes. -/
theorem iso_zone_partial {x : Time} (hx : x.t.Valid) (hr : x.res ≤ 1) {z : Tz} (hz : z.Good)
    (hl : Representable (x.start + z.minutes * 60000000)) (hm : 0 ≤ z.minutes ∨ 60 ∣ z.minutes) (b : Bool)
    (tzp : Option Tz) :
    ∃ s y, asIso x b (some z) true = .ok s ∧ parseIso D s tzp = .ok y ∧ eq y (some x) = true := by
  obtain ⟨s, h1, h2⟩ := iso_zone_iff D hx hr hz hl b true tzp (by intro h; cases h)
  obtain ⟨y, h3, h4⟩ := h2.2 (fun _ => hm)
  exact ⟨s, y, h1, h3, h4⟩

/-- Without the zone in the string, but with it as argument to both, every zone works. -/
theorem iso_zone_argument {x : Time} (hx : x.t.Valid) (hr : x.res ≤ 1) {z : Tz} (hz : z.Good)
    (hl : Representable (x.start + z.minutes * 60000000)) (b : Bool) :
    ∃ s y, asIso x b (some z) false = .ok s ∧ parseIso D s (some z) = .ok y ∧ eq y (some x) = true := by
  obtain ⟨s, h1, h2⟩ := iso_zone_iff D hx hr hz hl b false (some z) (fun _ => rfl)
  obtain ⟨y, h3, h4⟩ := h2.2 (by intro h; cases h)
  exact ⟨s, y, h1, h3, h4⟩

/-- C02 as stated is false: noon of 1 January 2000, printed in the zone five and a half hours west of Greenwich
(`2000-01-01T06:30:00-05:30`), is read as 11:00. -/
theorem iso_zone_fails : ∃ (x : Time) (z : Tz) (s : List Nat) (y : Time), x.t.Valid ∧ x.res = 1 ∧ z.Good ∧
    asIso x true (some z) true = .ok s ∧ parseIso D s none = .ok y ∧ eq y (some x) = false ∧
    y.start = x.start - 3600000000 := by
  have hx : (⟨2000, 1, 1, 12, 0, 0, 0⟩ : DT).Valid := by decide
  have hy : (⟨2000, 1, 1, 11, 0, 0, 0⟩ : DT).Valid := by decide
  have hz : (⟨-330⟩ : Tz).Good := by decide
  obtain ⟨a, h1, h2, h3⟩ := local_time (x := ⟨⟨2000, 1, 1, 12, 0, 0, 0⟩, 1⟩) (tz := some ⟨-330⟩) hx
    (by intro z h; cases h; exact hz) (by decide)
  obtain ⟨s, p1, p2⟩ := print_parse D (b := true) (incl := true) (tz := some ⟨-330⟩) (tzp := none)
    (by intro z h; cases h; exact hz) (by intro h; cases h) (by decide) h1 h2
  refine ⟨⟨⟨2000, 1, 1, 12, 0, 0, 0⟩, 1⟩, ⟨-330⟩, s,
    ⟨⟨2000, 1, 1, 11, 0, 0, 0⟩, (restOf 1 a.dt true (zoneOf true (some ⟨-330⟩) true)).len D a.dt.year⟩, hx, rfl, hz, p1,
    (p2 _).2 ⟨fun h => absurd h (by decide), hy, ?_, rfl⟩, ?_, ?_⟩
  · have : periodStart 1 a.dt = a.dt.toUs := rfl
    simp only
    rw [this, h3]
    unfold Time.start
    simp only
    decide
  · unfold eq
    simp only
    decide
  · unfold Time.start
    simp only
    decide

example : ∃ z : Tz, z.Good ∧ 0 ≤ z.minutes ∧ ¬ 60 ∣ z.minutes := ⟨⟨345⟩, by decide, by decide, by decide⟩

/-! ## C03 -/

/-- **C03, partial.**  A `Time` of any resolution up to 366 days (but years up to 9998 when it is coarser than 31 days)
is printed, and read back as the beginning of the period of the printed precision that contains it, with the length
of that period as resolution; the result is equal exactly when the instant is the beginning of such a period.
Missing: coarser resolutions print nothing at all, and the year 9999 cannot be read back. -/
theorem iso_truncates_partial {x : Time} (hx : x.t.Valid) (hr : x.res ≤ 366 * dayUs)
    (h9 : 31 * dayUs < x.res → x.t.year < 9999) (b incl : Bool) :
    ∃ s y, asIso x b none incl = .ok s ∧ parseIso D s none = .ok y ∧ y.t.Valid ∧
      y.start = periodStart x.res x.t ∧ x.start ∈ y.period ∧
      (eq y (some x) = true ↔ periodStart x.res x.t = x.start) := by
  have hs := start_representable hx
  obtain ⟨a, h1, h2, h3⟩ := local_time (tz := none) hx (by intro z h; cases h) (by simpa [ahead] using hs)
  have hax : a.dt = x.t := DT.toUs_inj h2 hx (by rw [h3]; unfold Time.start ahead; simp)
  obtain ⟨s, p1, p2⟩ := print_parse D (b := b) (incl := incl) (tz := none) (tzp := none) (by intro z h; cases h)
    (fun _ => rfl) hr h1 h2
  rw [hax] at p2
  have hc := periodStart_contains D x.res hx b (zoneOf b none incl)
  have h0 : 0 ≤ periodStart x.res x.t := by
    have hp := (DT.toUs_range hx).1
    unfold periodStart dayUs
    have h1 : 1 ≤ ymd2ord x.t.year x.t.month 1 := by unfold ymd2ord; omega
    have h2 : 1 ≤ ymd2ord x.t.year 1 1 := by unfold ymd2ord; omega
    repeat' split
    all_goals first | omega | (unfold DT.toUs DT.ord; simp only; push_cast; omega)
  have hmax : periodStart x.res x.t < maxUs := by have := hs.2; unfold Time.start at this; omega
  have hv := DT.ofUs_valid h0 hmax
  have hu := DT.toUs_ofUs h0
  refine ⟨s, ⟨DT.ofUs (periodStart x.res x.t), (restOf x.res x.t b (zoneOf b none incl)).len D x.t.year⟩, p1,
    (p2 _).2 ⟨h9, hv, ?_, rfl⟩, hv, hu, ?_, ?_⟩
  · unfold Time.start readBack; rw [hu]; simp
  · unfold Time.period Time.stop Time.start
    simp only [Set.mem_setOf_eq]
    rw [hu]; exact hc
  · unfold eq
    simp only [beq_iff_eq]
    rw [dtCmp_zero hv hx]
    constructor
    · intro e; rw [← hu, e]; rfl
    · intro e; rw [hu, e]; rfl

/-- The beginnings of the printed periods, spelt out. -/
theorem periodStart_spec (l : DT) :
    (∀ r, r ≤ 1 → periodStart r l = l.toUs) ∧
    (∀ r, 1 < r → r ≤ 1000000 → l.Valid → periodStart r l = DT.toUs { l with us := 0 }) ∧
    (∀ r, 1000000 < r → r ≤ 60000000 → l.Valid → periodStart r l = DT.toUs { l with second := 0, us := 0 }) ∧
    (∀ r, 60000000 < r → r ≤ 3600000000 → l.Valid →
      periodStart r l = DT.toUs { l with minute := 0, second := 0, us := 0 }) ∧
    (∀ r, 3600000000 < r → r ≤ dayUs → l.Valid → periodStart r l = DT.toUs ⟨l.year, l.month, l.day, 0, 0, 0, 0⟩) ∧
    (∀ r, dayUs < r → r ≤ 31 * dayUs → periodStart r l = DT.toUs ⟨l.year, l.month, 1, 0, 0, 0, 0⟩) ∧
    (∀ r, 31 * dayUs < r → periodStart r l = DT.toUs ⟨l.year, 1, 1, 0, 0, 0, 0⟩) := by
  have e : ∀ t : DT, t.toUs = ((t.ord : Int) - 1) * 86400000000 +
      ((t.hour : Int) * 3600 + t.minute * 60 + t.second) * 1000000 + t.us := by
    intro t; unfold DT.toUs; push_cast; ring
  have o : ∀ {h mi s u h' mi' s' u'}, DT.ord ⟨l.year, l.month, l.day, h, mi, s, u⟩ =
      DT.ord ⟨l.year, l.month, l.day, h', mi', s', u'⟩ := rfl
  have v (hl : l.Valid) : l.minute < 60 ∧ l.second < 60 ∧ l.us < 1000000 ∧ l.hour < 24 := by
    obtain ⟨a1, a2, a3, a4, a5, a6⟩ := hl; omega
  have oo : ∀ {h mi s u}, DT.ord ⟨l.year, l.month, l.day, h, mi, s, u⟩ = l.ord := rfl
  refine ⟨fun r h => ?_, fun r h h' hl => ?_, fun r h h' hl => ?_, fun r h h' hl => ?_, fun r h h' hl => ?_,
    fun r h h' => ?_, fun r h => ?_⟩
  · unfold periodStart; rw [if_pos h]
  · have := v hl
    unfold periodStart; rw [if_neg (by omega), if_pos h', e l, e]; simp only [oo]; push_cast; omega
  · have := v hl
    unfold periodStart; rw [if_neg (by omega), if_neg (by omega), if_pos h', e l, e]; simp only [oo]; push_cast; omega
  · have := v hl
    unfold periodStart
    rw [if_neg (by omega), if_neg (by omega), if_neg (by omega), if_pos h', e l, e]; simp only [oo]; push_cast; omega
  · have := v hl
    unfold periodStart
    rw [if_neg (by omega), if_neg (by omega), if_neg (by omega), if_neg (by omega), if_pos h', e l, e]
    simp only [oo]; unfold dayUs; push_cast; omega
  · unfold dayUs at h h'
    unfold periodStart dayUs
    rw [if_neg (by omega), if_neg (by omega), if_neg (by omega), if_neg (by omega), if_neg (by omega), if_pos h']
  · unfold dayUs at h
    unfold periodStart dayUs
    rw [if_neg (by omega), if_neg (by omega), if_neg (by omega), if_neg (by omega), if_neg (by omega),
      if_neg (by omega)]

/-- C03 as stated is false: a resolution of more than 366 days prints the empty string, which cannot be read. -/
theorem iso_truncates_fails_long {x : Time} (hx : x.t.Valid) (hr : 366 * dayUs < x.res) (b incl : Bool)
    (tz : Option Tz) : asIso x b none incl = .ok [] ∧ parseIso D [] tz = .error .valueError := by
  have hs := start_representable hx
  obtain ⟨a, h1, h2, h3⟩ := local_time (tz := none) hx (by intro z h; cases h) (by simpa [ahead] using hs)
  have := asIso_render D (b := b) (incl := incl) (tz := none) (by intro z h; cases h) h1 h2
  rw [if_neg (by omega)] at this
  refine ⟨this, ?_⟩
  apply parse_other
  intro i nl hi h
  have h2 := congrArg List.length h
  have h3 := hi.1.1
  simp [Iso.render] at h2
  omega

/-- …and the year 9999, printed with the precision of a year, cannot be read either. -/
theorem iso_truncates_fails_9999 {x : Time} (hx : x.t.Valid) (h1 : 31 * dayUs < x.res) (h2 : x.res ≤ 366 * dayUs)
    (h9 : x.t.year = 9999) (b incl : Bool) (y : Time) :
    ∃ s, asIso x b none incl = .ok s ∧ parseIso D s none ≠ .ok y := by
  have hs := start_representable hx
  obtain ⟨a, k1, k2, k3⟩ := local_time (tz := none) hx (by intro z h; cases h) (by simpa [ahead] using hs)
  have hax : a.dt = x.t := DT.toUs_inj k2 hx (by rw [k3]; unfold Time.start ahead; simp)
  obtain ⟨s, p1, p2⟩ := print_parse D (b := b) (incl := incl) (tz := none) (tzp := none) (by intro z h; cases h)
    (fun _ => rfl) h2 k1 k2
  refine ⟨s, p1, fun h => ?_⟩
  have := ((p2 y).1 h).1 h1
  rw [hax] at this
  omega

example : ∃ x : Time, x.t.Valid ∧ x.res = 60000000 ∧ periodStart x.res x.t ≠ x.start :=
  ⟨⟨⟨2024, 2, 29, 23, 59, 59, 120⟩, 60000000⟩, by decide, rfl, by decide⟩

/-! ## C04 -/

/-- **C04, partial.**  `YYYY-Www-D` (dashes optional) is accepted exactly when ISO year `YYYY` has that day and the day
is in the years 1 to 9999, and then is that day.  Missing: the two days of ISO year 9999 that fall in the year 10000. -/
theorem iso_weekdate_partial {y w d : List Nat} (hy : IsDig D 4 y) (hw : IsDig D 2 w) (hd : IsDig D 1 d)
    (b b' : Bool) (tz : Option Tz) (x : Time) :
    parseIso D (y ++ sep 45 b ++ [87] ++ w ++ sep 45 b' ++ d) tz = .ok x ↔
      1 ≤ D.int y ∧ ∃ N : Nat, IsoDay (D.int y) (D.int w) (D.int d) N ∧ N ≤ 3652059 ∧ x.t.Valid ∧
        x.start = ((N : Int) - 1) * dayUs ∧ x.res = dayUs := by
  have h := parse_iff D ⟨y, .day (.ywd b w b' d)⟩ ⟨hy, hw, hd⟩ false tz x
  have e : (Iso.render ⟨y, .day (.ywd b w b' d)⟩) ++ endOf false = y ++ sep 45 b ++ [87] ++ w ++ sep 45 b' ++ d := by
    simp [Iso.render, Rest.render, FullDate.render, endOf]
  rw [e] at h
  rw [h]
  simp [Rest.ClockOK, Rest.zone, Rest.Names, FullDate.Names, Rest.since, Rest.minutes, Rest.len]

/-- Seen from the result: its ISO calendar triple is the one in the string, and it is midnight. -/
theorem iso_weekdate_isocalendar {y w d : List Nat} (hy : IsDig D 4 y) (hw : IsDig D 2 w) (hd : IsDig D 1 d)
    (b b' : Bool) (tz : Option Tz) (x : Time)
    (h : parseIso D (y ++ sep 45 b ++ [87] ++ w ++ sep 45 b' ++ d) tz = .ok x) :
    x.t.isocalendar = (D.int y, D.int w, D.int d) ∧ x.t.hour = 0 ∧ x.t.minute = 0 ∧ x.t.second = 0 ∧ x.t.us = 0 := by
  obtain ⟨h1, N, h2, h3, h4, h5, -⟩ := (iso_weekdate_partial D hy hw hd b b' tz x).1 h
  have hN := (isoDay_range h2 h1).2.2.2.2
  have h6 := h4
  obtain ⟨a1, a2, a3, a4, a5, a6⟩ := h4
  have hpos : 1 ≤ x.t.ord := ymd2ord_pos a1
  unfold Time.start DT.toUs dayUs at h5
  have hord : x.t.ord = N := by push_cast at h5; omega
  refine ⟨(isocalendar_spec h6 h1).2 (hord ▸ h2), ?_, ?_, ?_, ?_⟩ <;> (push_cast at h5; omega)

/-- C04 as stated is false: ISO year 9999 has a Saturday in week 52, but it is not accepted. -/
theorem iso_weekdate_fails : IsoDay 9999 52 6 3652060 ∧
    ∀ (b b' : Bool) (tz : Option Tz) (x : Time),
      parseIso D ([57, 57, 57, 57] ++ sep 45 b ++ [87] ++ [53, 50] ++ sep 45 b' ++ [54]) tz ≠ .ok x := by
  have h0 : IsoDay 9999 52 6 3652060 := by unfold IsoDay; decide
  refine ⟨h0, fun b b' tz x h => ?_⟩
  have hd (s : List Nat) (hs : ∀ c ∈ s, isDigit c = true) : IsDig D s.length s := ⟨rfl, fun c hc => isDigit_is D (hs c hc)⟩
  obtain ⟨-, N, h2, h3, -⟩ := (iso_weekdate_partial D (hd [57, 57, 57, 57] (by decide)) (hd [53, 50] (by decide))
    (hd [54] (by decide)) b b' tz x).1 h
  rw [int_ascii D (by decide), int_ascii D (by decide), int_ascii D (by decide)] at h2
  have e : digitsVal [57, 57, 57, 57] = 9999 ∧ digitsVal [53, 50] = 52 ∧ digitsVal [54] = 6 := by decide
  rw [e.1, e.2.1, e.2.2] at h2
  unfold IsoDay at h0 h2
  omega

/-- 3 January 2010 was the Sunday of week 53 of 2009. -/
example : IsoDay 2009 53 7 (ymd2ord 2010 1 3) := by unfold IsoDay; decide

/-! ## C05 -/

/-- **C05.**  `YYYY-DDD` is accepted exactly when the year (of 1 to 9999) has that many days, and then is that day. -/
theorem iso_ordinal {y k : List Nat} (hy : IsDig D 4 y) (hk : IsDig D 3 k) (b : Bool) (tz : Option Tz) (x : Time) :
    parseIso D (y ++ sep 45 b ++ k) tz = .ok x ↔
      1 ≤ D.int y ∧ 1 ≤ D.int k ∧ D.int k ≤ lengthOfYear (D.int y) ∧ x.t.Valid ∧
        x.start = DT.toUs ⟨D.int y, 1, 1, 0, 0, 0, 0⟩ + ((D.int k : Int) - 1) * dayUs ∧ x.res = dayUs := by
  have h := parse_iff D ⟨y, .day (.yd b k)⟩ ⟨hy, hk⟩ false tz x
  have e : (Iso.render ⟨y, .day (.yd b k)⟩) ++ endOf false = y ++ sep 45 b ++ k := by
    simp [Iso.render, Rest.render, FullDate.render, endOf]
  rw [e] at h
  rw [h]
  have hlt := hy.int_lt
  simp only [Rest.ClockOK, Rest.zone, Rest.Names, FullDate.Names, Rest.since, Rest.minutes, Rest.len, reduceCtorEq,
    false_implies, implies_true, true_and, OrdinalDay]
  have hj : DT.toUs ⟨D.int y, 1, 1, 0, 0, 0, 0⟩ = ((ymd2ord (D.int y) 1 1 : Nat) - 1 : Int) * dayUs := by
    unfold DT.toUs DT.ord dayUs; simp
  rw [hj]
  constructor
  · rintro ⟨h1, N, ⟨h2, h3, h4⟩, h5, h6, h7, h8⟩
    have := year_step h1
    refine ⟨h1, h2, by omega, h6, ?_, h8⟩
    rw [h7]
    unfold dayUs; omega
  · rintro ⟨h1, h2, h3, h4, h5, h6⟩
    have := year_step h1
    have hmax : ymd2ord (D.int y + 1) 1 1 ≤ 3652060 := by
      have : beforeYear (D.int y + 1) ≤ beforeYear 10000 := by
        by_cases he : D.int y + 1 = 10000
        · rw [he]
        · have := beforeYear_mono (D.int y + 1) 10000 (by omega) (by omega); omega
      have e2 : beforeYear 10000 = 3652059 := by decide
      rw [jan1]; omega
    refine ⟨h1, ymd2ord (D.int y) 1 1 + D.int k - 1, ⟨h2, by omega, by omega⟩, by omega, h4, ?_, h6⟩
    rw [h5]
    unfold dayUs; omega

example : lengthOfYear 2000 = 366 ∧ lengthOfYear 1900 = 365 := by decide

/-! ## C06 -/

/-- A full date, alone or with a time of day. -/
def dateTime (fd : FullDate) : Option (Clock × Zone) → Rest
  | none => .day fd
  | some (c, z) => .time fd c z

/-- Microseconds since midnight, midnight without a clock… -/
def sinceOf (t : Option (Clock × Zone)) : Int := match t with | some p => p.1.since D | none => 0

/-- …and the unit counted in. -/
def unitOf (t : Option (Clock × Zone)) : Int := match t with | some p => p.1.unit | none => dayUs

theorem fromGroups_err {g : Groups} {tz : Option Tz} {e : PyErr} (h : fromGroups D g tz = .error e) :
    e = .valueError ∨ calculateDtime g (coerceGroups D g) = .error e ∨
    ∃ d, calculateDtime g (coerceGroups D g) = .ok d ∧
      (fromDatetime ⟨d, if g.hour ≠ none then some (calculateTimezone D g tz) else none⟩ = .error e ∨
        ∃ t, determineResolution g t = .error e) := by
  unfold fromGroups at h
  simp only at h
  split at h
  · cases h; left; rfl
  · right
    cases hc : calculateDtime g (coerceGroups D g) with
    | error e' => rw [hc] at h; cases h; left; rfl
    | ok d =>
      rw [hc] at h
      simp only at h
      right
      refine ⟨d, rfl, ?_⟩
      cases hf : fromDatetime ⟨d, if g.hour ≠ none then some (calculateTimezone D g tz) else none⟩ with
      | error e' => rw [hf] at h; cases h; left; rfl
      | ok y =>
        rw [hf] at h
        simp only at h
        cases hd : determineResolution g y.t with
        | error e' => rw [hd] at h; cases h; right; exact ⟨y.t, hd⟩
        | ok r => rw [hd] at h; cases h

/-- **C06.**  `YYYY-MM-DD`, alone or followed by a time of day, in UTC: accepted exactly when the date exists in the
Gregorian calendar and the time of day is one, with the meaning expected; otherwise `ValueError`. -/
theorem iso_date {y m d : List Nat} (hy : IsDig D 4 y) (hm : IsDig D 2 m) (hd : IsDig D 2 d) (b b' : Bool)
    {t : Option (Clock × Zone)} (ht : ∀ c z, t = some (c, z) → c.WF D ∧ (z = .unstated ∨ z = .zulu)) :
    ((DateOK (D.int y) (D.int m) (D.int d) ∧ ∀ c z, t = some (c, z) → c.OK D) →
      ∃ x, parseIso D (Iso.render ⟨y, dateTime (.ymd b m b' d) t⟩) none = .ok x ∧ x.t.Valid ∧
        x.start = DT.toUs ⟨D.int y, D.int m, D.int d, 0, 0, 0, 0⟩ + sinceOf D t ∧
        x.res = unitOf t) ∧
    (¬ (DateOK (D.int y) (D.int m) (D.int d) ∧ ∀ c z, t = some (c, z) → c.OK D) →
      parseIso D (Iso.render ⟨y, dateTime (.ymd b m b' d) t⟩) none = .error .valueError) := by
  have hyr : D.int y ≤ 9999 := by have := hy.int_lt; omega
  have hwf : Iso.WF D ⟨y, dateTime (.ymd b m b' d) t⟩ := by
    refine ⟨hy, ?_⟩
    cases t with
    | none => exact ⟨hm, hd⟩
    | some p =>
      obtain ⟨c, z⟩ := p
      obtain ⟨h1, h2⟩ := ht c z rfl
      refine ⟨⟨hm, hd⟩, h1, ?_⟩
      rcases h2 with rfl | rfl <;> exact trivial
  have hpi := parse_iff D _ hwf false none
  rw [show endOf false = [] from rfl, List.append_nil] at hpi
  have hzone : ∀ z, (dateTime (.ymd b m b' d) t).zone D none = some z → z = ⟨0⟩ := by
    intro z h
    cases t with
    | none => cases h
    | some p =>
      obtain ⟨c, z'⟩ := p
      rcases (ht c z' rfl).2 with rfl | rfl <;> (cases h; rfl)
  have hmin : (dateTime (.ymd b m b' d) t).minutes D none = 0 := by
    unfold Rest.minutes
    cases hz : (dateTime (.ymd b m b' d) t).zone D none with
    | none => rfl
    | some z => rw [hzone z hz]
  have hnames : ∀ N, (dateTime (.ymd b m b' d) t).Names D (D.int y) N ↔
      DateOK (D.int y) (D.int m) (D.int d) ∧ N = ymd2ord (D.int y) (D.int m) (D.int d) := by
    intro N
    cases t with
    | none => exact Iff.rfl
    | some p => exact Iff.rfl
  have hclock : (dateTime (.ymd b m b' d) t).ClockOK D ↔ ∀ c z, t = some (c, z) → c.OK D := by
    cases t with
    | none => simp [dateTime, Rest.ClockOK]
    | some p =>
      obtain ⟨c, z⟩ := p
      simp only [dateTime, Rest.ClockOK, Option.some.injEq, Prod.mk.injEq]
      exact ⟨fun h c' z' e => e.1 ▸ h, fun h => h c z ⟨rfl, rfl⟩⟩
  have hsince : (dateTime (.ymd b m b' d) t).since D = sinceOf D t := by
    cases t with
    | none => rfl
    | some p => rfl
  have hlen : (dateTime (.ymd b m b' d) t).len D (D.int y) = unitOf t := by
    cases t with
    | none => rfl
    | some p => rfl
  have hnn : dateTime (.ymd b m b' d) t ≠ .nothing := by
    cases t with
    | none => simp [dateTime]
    | some p => simp [dateTime]
  constructor
  · rintro ⟨h1, h2⟩
    have hN : ymd2ord (D.int y) (D.int m) (D.int d) ≤ 3652059 := by
      have hv : (⟨D.int y, D.int m, D.int d, 0, 0, 0, 0⟩ : DT).Valid := ⟨h1, hyr, by simp, by simp, by simp, by simp⟩
      have := (DT.toUs_range hv).2
      unfold DT.toUs DT.ord maxUs at this
      simp only at this
      omega
    have hpos := ymd2ord_pos h1
    have htod := tod_range ((todOK_iff D ⟨y, dateTime (.ymd b m b' d) t⟩).2 (hclock.2 h2))
    rw [tod_eq, hsince] at htod
    have hj : DT.toUs ⟨D.int y, D.int m, D.int d, 0, 0, 0, 0⟩ =
        ((ymd2ord (D.int y) (D.int m) (D.int d) : Nat) - 1 : Int) * dayUs := by
      unfold DT.toUs DT.ord dayUs; simp
    rw [hj]
    generalize sinceOf D t = tod at *
    have h0 : 0 ≤ ((ymd2ord (D.int y) (D.int m) (D.int d) : Nat) - 1 : Int) * dayUs + tod := by
      unfold dayUs at *; omega
    have hmx : ((ymd2ord (D.int y) (D.int m) (D.int d) : Nat) - 1 : Int) * dayUs + tod < maxUs := by
      unfold dayUs maxUs at *; omega
    refine ⟨⟨DT.ofUs (((ymd2ord (D.int y) (D.int m) (D.int d) : Nat) - 1 : Int) * dayUs + tod), unitOf t⟩,
      (hpi _).2 ⟨h1.1, hclock.2 h2, ?_, fun h => absurd h hnn, _, (hnames _).2 ⟨h1, rfl⟩, hN, DT.ofUs_valid h0 hmx, ?_,
        hlen.symm⟩, DT.ofUs_valid h0 hmx, DT.toUs_ofUs h0, rfl⟩
    · intro z hz; rw [hzone z hz]; decide
    · simp only
      rw [hmin, hsince]
      unfold Time.start
      rw [DT.toUs_ofUs h0]; omega
  · intro h
    cases hp : parseIso D (Iso.render ⟨y, dateTime (.ymd b m b' d) t⟩) none with
    | ok x =>
      obtain ⟨-, h2, -, -, N, h3, -⟩ := (hpi x).1 hp
      exact absurd ⟨((hnames N).1 h3).1, hclock.1 h2⟩ h
    | error e =>
      congr 1
      unfold parseIso at hp
      have hmatch := matchIso_complete D _ hwf false
      rw [show endOf false = [] from rfl, List.append_nil] at hmatch
      rw [hmatch] at hp
      simp only at hp
      have hg : (Iso.groups ⟨y, dateTime (.ymd b m b' d) t⟩).week1 = none ∧
          (Iso.groups ⟨y, dateTime (.ymd b m b' d) t⟩).week2 = none ∧
          (Iso.groups ⟨y, dateTime (.ymd b m b' d) t⟩).dayofyear = none := by
        cases t with
        | none => exact ⟨rfl, rfl, rfl⟩
        | some p => obtain ⟨c, z⟩ := p; cases c <;> cases z <;> exact ⟨rfl, rfl, rfl⟩
      rcases fromGroups_err D hp with h1 | h1 | ⟨dt, h1, h2 | ⟨t', h2⟩⟩
      · exact h1
      · rcases calc_err h1 with h2 | ⟨-, h2⟩
        · exact h2
        · rw [hg.1, hg.2.1, hg.2.2] at h2; simp at h2
      · exfalso
        rw [hour_none] at h2
        have hv : dt.Valid := by
          unfold calculateDtime at h1
          rw [hg.1, hg.2.1, hg.2.2] at h1
          simp only [ne_eq, not_true_eq_false, or_self, if_false] at h1
          exact (DT.mk?_valid h1).1
        have hr := DT.toUs_range hv
        obtain ⟨y', e1, -⟩ := (fromDatetime_instant (a := ⟨dt, (dateTime (.ymd b m b' d) t).zone D none⟩) hv (by
          intro z hz; rw [hzone z hz]; decide)).1 (by
            unfold Representable ADT.instant
            cases hz : (dateTime (.ymd b m b' d) t).zone D none with
            | none => simp only; omega
            | some z => rw [hzone z hz]; simp only; omega)
        rw [e1] at h2; cases h2
      · exfalso
        cases t with
        | none => simp [determineResolution, Iso.groups, dateTime, Rest.put, FullDate.put] at h2
        | some p =>
          obtain ⟨c, z⟩ := p
          cases c <;> cases z <;>
            simp [determineResolution, Iso.groups, dateTime, Rest.put, FullDate.put, Clock.put, Zone.put] at h2

/-- 29 February exists in 2000 and not in 1900; 23:59:60 is no time of day. -/
example : DateOK 2000 2 29 ∧ ¬ DateOK 1900 2 29 := by decide

/-! ## C07 -/

/-- **C07, partial.**  Every string that is accepted is one of the grammar, and the resolution of the result is the
length of the period it names, except that seconds with more than six decimals are given a microsecond. -/
theorem iso_resolution_partial {s : List Nat} {tz : Option Tz} {x : Time} (h : parseIso D s tz = .ok x) :
    ∃ (i : Iso) (nl : Bool), i.WF D ∧ s = i.render ++ endOf nl ∧ x.res = i.rest.len D (D.int i.year) := by
  unfold parseIso at h
  cases hm : matchIso D s with
  | none => rw [hm] at h; cases h
  | some g =>
    obtain ⟨i, nl, h1, h2, h3⟩ := matchIso_sound D hm
    rw [hm] at h
    refine ⟨i, nl, h1, h2, ?_⟩
    have : parseIso D (i.render ++ endOf nl) tz = .ok x := by
      unfold parseIso
      rw [← h2, hm]
      exact h
    obtain ⟨-, -, -, -, N, -, -, -, -, h4⟩ := (parse_iff D i h1 nl tz x).1 this
    exact h4

/-- The unit of a clock is exactly the unit of its last digit, for up to six decimals. -/
theorem unit_exact (c : Clock) (h : ∀ h b m b' s k f, c = .frac h b m b' s k f → f.length ≤ 6) :
    (c.unit : Rat) = match c with
      | .hh _ => 3600 * 1000000
      | .hm _ _ _ => 60 * 1000000
      | .hms _ _ _ _ _ => 1000000
      | .frac _ _ _ _ _ _ f => 1000000 / 10 ^ f.length := by
  cases c with
  | hh => norm_num [Clock.unit]
  | hm => norm_num [Clock.unit]
  | hms => norm_num [Clock.unit]
  | frac hh b m b' s k f =>
    have := h hh b m b' s k f rfl
    simp only [Clock.unit, if_pos this]
    generalize f.length = n at *
    interval_cases n <;> norm_num

/-- The end of the period of a month or a year is the beginning of the next one. -/
theorem iso_year_stop {y : List Nat} (hy : IsDig D 4 y) (tz : Option Tz) {x : Time} (h : parseIso D y tz = .ok x) :
    x.start = DT.toUs ⟨D.int y, 1, 1, 0, 0, 0, 0⟩ ∧ x.stop = DT.toUs ⟨D.int y + 1, 1, 1, 0, 0, 0, 0⟩ := by
  have h' : parseIso D (Iso.render ⟨y, .nothing⟩ ++ endOf false) tz = .ok x := by
    simpa [Iso.render, Rest.render, endOf] using h
  obtain ⟨h1, -, -, -, N, h2, -, -, h3, h4⟩ := (parse_iff D ⟨y, .nothing⟩ ⟨hy, trivial⟩ false tz x).1 h'
  have hs := year_step h1
  simp only [Rest.Names, Rest.since, Rest.minutes, Rest.zone, Rest.len] at *
  unfold Time.stop
  rw [h3, h4, h2]
  unfold DT.toUs DT.ord dayUs
  simp only
  rw [hs]
  push_cast
  constructor <;> ring

theorem iso_month_stop {y m : List Nat} (hy : IsDig D 4 y) (hm : IsDig D 2 m) (b : Bool) (tz : Option Tz) {x : Time}
    (h : parseIso D (y ++ sep 45 b ++ m) tz = .ok x) :
    x.start = DT.toUs ⟨D.int y, D.int m, 1, 0, 0, 0, 0⟩ ∧
    x.stop = (if D.int m = 12 then DT.toUs ⟨D.int y + 1, 1, 1, 0, 0, 0, 0⟩
      else DT.toUs ⟨D.int y, D.int m + 1, 1, 0, 0, 0, 0⟩) := by
  have h' : parseIso D (Iso.render ⟨y, .month b m⟩ ++ endOf false) tz = .ok x := by
    simpa [Iso.render, Rest.render, endOf] using h
  obtain ⟨h1, -, -, -, N, ⟨h2, h2', h2''⟩, -, -, h3, h4⟩ := (parse_iff D ⟨y, .month b m⟩ ⟨hy, hm⟩ false tz x).1 h'
  simp only [Rest.since, Rest.minutes, Rest.zone, Rest.len] at *
  unfold Time.stop
  rw [h3, h4, h2'']
  unfold DT.toUs DT.ord dayUs
  simp only
  refine ⟨by push_cast; ring, ?_⟩
  split
  · rename_i h12
    have hs := year_step h1
    rw [h12]
    have e1 : ymd2ord (D.int y + 1) 1 1 = ymd2ord (D.int y) 12 1 + 31 := by
      rw [jan1, beforeYear_succ _ h1]
      unfold ymd2ord
      have := yearLen_eq (isLeap (D.int y))
      have e2 : monthLen (isLeap (D.int y)) 12 = 31 := by cases isLeap (D.int y) <;> rfl
      omega
    rw [e1]
    simp [lengthOfMonth]
    ring
  · have hs := month_step h1 h2 (by omega)
    rw [hs.1]
    push_cast
    ring

/-- C07 as stated is false: a fraction of seven digits names a period of a tenth of a microsecond, but gets one ten
times as long. -/
theorem iso_resolution_fails : ∃ (s : List Nat) (x : Time), s.length = 27 ∧ parseIso D s none = .ok x ∧ x.res = 1 := by
  have hd (w n : Nat) (hw : 0 < w) (h : n < 10 ^ w) := isDig_pad D hw h
  obtain ⟨x, h1, -, -, h4⟩ := (iso_date D (y := padZero 4 2000) (m := padZero 2 1) (d := padZero 2 1)
    (hd 4 2000 (by omega) (by omega)) (hd 2 1 (by omega) (by omega)) (hd 2 1 (by omega) (by omega)) true true
    (t := some (.frac (padZero 2 0) true (padZero 2 0) true (padZero 2 0) false (padZero 7 0), .unstated))
    (by
      intro c z e
      cases e
      have h0 := hd 2 0 (by omega) (by omega)
      exact ⟨⟨h0, h0, h0, by decide, (hd 7 0 (by omega) (by omega)).2⟩, Or.inl rfl⟩)).1 (by
      refine ⟨by simp only [int_pad]; decide, ?_⟩
      intro c z e
      cases e
      simp only [Clock.OK, int_pad]
      refine ⟨by omega, by omega, by omega, ?_⟩
      unfold fracUs Digits.float
      rw [int_pad]
      have := frac_round 0 0 (by norm_num) (by norm_num) (by norm_num)
      simp only [Nat.cast_zero, zero_div]
      rw [this]; decide)
  exact ⟨_, x, by decide, h1, h4⟩

/-- The lone year 9999 is refused, although the year exists. -/
theorem iso_year_9999 (tz : Option Tz) (x : Time) : parseIso D [57, 57, 57, 57] tz ≠ .ok x := by
  intro h
  have hy : IsDig D 4 [57, 57, 57, 57] := isDig_pad D (w := 4) (n := 9999) (by omega) (by omega)
  have h' : parseIso D (Iso.render ⟨[57, 57, 57, 57], .nothing⟩ ++ endOf false) tz = .ok x := by
    simpa [Iso.render, Rest.render, endOf] using h
  obtain ⟨-, -, -, h1, -⟩ := (parse_iff D ⟨[57, 57, 57, 57], .nothing⟩ ⟨hy, trivial⟩ false tz x).1 h'
  have := h1 rfl
  have e : D.int [57, 57, 57, 57] = 9999 := int_pad D 4 9999
  simp only at this
  omega

/-! ## C08 -/

/-- **C08.**  A string without a time of day means the same whatever zone is passed… -/
theorem iso_date_tz (i : Iso) (hi : i.WF D) (nl : Bool) (h : ∀ fd c z, i.rest ≠ .time fd c z) (tz tz' : Option Tz) :
    parseIso D (i.render ++ endOf nl) tz = parseIso D (i.render ++ endOf nl) tz' := by
  unfold parseIso
  rw [matchIso_complete D i hi nl]
  have hh : i.groups.hour = none := by
    obtain ⟨y, r⟩ := i
    cases r with
    | nothing => rfl
    | month b m => rfl
    | week b w => rfl
    | day fd => cases fd <;> rfl
    | time fd c z => exact absurd rfl (h fd c z)
  unfold fromGroups
  simp only [hh, ne_eq, not_true_eq_false, if_false]

/-- …as does one with a zone of its own… -/
theorem iso_explicit_tz (i : Iso) (hi : i.WF D) (nl : Bool) {fd : FullDate} {c : Clock} {z : Zone}
    (h : i.rest = .time fd c z) (hz : z ≠ .unstated) (tz tz' : Option Tz) :
    parseIso D (i.render ++ endOf nl) tz = parseIso D (i.render ++ endOf nl) tz' := by
  unfold parseIso
  rw [matchIso_complete D i hi nl]
  have hh : calculateTimezone D i.groups tz = calculateTimezone D i.groups tz' := by
    obtain ⟨y, r⟩ := i
    simp only at h
    subst h
    cases z with
    | unstated => exact absurd rfl hz
    | _ => cases fd <;> cases c <;> rfl
  unfold fromGroups
  simp only [hh]

/-- …and a time of day without zone is in the zone passed: read in zone `z` it is `z`'s offset before what it is in
UTC, which is the meaning of no zone at all. -/
theorem iso_unstated_tz (i : Iso) (hi : i.WF D) (nl : Bool) {fd : FullDate} {c : Clock}
    (h : i.rest = .time fd c .unstated) {z : Tz} (hz : z.Good) (y : Time) :
    parseIso D (i.render ++ endOf nl) (some z) = .ok y ↔
      ∃ x, parseIso D (i.render ++ endOf nl) none = .ok x ∧ y.t.Valid ∧ y.start = x.start - z.minutes * 60000000 ∧
        y.res = x.res := by
  rw [parse_iff D i hi nl (some z) y]
  have hpi := parse_iff D i hi nl none
  have hz1 : i.rest.zone D (some z) = some z := by rw [h]; rfl
  have hz2 : i.rest.zone D none = some ⟨0⟩ := by rw [h]; rfl
  have m1 : i.rest.minutes D (some z) = z.minutes := by unfold Rest.minutes; rw [hz1]
  have m2 : i.rest.minutes D none = 0 := by unfold Rest.minutes; rw [hz2]
  rw [m1]
  constructor
  · rintro ⟨h1, h2, h3, h4, N, h5, h6, h7, h8, h9⟩
    have hN : 1 ≤ N := by
      have : FullDate.Names D (D.int i.year) N fd := by rw [h] at h5; exact h5
      cases fd with
      | ymd b m b' d => rw [this.2]; exact ymd2ord_pos this.1
      | ywd b w b' d => exact (isoDay_range this h1).2.2.2.2
      | yd b n =>
        obtain ⟨k1, k2, k3⟩ := this
        rw [jan1] at k2; omega
    have htod := tod_range ((todOK_iff D i).2 h2)
    rw [tod_eq] at htod
    have h0 : 0 ≤ ((N : Int) - 1) * dayUs + i.rest.since D := by unfold dayUs at *; omega
    have hmx : ((N : Int) - 1) * dayUs + i.rest.since D < maxUs := by unfold dayUs maxUs at *; omega
    refine ⟨⟨DT.ofUs (((N : Int) - 1) * dayUs + i.rest.since D), i.rest.len D (D.int i.year)⟩,
      (hpi _).2 ⟨h1, h2, ?_, h4, N, h5, h6, DT.ofUs_valid h0 hmx, ?_, rfl⟩, h7, ?_, h9⟩
    · intro w hw; rw [hz2] at hw; cases hw; decide
    · unfold Time.start; simp only; rw [DT.toUs_ofUs h0, m2]; simp
    · rw [h8]; unfold Time.start; simp only; rw [DT.toUs_ofUs h0]
  · rintro ⟨x, hx, h7, h8, h9⟩
    obtain ⟨h1, h2, h3, h4, N, h5, h6, -, h10, h11⟩ := (hpi x).1 hx
    refine ⟨h1, h2, ?_, h4, N, h5, h6, h7, ?_, h9.trans h11⟩
    · intro w hw; rw [hz1] at hw; cases hw; exact hz
    · rw [h8, h10, m2]; omega

/-- No zone is UTC. -/
theorem iso_no_tz (s : List Nat) : parseIso D s none = parseIso D s (some ⟨0⟩) := by
  unfold parseIso
  cases matchIso D s with
  | none => rfl
  | some g =>
    have : calculateTimezone D g none = calculateTimezone D g (some ⟨0⟩) := by
      unfold calculateTimezone; rfl
    unfold fromGroups
    simp only [this]

example : ∃ i : Iso, i.WF asciiDigits ∧ i.rest = .time (.ymd true [48, 49] true [48, 49]) (.hh [48, 49]) .unstated :=
  ⟨⟨[50, 48, 48, 48], _⟩, ⟨by unfold IsDig; decide, by unfold Rest.WF FullDate.WF Clock.WF Zone.WF IsDig; decide⟩, rfl⟩

end

end Verif.Extime
