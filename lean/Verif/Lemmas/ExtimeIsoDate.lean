import Verif.Lemmas.ExtimeIso
import Verif.Props.Calendar
/-! Which day an ISO 8601 string names, and what `calculateDtime` computes. -/
namespace Verif.Extime
open Verif.Py

/-- Day number `N` is day `wd` of week `w` of ISO year `y`: weeks run from Monday to Sunday and belong to the year
that holds their Thursday; the first week of a year is the first with a Thursday in it. -/
def IsoDay (y w wd N : Nat) : Prop :=
  wd = (N + 6) % 7 + 1 ∧ ymd2ord y 1 1 + wd ≤ N + 4 ∧ N + 4 < ymd2ord (y + 1) 1 1 + wd ∧
    w = (N + 4 - wd - ymd2ord y 1 1) / 7 + 1

/-- Day number `N` is the `k`-th day of year `y`. -/
def OrdinalDay (y k N : Nat) : Prop := 1 ≤ k ∧ N + 1 = ymd2ord y 1 1 + k ∧ N < ymd2ord (y + 1) 1 1

theorem jan1 (y : Nat) : ymd2ord y 1 1 = beforeYear y + 1 := by
  unfold ymd2ord
  have : beforeMonth (isLeap y) 1 = 0 := by cases isLeap y <;> decide
  omega

theorem jan4 (y : Nat) : ymd2ord y 1 4 = beforeYear y + 4 := by
  unfold ymd2ord
  have : beforeMonth (isLeap y) 1 = 0 := by cases isLeap y <;> decide
  omega

theorem year_len (y : Nat) (h : 1 ≤ y) : beforeYear y + 365 ≤ beforeYear (y + 1) ∧
    beforeYear (y + 1) ≤ beforeYear y + 366 := by
  have := beforeYear_succ y h
  cases hl : isLeap y <;> simp [hl] at this <;> omega

theorem year_bounds {t : DT} (h : t.Valid) : beforeYear t.year < t.ord ∧ t.ord ≤ beforeYear (t.year + 1) := by
  obtain ⟨⟨a1, a2, a3, a4, a5⟩, -⟩ := h
  unfold daysInMonth at a5
  have hd := dayOfYear_le (isLeap t.year) t.month t.day a2 a3 a5
  have := beforeYear_succ t.year a1
  unfold DT.ord ymd2ord
  omega

theorem beforeYear_le {a b : Nat} (ha : 1 ≤ a) (h : a ≤ b) : beforeYear a ≤ beforeYear b := by
  rcases Nat.lt_or_eq_of_le h with h | h
  · have := beforeYear_mono a b ha h; omega
  · rw [h]

theorem year_unique {y y' n : Nat} (hy : 1 ≤ y) (hy' : 1 ≤ y') (h1 : beforeYear y < n) (h2 : n ≤ beforeYear (y + 1))
    (h3 : beforeYear y' < n) (h4 : n ≤ beforeYear (y' + 1)) : y = y' := by
  rcases Nat.lt_trichotomy y y' with h | h | h
  · have := beforeYear_le (a := y + 1) (b := y') (by omega) h; omega
  · exact h
  · have := beforeYear_le (a := y' + 1) (b := y) (by omega) h; omega

theorem year_iff {t : DT} (h : t.Valid) {y : Nat} (hy : 1 ≤ y) :
    t.year = y ↔ beforeYear y < t.ord ∧ t.ord ≤ beforeYear (y + 1) := by
  have hb := year_bounds h
  constructor
  · rintro rfl; exact hb
  · intro hc
    exact year_unique h.1.1 hy hb.1 hb.2 hc.1 hc.2

/-- The Monday of the first week: a Monday, with the first Thursday of the year three days later. -/
theorem monday_spec (y : Nat) : (isoWeek1Monday y + 6) % 7 = 0 ∧ (beforeYear y : Int) + 1 ≤ isoWeek1Monday y + 3 ∧
    isoWeek1Monday y + 3 ≤ (beforeYear y : Int) + 7 := by
  unfold isoWeek1Monday
  rw [jan1]
  simp only
  split <;> omega

theorem isoDay_unique {y w wd y' w' wd' N : Nat} (hy : 1 ≤ y) (hy' : 1 ≤ y') (h : IsoDay y w wd N)
    (h' : IsoDay y' w' wd' N) : y = y' ∧ w = w' ∧ wd = wd' := by
  unfold IsoDay at h h'
  rw [jan1, jan1] at h h'
  have hw : wd = wd' := by omega
  subst hw
  have : y = y' := year_unique (n := N + 4 - wd) hy hy' (by omega) (by omega) (by omega) (by omega)
  subst this
  omega

theorem isocalendar_isoDay {t : DT} (h : t.Valid) : 1 ≤ t.isocalendar.1 ∧
    IsoDay t.isocalendar.1 t.isocalendar.2.1 t.isocalendar.2.2 t.ord := by
  have hb := year_bounds h
  have hy := h.1.1
  obtain ⟨a1, a2, a3⟩ := monday_spec t.year
  obtain ⟨b1, b2, b3⟩ := monday_spec (t.year + 1)
  have ylen := year_len t.year hy
  unfold DT.isocalendar
  simp only
  by_cases h1 : ((t.ord : Int) - isoWeek1Monday t.year) / 7 < 0
  · rw [if_pos h1]
    have hy2 : 2 ≤ t.year := by
      by_contra hc
      have : t.year = 1 := by omega
      rw [this] at a1 a2 a3 hb h1
      have : beforeYear 1 = 0 := by decide
      omega
    obtain ⟨c1, c2, c3⟩ := monday_spec (t.year - 1)
    have ylen' := year_len (t.year - 1) (by omega)
    have e : t.year - 1 + 1 = t.year := by omega
    rw [e] at ylen'
    refine ⟨by simp only; omega, ?_⟩
    unfold IsoDay
    simp only [e]
    rw [jan1, jan1]
    generalize isoWeek1Monday t.year = M at *
    generalize isoWeek1Monday (t.year - 1) = M' at *
    generalize beforeYear t.year = B at *
    generalize beforeYear (t.year - 1) = B' at *
    generalize t.ord = n at *
    refine ⟨by omega, by omega, by omega, by omega⟩
  · rw [if_neg h1]
    by_cases h2 : ((t.ord : Int) - isoWeek1Monday t.year) / 7 ≥ 52 ∧ (t.ord : Int) ≥ isoWeek1Monday (t.year + 1)
    · rw [if_pos h2]
      have ylen' := year_len (t.year + 1) (by omega)
      refine ⟨by simp, ?_⟩
      unfold IsoDay
      simp only
      rw [jan1, jan1]
      generalize isoWeek1Monday t.year = M at *
      generalize isoWeek1Monday (t.year + 1) = M' at *
      generalize beforeYear t.year = B at *
      generalize beforeYear (t.year + 1) = B' at *
      generalize beforeYear (t.year + 1 + 1) = B'' at *
      generalize t.ord = n at *
      refine ⟨by omega, by omega, by omega, by omega⟩
    · rw [if_neg h2]
      refine ⟨hy, ?_⟩
      unfold IsoDay
      simp only
      rw [jan1, jan1]
      generalize isoWeek1Monday t.year = M at *
      generalize isoWeek1Monday (t.year + 1) = M' at *
      generalize beforeYear t.year = B at *
      generalize beforeYear (t.year + 1) = B' at *
      generalize t.ord = n at *
      refine ⟨by omega, by omega, by omega, by omega⟩

/-- `isocalendar` is right. -/
theorem isocalendar_spec {t : DT} (h : t.Valid) {y w wd : Nat} (hy : 1 ≤ y) :
    t.isocalendar = (y, w, wd) ↔ IsoDay y w wd t.ord := by
  have hi := isocalendar_isoDay h
  constructor
  · intro e; rw [e] at hi; exact hi.2
  · intro hd
    obtain ⟨e1, e2, e3⟩ := isoDay_unique hi.1 hy hi.2 hd
    ext
    · exact e1
    · exact e2
    · exact e3

end Verif.Extime

namespace Verif.Extime
open Verif.Py

/-- A time of day. -/
def TodOK (n : Nums) : Prop := n.hour ≤ 23 ∧ n.minute ≤ 59 ∧ n.second ≤ 59 ∧ 0 ≤ n.us ∧ n.us < 1000000

/-- …in microseconds since midnight. -/
def Nums.tod (n : Nums) : Int := (n.hour * 3600 + n.minute * 60 + n.second : Nat) * 1000000 + n.us

theorem tod_range {n : Nums} (h : TodOK n) : 0 ≤ n.tod ∧ n.tod < dayUs := by
  unfold TodOK at h; unfold Nums.tod dayUs; omega

theorem dt_tod_range {t : DT} (h : t.Valid) : ((t.ord : Int) - 1) * dayUs ≤ t.toUs ∧ t.toUs < (t.ord : Int) * dayUs := by
  obtain ⟨-, -, h3, h4, h5, h6⟩ := h
  unfold DT.toUs dayUs; omega

theorem ord_of_toUs {t : DT} (h : t.Valid) {N : Nat} {x : Int} (hx : 0 ≤ x ∧ x < dayUs)
    (he : t.toUs = ((N : Int) - 1) * dayUs + x) : t.ord = N := by
  have := dt_tod_range h
  unfold dayUs at *; omega

/-- Which day the groups name. -/
def NamesDay (g : Groups) (n : Nums) (N : Nat) : Prop :=
  if g.week1 ≠ none ∨ g.week2 ≠ none then IsoDay n.year n.week n.weekday N
  else if g.dayofyear ≠ none then OrdinalDay n.year n.dayofyear N
  else DateOK n.year n.month n.day ∧ N = ymd2ord n.year n.month n.day

theorem mk?_iff {y m d : Nat} {n : Nums} {t : DT} :
    DT.mk? y m d n.hour n.minute n.second n.us = .ok t ↔
      DateOK y m d ∧ y ≤ 9999 ∧ TodOK n ∧ t = ⟨y, m, d, n.hour, n.minute, n.second, n.us.toNat⟩ := by
  constructor
  · intro h
    obtain ⟨v, e1, e2, e3, e4, e5, e6, e7⟩ := DT.mk?_valid h
    obtain ⟨v1, v2, v3, v4, v5, v6⟩ := v
    have : t = ⟨y, m, d, n.hour, n.minute, n.second, n.us.toNat⟩ := by
      obtain ⟨a, b, c, d', e, f, k⟩ := t
      simp only at *
      have : a = y := by omega
      have : b = m := by omega
      have : c = d := by omega
      have : d' = n.hour := by omega
      have : e = n.minute := by omega
      have : f = n.second := by omega
      have : k = n.us.toNat := by omega
      simp [*]
    subst this
    simp only at *
    exact ⟨v1, v2, ⟨by omega, by omega, by omega, by omega, by omega⟩, trivial⟩
  · rintro ⟨h1, h2, ⟨t1, t2, t3, t4, t5⟩, rfl⟩
    unfold DT.mk?
    rw [if_pos]
    · simp
    · refine ⟨by omega, by omega, by omega, by omega, by omega, by omega, t4, ?_⟩
      simp only [Int.toNat_natCast]
      exact ⟨h1, h2, by simp only; omega, by simp only; omega, by simp only; omega, by simp only; omega⟩

theorem date_valid {y m d : Nat} {n : Nums} (h1 : DateOK y m d) (h2 : y ≤ 9999) (ht : TodOK n) :
    (⟨y, m, d, n.hour, n.minute, n.second, n.us.toNat⟩ : DT).Valid ∧
    (⟨y, m, d, n.hour, n.minute, n.second, n.us.toNat⟩ : DT).toUs = ((ymd2ord y m d : Nat) - 1 : Int) * dayUs + n.tod := by
  obtain ⟨t1, t2, t3, t4, t5⟩ := ht
  refine ⟨⟨h1, h2, by simp only; omega, by simp only; omega, by simp only; omega, by simp only; omega⟩, ?_⟩
  unfold DT.toUs DT.ord Nums.tod dayUs
  simp only
  omega

theorem jan1_ok {y : Nat} (h : 1 ≤ y) : DateOK y 1 1 ∧ DateOK y 1 4 := by
  have : daysInMonth y 1 = 31 := by unfold daysInMonth; cases isLeap y <;> rfl
  unfold DateOK; omega

theorem isoDay_range {y w wd N : Nat} (h : IsoDay y w wd N) (hy : 1 ≤ y) : 1 ≤ w ∧ w ≤ 53 ∧ 1 ≤ wd ∧ wd ≤ 7 ∧ 1 ≤ N := by
  have := year_len y hy
  unfold IsoDay at h
  rw [jan1, jan1] at h
  omega

theorem calc_iff {g : Groups} {n : Nums} (hy : n.year ≤ 9999) (hr : n.inRange = true) {d : DT} :
    calculateDtime g n = .ok d ↔ 1 ≤ n.year ∧ TodOK n ∧ ∃ N : Nat, NamesDay g n N ∧ N ≤ 3652059 ∧ d.Valid ∧
      d.toUs = ((N : Int) - 1) * dayUs + n.tod := by
  have hday : (0 : Int) < dayUs := by decide
  unfold calculateDtime NamesDay
  by_cases hw : g.week1 ≠ none ∨ g.week2 ≠ none
  · simp only [if_pos hw]
    have hwr : 0 < n.week ∧ n.week ≤ 53 ∧ 1 ≤ n.weekday ∧ n.weekday ≤ 7 := by
      unfold Nums.inRange at hr
      simp only [Bool.and_eq_true, decide_eq_true_eq] at hr
      omega
    rw [if_neg (not_not.2 ⟨hwr.1, hwr.2.1⟩)]
    constructor
    · intro h
      cases hm : DT.mk? n.year 1 4 n.hour n.minute n.second n.us with
      | error e => rw [hm] at h; cases h
      | ok b =>
        rw [hm] at h
        simp only at h
        obtain ⟨m1, m2, m3, m4⟩ := mk?_iff.1 (show DT.mk? n.year (1 : Nat) (4 : Nat) n.hour n.minute n.second n.us = .ok b from hm)
        cases ha : b.add (-(b.weekday : Int) * dayUs) with
        | error e => rw [ha] at h; cases h
        | ok c =>
          rw [ha] at h
          simp only at h
          cases hb : c.add ((((n.week : Int) - 1) * 7 + n.weekday - 1) * dayUs) with
          | error e => rw [hb] at h; cases h
          | ok d' =>
            rw [hb] at h
            simp only at h
            split at h
            · cases h
            · rename_i hi
              cases h
              rw [not_not] at hi
              obtain ⟨va, ea⟩ := DT.add_ok ha
              obtain ⟨vb, eb⟩ := DT.add_ok hb
              have hy1 : 1 ≤ n.year := m1.1
              have hspec := (isocalendar_spec vb hy1).1 hi
              refine ⟨hy1, m3, d.ord, hspec, ?_, vb, ?_⟩
              · have := DT.toUs_range vb
                have := dt_tod_range vb
                unfold maxUs at *
                unfold dayUs at *
                omega
              · -- the time of day is kept
                have hbt := (date_valid m1 m2 m3).2
                rw [← m4] at hbt
                have htr := tod_range m3
                have hdr := dt_tod_range vb
                have hbo : b.ord = ymd2ord n.year 1 4 := by rw [m4]; rfl
                unfold DT.weekday at ea
                generalize (b.ord + 6) % 7 = k at *
                unfold dayUs at *
                omega
    · rintro ⟨hy1, ht, N, hN, hN2, hv, he⟩
      have hmk := mk?_iff.2 ⟨(jan1_ok hy1).2, hy, ht, rfl⟩
      have hbase := date_valid (jan1_ok hy1).2 hy ht
      rw [show DT.mk? n.year 1 4 n.hour n.minute n.second n.us = _ from hmk]
      simp only
      generalize hb : (⟨n.year, 1, 4, n.hour, n.minute, n.second, n.us.toNat⟩ : DT) = b at *
      have hbo : b.ord = ymd2ord n.year 1 4 := by rw [← hb]; rfl
      have htr := tod_range ht
      have hIso := hN
      unfold IsoDay at hN
      rw [jan4] at hbo hbase
      rw [jan1, jan1] at hN
      obtain ⟨t', ht'⟩ := (DT.add_total b (-(b.weekday : Int) * dayUs)).2 (by
        have := DT.toUs_range hbase.1
        rw [hbase.2]
        unfold DT.weekday
        rw [hbo]
        have hB : n.year = 1 ∨ 365 ≤ beforeYear n.year := by
          by_cases h1 : n.year = 1
          · exact Or.inl h1
          · right
            have := beforeYear_le (a := 2) (b := n.year) (by omega) (by omega)
            have : beforeYear 2 = 365 := by decide
            omega
        have hB1 : beforeYear 1 = 0 := by decide
        unfold maxUs dayUs at *
        rcases hB with h1 | h1
        · rw [h1, hB1] at *; omega
        · omega)
      obtain ⟨vt, et⟩ := DT.add_ok ht'
      rw [ht']
      simp only
      have hd : t'.add ((((n.week : Int) - 1) * 7 + n.weekday - 1) * dayUs) = .ok d := by
        rw [DT.add_iff hv, et, hbase.2, he]
        unfold DT.weekday
        rw [hbo]
        unfold dayUs
        omega
      rw [hd]
      simp only
      have hdo : d.ord = N := ord_of_toUs hv htr he
      rw [if_neg]
      rw [not_not, isocalendar_spec hv hy1, hdo]
      exact hIso
  · simp only [if_neg hw]
    by_cases hk : g.dayofyear ≠ none
    · simp only [if_pos hk]
      constructor
      · intro h
        cases hm : DT.mk? n.year 1 1 n.hour n.minute n.second n.us with
        | error e => rw [hm] at h; cases h
        | ok b =>
          rw [hm] at h
          simp only at h
          obtain ⟨m1, m2, m3, m4⟩ := mk?_iff.1 (show DT.mk? n.year (1 : Nat) (1 : Nat) n.hour n.minute n.second n.us = .ok b from hm)
          cases ha : b.add (((n.dayofyear : Int) - 1) * dayUs) with
          | error e => rw [ha] at h; cases h
          | ok c =>
            rw [ha] at h
            simp only at h
            split at h
            · cases h
            · rename_i hi
              cases h
              rw [not_not] at hi
              obtain ⟨va, ea⟩ := DT.add_ok ha
              have hy1 : 1 ≤ n.year := m1.1
              have hyr := (year_iff va hy1).1 hi
              have hbt := (date_valid m1 m2 m3).2
              rw [← m4] at hbt
              have htr := tod_range m3
              have hdr := dt_tod_range va
              have hrr := DT.toUs_range va
              have h366 : 1 ≤ n.dayofyear := by
                unfold Nums.inRange at hr
                simp only [Bool.and_eq_true, decide_eq_true_eq] at hr
                omega
              have e0 : d.toUs = (((ymd2ord n.year 1 1 + n.dayofyear - 1 : Nat) : Int) - 1) * dayUs + n.tod := by
                rw [ea, hbt]; unfold dayUs; rw [jan1]; omega
              have hdo := ord_of_toUs va htr e0
              refine ⟨hy1, m3, d.ord, ⟨h366, ?_, ?_⟩, ?_, va, ?_⟩
              · rw [hdo, jan1]; omega
              · rw [jan1]; omega
              · unfold maxUs dayUs at *; omega
              · rw [hdo]; exact e0
      · rintro ⟨hy1, ht, N, ⟨k1, k2, k3⟩, hN2, hv, he⟩
        have hmk := mk?_iff.2 ⟨(jan1_ok hy1).1, hy, ht, rfl⟩
        have hbase := date_valid (jan1_ok hy1).1 hy ht
        rw [show DT.mk? n.year 1 1 n.hour n.minute n.second n.us = _ from hmk]
        simp only
        have hd : DT.add ⟨n.year, 1, 1, n.hour, n.minute, n.second, n.us.toNat⟩ (((n.dayofyear : Int) - 1) * dayUs) = .ok d := by
          rw [DT.add_iff hv, hbase.2, he]
          unfold dayUs
          omega
        rw [hd]
        simp only
        have hdo : d.ord = N := ord_of_toUs hv (tod_range ht) he
        rw [if_neg]
        rw [not_not, year_iff hv hy1, hdo]
        rw [jan1] at k2 k3
        omega
    · simp only [if_neg hk]
      rw [mk?_iff]
      constructor
      · rintro ⟨h1, h2, h3, rfl⟩
        have hv := date_valid h1 h2 h3
        refine ⟨h1.1, h3, _, ⟨h1, rfl⟩, ?_, hv.1, hv.2⟩
        have := DT.toUs_range hv.1
        have := dt_tod_range hv.1
        have e : DT.ord ⟨n.year, n.month, n.day, n.hour, n.minute, n.second, n.us.toNat⟩ = ymd2ord n.year n.month n.day := rfl
        rw [e] at this
        unfold maxUs dayUs at *
        omega
      · rintro ⟨hy1, ht, N, ⟨h1, rfl⟩, hN2, hv, he⟩
        have hv' := date_valid h1 hy ht
        exact ⟨h1, hy, ht, DT.toUs_inj hv hv'.1 (by rw [he, hv'.2])⟩

/-- Errors are `ValueError`s, but for dates past the end of 9999. -/
theorem calc_err {g : Groups} {n : Nums} {e : PyErr} (h : calculateDtime g n = .error e) :
    e = .valueError ∨ (e = .overflowError ∧ (g.week1 ≠ none ∨ g.week2 ≠ none ∨ g.dayofyear ≠ none)) := by
  unfold calculateDtime at h
  by_cases hw : g.week1 ≠ none ∨ g.week2 ≠ none
  · have hw' : g.week1 ≠ none ∨ g.week2 ≠ none ∨ g.dayofyear ≠ none := by tauto
    simp only [if_pos hw] at h
    split at h
    · cases h; left; rfl
    · cases hm : DT.mk? n.year 1 4 n.hour n.minute n.second n.us with
      | error e' => rw [hm] at h; cases h; left; exact DT.mk?_err hm
      | ok b =>
        rw [hm] at h
        simp only at h
        cases ha : b.add (-(b.weekday : Int) * dayUs) with
        | error e' => rw [ha] at h; cases h; right; exact ⟨(DT.add_err ha).1, hw'⟩
        | ok c =>
          rw [ha] at h
          simp only at h
          cases hb : c.add ((((n.week : Int) - 1) * 7 + n.weekday - 1) * dayUs) with
          | error e' => rw [hb] at h; cases h; right; exact ⟨(DT.add_err hb).1, hw'⟩
          | ok d' =>
            rw [hb] at h
            simp only at h
            split at h
            · cases h; left; rfl
            · cases h
  · simp only [if_neg hw] at h
    by_cases hk : g.dayofyear ≠ none
    · simp only [if_pos hk] at h
      cases hm : DT.mk? n.year 1 1 n.hour n.minute n.second n.us with
      | error e' => rw [hm] at h; cases h; left; exact DT.mk?_err hm
      | ok b =>
        rw [hm] at h
        simp only at h
        cases ha : b.add (((n.dayofyear : Int) - 1) * dayUs) with
        | error e' => rw [ha] at h; cases h; right; exact ⟨(DT.add_err ha).1, by tauto⟩
        | ok c =>
          rw [ha] at h
          simp only at h
          split at h
          · cases h; left; rfl
          · cases h
    · simp only [if_neg hk] at h
      left; exact DT.mk?_err h

end Verif.Extime
