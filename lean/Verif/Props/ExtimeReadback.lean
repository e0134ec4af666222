import Verif.Model.ExtimeZoneShow
import Verif.Props.ExtimeShow
import Verif.Props.ExtimeZone
import Verif.Lemmas.ExtimeIsoPrint
/-!
# C121: what `asHumanly` shows, read with `fromHumanly`

A text of `asHumanly` is read back with the same zone and the same `now`.
-/
namespace Verif.Extime
open Verif.Py

variable (D : Digits)

/-- Everything `fromHumanly` could match fails. -/
def NoMatch (s : List Nat) : Prop :=
  matchWeekday s = none ∧ matchTime D s = none ∧
    ∀ w ∈ [wToday, wTomorrow, wYesterday, wNoon, wMidnight, wNow], icWord w s = false

theorem noMatch_refused {text s : List Nat} (hs : strip text = s) (h : NoMatch D s) (tz : Option Tz) (now : Time) :
    fromHumanly D text tz now = .error .valueError := by
  obtain ⟨h1, h2, h3⟩ := h
  unfold fromHumanly
  simp only
  rw [hs, h1, h2, h3 wToday (by simp), h3 wTomorrow (by simp), h3 wYesterday (by simp), h3 wNoon (by simp),
    h3 wMidnight (by simp), h3 wNow (by simp)]
  rfl

theorem noMatch_refused_zone {text s : List Nat} (hs : strip text = s) (h : NoMatch D s) (z : ExtimeZone.Zone) (now : Time) :
    ExtimeZone.fromHumanly D text z now = .error .valueError := by
  obtain ⟨h1, h2, h3⟩ := h
  unfold ExtimeZone.fromHumanly
  simp only
  rw [hs, h1, h2, h3 wToday (by simp), h3 wTomorrow (by simp), h3 wYesterday (by simp), h3 wNoon (by simp),
    h3 wMidnight (by simp), h3 wNow (by simp)]
  rfl

theorem words_letters : ∀ w ∈ [wToday, wTomorrow, wYesterday, wNoon, wMidnight, wNow], Letters w := by decide

theorem strip_self {s : List Nat} (h1 : ∀ c, s.head? = some c → isSpace c = false)
    (h2 : ∀ c, s.getLast? = some c → isSpace c = false) (hne : s ≠ []) : strip s = s := by
  have := strip_framed (a := []) (b := []) (body := s) (by simp) (by simp) h1 h2 hne
  simpa using this

theorem digit_not_space {c : Nat} (h : isDigit c = true) : isSpace c = false := by
  unfold isDigit at h
  simp only [Bool.and_eq_true, decide_eq_true_eq] at h
  unfold isSpace
  simp only [Bool.or_eq_false_iff, Bool.and_eq_false_iff, decide_eq_false_iff_not, beq_eq_false_iff_ne]
  omega

theorem ic_digit {c : Nat} (h : isDigit c = true) (p : Nat) (hp : 97 ≤ p ∧ p ≤ 122) : ic p c = false := by
  unfold isDigit at h
  simp only [Bool.and_eq_true, decide_eq_true_eq] at h
  unfold ic
  simp only [Bool.or_eq_false_iff, Bool.and_eq_false_iff, beq_eq_false_iff_ne]
  omega

/-- The parts of a clock text: two digits, a colon, two digits. -/
theorem clock_form {secs : Bool} {t : DT} (h : t.Valid) : ∃ a b m n : Nat,
    padZero 2 (if t.hour % 12 = 0 then 12 else t.hour % 12) = [a, b] ∧ padZero 2 t.minute = [m, n] ∧
    (∀ c ∈ [a, b, m, n], isDigit c = true) ∧
    (clockText secs t).map asciiLower = a :: b :: 58 :: m :: n ::
      ((if secs then [58] ++ padZero 2 t.second else []) ++ ([32] ++ (if t.hour < 12 then [97, 109] else [112, 109]))) := by
  have h1 := h.2.2.1
  have h2 := h.2.2.2.1
  have e1 := padZero_length 2 (if t.hour % 12 = 0 then 12 else t.hour % 12) (by omega) (by split <;> omega)
  have e2 := padZero_length 2 t.minute (by omega) (by omega)
  have d1 := padZero_isDigit 2 (if t.hour % 12 = 0 then 12 else t.hour % 12)
  have d2 := padZero_isDigit 2 t.minute
  rw [clock_lower]
  obtain ⟨a, b, e1⟩ := List.length_eq_two.1 e1
  obtain ⟨m, n, e2⟩ := List.length_eq_two.1 e2
  rw [e1] at d1
  rw [e2] at d2
  rw [e1, e2]
  refine ⟨a, b, m, n, rfl, rfl, ?_, by simp⟩
  intro c hc
  simp only [List.mem_cons, List.not_mem_nil, or_false] at hc
  rcases hc with rfl | rfl | rfl | rfl
  · exact d1 _ (by simp)
  · exact d1 _ (by simp)
  · exact d2 _ (by simp)
  · exact d2 _ (by simp)

/-- The clock of the same day is a clock time of `fromHumanly`. -/
theorem clock_says {t : DT} (h : t.Valid) :
    SaysTime D ((clockText false t).map asciiLower) (padZero 2 (if t.hour % 12 = 0 then 12 else t.hour % 12))
      (padZero 2 t.minute) (if t.hour < 12 then .am else .pm) := by
  obtain ⟨a, b, m, n, e1, e2, hd, e⟩ := clock_form (secs := false) h
  rw [e, e1, e2]
  have hd' : ∀ c ∈ [a, b, m, n], D.is c = true := fun c hc => isDigit_is D (hd c hc)
  refine ⟨⟨[32] ++ (if t.hour < 12 then [97, 109] else [112, 109]), by simp, ?_⟩, ?_, ?_, Or.inr rfl, rfl⟩
  · by_cases c : t.hour < 12
    · rw [if_pos c, if_pos c]; exact ⟨[32], [97, 109], rfl, by decide, by decide⟩
    · rw [if_neg c, if_neg c]; exact ⟨[32], [112, 109], rfl, by decide, by decide⟩
  · intro c hc; exact hd' c (List.mem_append_left [m, n] hc)
  · intro c hc; exact hd' c (List.mem_append_right [a, b] hc)

theorem framed_self (s : List Nat) : Framed s s := ⟨[], [], by simp, by simp, by simp⟩

theorem hour_read {t : DT} (h : t.Valid) :
    hourMeant (if t.hour % 12 = 0 then 12 else t.hour % 12) (if t.hour < 12 then .am else .pm) = some t.hour := by
  have h1 := h.2.2.1
  by_cases c : t.hour < 12
  · rw [if_pos c]
    unfold hourMeant
    simp only
    rw [if_pos (by split <;> omega)]
    congr 1
    split <;> omega
  · rw [if_neg c]
    unfold hourMeant
    simp only
    rw [if_pos (by split <;> omega)]
    congr 1
    split <;> omega

theorem clock_last {secs : Bool} {t : DT} (u : List Nat) :
    ∀ c, (u ++ (clockText secs t).map asciiLower).getLast? = some c → isSpace c = false := by
  intro c hc
  rw [clock_lower] at hc
  simp only [← List.append_assoc] at hc
  rw [List.getLast?_append_of_ne_nil _ (by split <;> simp)] at hc
  by_cases h : t.hour < 12
  · rw [if_pos h] at hc; cases hc; decide
  · rw [if_neg h] at hc; cases hc; decide

/-- With seconds it is not. -/
theorem seconds_noMatch {t : DT} (h : t.Valid) : strip ((clockText true t).map asciiLower) = (clockText true t).map asciiLower ∧
    NoMatch D ((clockText true t).map asciiLower) := by
  obtain ⟨a, b, m, n, e1, e2, hd, e⟩ := clock_form (secs := true) h
  refine ⟨strip_self ?_ (clock_last (u := [])) ?_, ?_⟩
  · rw [e]; intro c hc; cases hc; exact digit_not_space (hd _ (by simp))
  · rw [e]; simp
  · have hc : 58 ∈ (clockText true t).map asciiLower := by rw [e]; simp
    refine ⟨matchWeekday_colon hc, ?_, fun w hw => icWord_odd (words_letters w hw) hc ic_colon⟩
    have hb : b ≠ 58 := by
      intro hb
      have := hd b (by simp)
      rw [hb] at this; cases this
    rw [e]
    unfold matchTime
    split
    · rename_i heq
      simp only [List.cons.injEq] at heq
      exact absurd heq.2.1 hb
    · rename_i heq
      simp only [List.cons.injEq] at heq
      obtain ⟨rfl, rfl, -, rfl, rfl, rfl⟩ := heq
      split
      · simp [matchAmPm, isSpace, icWord, wAm, wPm, ic]
      · rfl
    · rfl

theorem natStr_day : ∀ n, n < 32 → (natStr n).length = 1 ∨ (natStr n).length = 2 := by decide

/-- Nor is a date. -/
theorem date_noMatch {d : Nat} (hd : d < 32) {r : List Nat} :
    NoMatch D (natStr d ++ 32 :: r) := by
  have hdig := natStr_isDigit d
  have hsp : 32 ∈ natStr d ++ 32 :: r := by simp
  have isp := fun p hp => ic_space (c := 32) (by decide) p hp
  refine ⟨?_, ?_, fun w hw => icWord_odd (words_letters w hw) hsp isp⟩
  · unfold matchWeekday
    rw [weekdays_odd hsp isp]
    have : ∃ c, c ∈ (natStr d ++ 32 :: r).take 4 ∧ isDigit c = true := by
      rcases natStr_day d hd with h | h
      · obtain ⟨c, h⟩ := List.length_eq_one_iff.1 h
        exact ⟨c, by simp [h], hdig c (by simp [h])⟩
      · obtain ⟨c, c', h⟩ := List.length_eq_two.1 h
        exact ⟨c, by simp [h], hdig c (by simp [h])⟩
    obtain ⟨c, hc, hc'⟩ := this
    rw [icWord_odd (w := wNext) (by decide) hc (ic_digit hc'), icWord_odd (w := wThis) (by decide) hc (ic_digit hc')]
    rfl
  · have n32 : D.is 32 = false := by unfold Digits.is; rw [D.ascii 32 (by omega)]; rfl
    rcases natStr_day d hd with h | h
    · obtain ⟨c, h⟩ := List.length_eq_one_iff.1 h
      rw [h]
      unfold matchTime
      split
      · rename_i heq; simp at heq
      · rename_i heq
        simp only [List.cons_append, List.nil_append, List.cons.injEq] at heq
        rw [← heq.2.1, n32]; simp
      · rfl
    · obtain ⟨c, c', h⟩ := List.length_eq_two.1 h
      rw [h] at hdig ⊢
      unfold matchTime
      split
      · rename_i heq
        simp only [List.cons_append, List.nil_append, List.cons.injEq] at heq
        have := hdig c' (by simp)
        rw [heq.2.1] at this; cases this
      · rename_i heq; simp at heq
      · rfl

theorem all_day_noMatch : strip [97, 108, 108, 32, 100, 97, 121] = [97, 108, 108, 32, 100, 97, 121] ∧
    NoMatch D [97, 108, 108, 32, 100, 97, 121] :=
  ⟨by decide, by decide, matchTime_colon (by decide), by decide⟩

theorem date_last {d : DT} (hd : d.Valid) (n : DT) (allDay secs : Bool) : ∀ c,
    (natStr d.day ++ [32] ++ rfcMonths.getD (d.month - 1) [] ++ (if d.year == n.year then [] else [32] ++ natStr d.year) ++
      (if allDay then [] else ([44, 32] ++ clockText secs d).map asciiLower)).getLast? = some c → isSpace c = false := by
  intro c hc
  cases allDay with
  | false =>
    simp only [Bool.false_eq_true, if_false] at hc
    rw [List.map_append, ← List.append_assoc] at hc
    exact clock_last _ _ hc
  | true =>
    simp only [if_true, List.append_nil] at hc
    by_cases hy : (d.year == n.year) = true
    · rw [if_pos hy, List.append_nil] at hc
      have lens : ∀ m, m < 12 → ∀ c, (rfcMonths.getD m []).getLast? = some c → isSpace c = false := by decide
      have ne : ∀ m, m < 12 → rfcMonths.getD m [] ≠ [] := by decide
      have hm : d.month - 1 < 12 := by have := hd.1.2.2.1; omega
      rw [List.getLast?_append_of_ne_nil _ (ne _ hm)] at hc
      exact lens _ hm c hc
    · rw [if_neg hy, ← List.append_assoc] at hc
      have : natStr d.year ≠ [] := natStr_ne_nil _
      rw [List.getLast?_append_of_ne_nil _ this] at hc
      exact digit_not_space (natStr_isDigit _ c (List.mem_of_getLast? hc))

/-- What is shown for another day, for whole days, or with seconds. -/
theorem humanText_noMatch {secs allDay : Bool} {d n : DT} (hd : d.Valid)
    (h : sameDate d n = true → allDay = true ∨ secs = true) :
    strip (humanText secs allDay d n) = humanText secs allDay d n ∧ NoMatch D (humanText secs allDay d n) := by
  by_cases hs : sameDate d n = true
  · unfold humanText
    rw [if_pos hs]
    cases allDay with
    | true => exact all_day_noMatch D
    | false =>
      rcases h hs with h | rfl
      · cases h
      · exact seconds_noMatch D hd
  · have e : humanText secs allDay d n = natStr d.day ++ [32] ++ rfcMonths.getD (d.month - 1) [] ++
        (if d.year == n.year then [] else [32] ++ natStr d.year) ++
        (if allDay then [] else ([44, 32] ++ clockText secs d).map asciiLower) := by
      unfold humanText; rw [if_neg hs]
    have hday : d.day < 32 := by
      have h1 : d.day ≤ daysInMonth d.year d.month := hd.1.2.2.2.2
      have : ∀ b, ∀ m, m < 13 → monthLen b m < 32 := by decide
      have := this (isLeap d.year) d.month (by have := hd.1.2.2.1; omega)
      unfold daysInMonth at h1
      omega
    refine ⟨strip_self ?_ ?_ ?_, ?_⟩
    · rw [e]
      intro c hc
      have : natStr d.day ≠ [] := natStr_ne_nil _
      obtain ⟨x, xs, hx⟩ := List.exists_cons_of_ne_nil this
      rw [hx] at hc
      simp only [List.cons_append, List.head?_cons, Option.some.injEq] at hc
      subst hc
      exact digit_not_space (natStr_isDigit d.day _ (by rw [hx]; simp))
    · rw [e]; exact date_last hd n allDay secs
    · rw [e]; simp
    · rw [e]
      simp only [List.append_assoc]
      exact date_noMatch D hday

/-! ## The claim, for `FixedOffset` zones -/

theorem tod_hour {t : DT} (h : t.Valid) : ((t.hour * 60 + t.minute : Nat) : Int) * 60000000 = t.toUs / 60000000 * 60000000 % dayUs ∧
    (t.hour : Int) = t.toUs % dayUs / 3600000000 := by
  obtain ⟨-, -, h3, h4, h5, h6⟩ := h
  unfold DT.toUs dayUs
  omega

theorem same_day {s t : DT} (hs : s.Valid) (ht : t.Valid) : sameDate s t = true ↔ s.toUs / dayUs = t.toUs / dayUs := by
  rw [sameDate_iff]
  obtain ⟨v1, e1, -⟩ := midnight_toUs hs
  obtain ⟨v2, e2, -⟩ := midnight_toUs ht
  constructor
  · intro ⟨a, b, c⟩
    have : ({ s with hour := 0, minute := 0, second := 0, us := 0 } : DT) =
        { t with hour := 0, minute := 0, second := 0, us := 0 } := by
      simp only [DT.mk.injEq]; exact ⟨a, b, c, trivial, trivial, trivial, trivial⟩
    rw [this, e2] at e1
    unfold dayUs at *
    omega
  · intro h
    have := DT.toUs_inj v1 v2 (by rw [e1, e2, h])
    simp only [DT.mk.injEq] at this
    exact ⟨this.1, this.2.1, this.2.2.1⟩

/-- **C121, partial.**  The text shown for a time on the day of `now`, read back: the minute of that time if that is not before
the minute of `now`, else the same a day later.  Missing: the hour from noon to one. -/
theorem readback_partial (hD : ∀ c, D.is c = true → isSpace c = false) {x now : Time} (hx : x.t.Valid) (hn : now.t.Valid)
    {tz : Option Tz} (hz : (tz.getD utc).Good) (hr : x.res < dayUs) {s : List Nat}
    (h : asHumanly x tz now .minutes = .ok s)
    (hday : wall x (tz.getD utc) / dayUs = wall now (tz.getD utc) / dayUs)
    (hnoon : wall x (tz.getD utc) % dayUs / 3600000000 ≠ 12) :
    (wall now (tz.getD utc) / 60000000 ≤ wall x (tz.getD utc) / 60000000 →
      ∃ y, fromHumanly D s tz now = .ok y ∧ y.t.Valid ∧ y.start = x.start / 60000000 * 60000000 ∧ y.res = 60000000) ∧
    (wall x (tz.getD utc) / 60000000 < wall now (tz.getD utc) / 60000000 →
      (Representable (wall x (tz.getD utc) + dayUs) ∧ Representable (x.start + dayUs) →
        ∃ y, fromHumanly D s tz now = .ok y ∧ y.t.Valid ∧ y.start = x.start / 60000000 * 60000000 + dayUs ∧ y.res = 60000000) ∧
      (¬ (Representable (wall x (tz.getD utc) + dayUs) ∧ Representable (x.start + dayUs)) →
        fromHumanly D s tz now = .error .overflowError)) := by
  obtain ⟨-, d, n, hdv, hnv, hdu, hnu, rfl⟩ := asHumanly_ok hx hn hz h
  have hsame : sameDate d n = true := (same_day hdv hnv).2 (by rw [hdu, hnu, hday])
  have hall : isAllDay x = false := by simp only [isAllDay, beq_eq_false_iff_ne]; omega
  have etext : humanText (Precision.minutes == .seconds) (isAllDay x) d n = (clockText false d).map asciiLower := by
    unfold humanText; rw [if_pos hsame, hall]; rfl
  rw [etext]
  obtain ⟨t1, t2⟩ := tod_hour hdv
  have hh : ¬ d.hour = 12 := by rw [hdu] at t2; omega
  have hread := hour_read hdv
  have h12 : ¬ ((if d.hour < 12 then Half.am else .pm) = .pm ∧
      D.int (padZero 2 (if d.hour % 12 = 0 then 12 else d.hour % 12)) = 12) := by
    rw [int_pad]
    rintro ⟨a, b⟩
    have := hdv.2.2.1
    split at a
    · cases a
    · split at b <;> omega
  have hwn : Representable (wall now (tz.getD utc)) := by rw [← hnu]; exact DT.toUs_range hnv
  have hwx : Representable (wall x (tz.getD utc)) := by rw [← hdu]; exact DT.toUs_range hdv
  obtain ⟨T, T1, T2, T3, T4, T5⟩ := human_time_partial D hD hn hz hwn (clock_says D hdv) (framed_self _)
    (by rw [int_pad]; exact hread) (by rw [int_pad]; exact hdv.2.2.2.1) h12
  rw [int_pad, t1, hdu] at T3
  have hxs := start_representable hx
  have ew : wall x (tz.getD utc) = x.start + (tz.getD utc).minutes * 60000000 := by unfold wall; rw [if_pos hr]
  have emin : wall x (tz.getD utc) / 60000000 * 60000000 =
      x.start / 60000000 * 60000000 + (tz.getD utc).minutes * 60000000 := by omega
  generalize hW : wall x (tz.getD utc) = W at *
  generalize hV : wall now (tz.getD utc) = V at *
  generalize (tz.getD utc).minutes = mm at *
  clear hW hV
  refine ⟨fun hle => ?_, fun hlt => ?_⟩
  · have eT : T = W / 60000000 * 60000000 := by unfold dayUs at *; omega
    have := T4 (by unfold Representable at *; omega)
    rw [show T - mm * 60000000 = x.start / 60000000 * 60000000 by omega] at this
    exact this
  · have eT : T = W / 60000000 * 60000000 + dayUs := by unfold dayUs at *; omega
    have hm : (Representable T ∧ Representable (T - mm * 60000000)) ↔ (Representable (W + dayUs) ∧ Representable (x.start + dayUs)) := by
      unfold Representable maxUs dayUs at *
      omega
    rw [hm] at T4 T5
    rw [show T - mm * 60000000 = x.start / 60000000 * 60000000 + dayUs by omega] at T4
    exact ⟨T4, T5⟩

/-- C121 as stated is false: what is shown for a time from noon to one is refused. -/
theorem readback_fails (hD : ∀ c, D.is c = true → isSpace c = false) {x now : Time} (hx : x.t.Valid) (hn : now.t.Valid)
    {tz : Option Tz} (hz : (tz.getD utc).Good) (hr : x.res < dayUs) {s : List Nat}
    (h : asHumanly x tz now .minutes = .ok s)
    (hday : wall x (tz.getD utc) / dayUs = wall now (tz.getD utc) / dayUs)
    (hnoon : wall x (tz.getD utc) % dayUs / 3600000000 = 12) :
    fromHumanly D s tz now = .error .valueError := by
  obtain ⟨-, d, n, hdv, hnv, hdu, hnu, rfl⟩ := asHumanly_ok hx hn hz h
  have hsame : sameDate d n = true := (same_day hdv hnv).2 (by rw [hdu, hnu, hday])
  have hall : isAllDay x = false := by simp only [isAllDay, beq_eq_false_iff_ne]; omega
  have etext : humanText (Precision.minutes == .seconds) (isAllDay x) d n = (clockText false d).map asciiLower := by
    unfold humanText; rw [if_pos hsame, hall]; rfl
  rw [etext]
  have hh : d.hour = 12 := by have := (tod_hour hdv).2; rw [hdu] at this; omega
  have := clock_says D hdv
  rw [hh] at this
  exact human_time_fails D hD this (framed_self _) (int_pad D 2 12) tz now

/-- … and so is what is shown for another day, for a whole day, or with seconds. -/
theorem readback_refused {x now : Time} (hx : x.t.Valid) (hn : now.t.Valid) {tz : Option Tz} (hz : (tz.getD utc).Good)
    {p : Precision} {s : List Nat} (h : asHumanly x tz now p = .ok s)
    (hc : wall x (tz.getD utc) / dayUs ≠ wall now (tz.getD utc) / dayUs ∨ x.res = dayUs ∨ p = .seconds) :
    fromHumanly D s tz now = .error .valueError := by
  obtain ⟨-, d, n, hdv, hnv, hdu, hnu, rfl⟩ := asHumanly_ok hx hn hz h
  obtain ⟨h1, h2⟩ := humanText_noMatch D (secs := p == .seconds) (allDay := isAllDay x) (n := n) hdv (by
    intro hs
    rw [same_day hdv hnv, hdu, hnu] at hs
    rcases hc with hc | hc | hc
    · exact absurd hs hc
    · left; simp [isAllDay, hc]
    · right; rw [hc]; rfl)
  exact noMatch_refused D h1 h2 tz now

/-- Shown and read at half past nine (Adelaide): ten past one in the afternoon, half past eight, a quarter past noon, and tomorrow. -/
example : let now : Time := ⟨⟨2004, 2, 28, 23, 0, 0, 0⟩, 1⟩
    let tz : Option Tz := some (fixedOffset 10 30)
    asHumanly ⟨⟨2004, 2, 29, 2, 40, 7, 0⟩, 1⟩ tz now .minutes = .ok ("01:10 pm".toList.map Char.toNat) ∧
    fromHumanly asciiDigits ("01:10 pm".toList.map Char.toNat) tz now = .ok ⟨⟨2004, 2, 29, 2, 40, 0, 0⟩, 60000000⟩ ∧
    asHumanly ⟨⟨2004, 2, 28, 22, 0, 7, 0⟩, 1⟩ tz now .minutes = .ok ("08:30 am".toList.map Char.toNat) ∧
    fromHumanly asciiDigits ("08:30 am".toList.map Char.toNat) tz now = .ok ⟨⟨2004, 2, 29, 22, 0, 0, 0⟩, 60000000⟩ ∧
    asHumanly ⟨⟨2004, 2, 29, 1, 45, 0, 0⟩, 1⟩ tz now .minutes = .ok ("12:15 pm".toList.map Char.toNat) ∧
    fromHumanly asciiDigits ("12:15 pm".toList.map Char.toNat) tz now = .error .valueError ∧
    asHumanly ⟨⟨2004, 2, 29, 13, 45, 0, 0⟩, 1⟩ tz now .minutes = .ok ("1 Mar, 12:15 am".toList.map Char.toNat) ∧
    fromHumanly asciiDigits ("1 Mar, 12:15 am".toList.map Char.toNat) tz now = .error .valueError := by
  decide +kernel

end Verif.Extime

namespace Verif.ExtimeZone
open Verif.Py
open Verif.Extime

variable (D : Digits)

theorem asHumanly_zone {z : Zone} {c : Clocks} (k : Keeps z c) {x now : Time} (hx : x.t.Valid) (hn : now.t.Valid)
    (hxr : x.res < dayUs) (hnr : now.res < dayUs) {p : Precision} {s : List Nat}
    (h : ExtimeZone.asHumanly x z now p = .ok s) : p ≠ .other ∧ ∃ d n : DT,
      d.Valid ∧ n.Valid ∧ d.toUs = shown c x.start ∧ n.toUs = shown c now.start ∧
      Representable (now.start + c.std) ∧ s = humanText (p == .seconds) false d n := by
  unfold ExtimeZone.asHumanly at h
  split at h
  · cases h
  rename_i hp
  refine ⟨hp, ?_⟩
  by_cases h1 : Representable (now.start + c.std) ∧ Representable (shown c now.start)
  · obtain ⟨n, e, v, u⟩ := (zone_shown k hn hnr).1 h1.1 h1.2
    by_cases h2 : Representable (x.start + c.std) ∧ Representable (shown c x.start)
    · obtain ⟨d, e', v', u'⟩ := (zone_shown k hx hxr).1 h2.1 h2.2
      rw [e, e'] at h
      cases h
      have hall : isAllDay x = false := by simp only [isAllDay, beq_eq_false_iff_ne]; omega
      rw [hall]
      exact ⟨d, n, v', v, u', u, h1.1, rfl⟩
    · rw [e, (zone_shown k hx hxr).2 h2] at h; cases h
  · rw [(zone_shown k hn hnr).2 h1] at h; cases h

/-- **C121.**  In a zone with daylight saving time, two times finer than a day have the same text exactly if the clocks of the place
show the same minute (second) of the same day at both. -/
theorem zone_humanly {z : Zone} {c : Clocks} (k : Keeps z c) {x y now : Time} (hx : x.t.Valid) (hy : y.t.Valid) (hn : now.t.Valid)
    (hxr : x.res < dayUs) (hyr : y.res < dayUs) (hnr : now.res < dayUs) {p : Precision} {s s' : List Nat}
    (h : ExtimeZone.asHumanly x z now p = .ok s) (h' : ExtimeZone.asHumanly y z now p = .ok s') :
    s = s' ↔ shown c x.start / p.unit = shown c y.start / p.unit := by
  obtain ⟨hp, d, n, v1, v2, u1, u2, -, rfl⟩ := asHumanly_zone k hx hn hxr hnr h
  obtain ⟨_, d', n', v1', v2', u1', u2', -, rfl⟩ := asHumanly_zone k hy hn hyr hnr h'
  obtain rfl : n = n' := DT.toUs_inj v2 v2' (by rw [u2, u2'])
  rw [← u1, ← u1', units_iff v1 v1' p hp]
  refine ⟨humanText_inj v1 v1', ?_⟩
  intro ⟨a, b, c, e, f, g⟩
  have ec : clockText (p == .seconds) d = clockText (p == .seconds) d' := by
    unfold clockText
    rw [e, f]
    cases hps : (p == .seconds) with
    | false => rfl
    | true => rw [g hps]
  unfold humanText sameDate
  rw [a, b, c, ec]

/-- **C121, partial.**  The text shown for a time on the day of `now` and not before its minute is read back as the last instant at
which the clocks show that minute.  So it is the minute of that time, unless the clocks show it once more.  Missing: the
hour from noon to one. -/
theorem zone_readback_partial (hD : ∀ c, D.is c = true → Extime.isSpace c = false) {z : Zone} {c : Clocks} (k : Keeps z c)
    (hc : ∀ w, c.summer w = c.summer (w / 60000000 * 60000000)) (hstd : c.std % 60000000 = 0) (hsave : c.save % 60000000 = 0)
    {x now : Time} (hx : x.t.Valid) (hn : now.t.Valid) (hxr : x.res < dayUs) (hnr : now.res < dayUs) {s : List Nat}
    (h : ExtimeZone.asHumanly x z now .minutes = .ok s)
    (hday : shown c x.start / dayUs = shown c now.start / dayUs)
    (hnoon : shown c x.start % dayUs / 3600000000 ≠ 12)
    (hle : shown c now.start / 60000000 ≤ shown c x.start / 60000000) :
    ((∀ i, shown c i = shown c x.start → i ≤ x.start) → ∃ y, ExtimeZone.fromHumanly D s z now = .ok y ∧ y.t.Valid ∧
      y.start = x.start / 60000000 * 60000000 ∧ y.res = 60000000) ∧
    ((∃ i, shown c i = shown c x.start ∧ x.start < i) → Representable (x.start + c.save) →
      ∃ y, ExtimeZone.fromHumanly D s z now = .ok y ∧ y.t.Valid ∧
        y.start = x.start / 60000000 * 60000000 + c.save ∧ y.res = 60000000) := by
  obtain ⟨-, d, n, hdv, hnv, hdu, hnu, hstdr, rfl⟩ := asHumanly_zone k hx hn hxr hnr h
  have hsame : sameDate d n = true := (same_day hdv hnv).2 (by rw [hdu, hnu, hday])
  have etext : humanText (Precision.minutes == .seconds) false d n = (clockText false d).map asciiLower := by
    unfold humanText; rw [if_pos hsame]; rfl
  rw [etext]
  obtain ⟨t1, t2⟩ := tod_hour hdv
  have hh : ¬ d.hour = 12 := by rw [hdu] at t2; omega
  have hread := hour_read hdv
  have h12 : ¬ ((if d.hour < 12 then Half.am else .pm) = .pm ∧
      D.int (padZero 2 (if d.hour % 12 = 0 then 12 else d.hour % 12)) = 12) := by
    rw [int_pad]
    rintro ⟨a, b⟩
    have := hdv.2.2.1
    split at a
    · cases a
    · split at b <;> omega
  have hwn : Representable (shown c now.start) := by rw [← hnu]; exact DT.toUs_range hnv
  have hwx : Representable (shown c x.start) := by rw [← hdu]; exact DT.toUs_range hdv
  obtain ⟨T, ⟨T1, T2, T3, j, T4, T5, T6, T7⟩, -⟩ := zone_time_partial D hD k hn hnr hstdr hwn (clock_says D hdv) (framed_self _)
    (by rw [int_pad]; exact hread) (by rw [int_pad]; exact hdv.2.2.2.1) h12
  rw [int_pad, t1, hdu] at T3
  have hxs := start_representable hx
  have eT : T = shown c x.start / 60000000 * 60000000 := by unfold dayUs at *; omega
  -- the clocks run evenly within a minute
  have even : ∀ i, shown c (i / 60000000 * 60000000) = shown c i / 60000000 * 60000000 := by
    intro i
    unfold shown
    rw [hc (i + c.std), show (i + c.std) / 60000000 * 60000000 = i / 60000000 * 60000000 + c.std by omega]
    split <;> omega
  have evenT : shown c (x.start / 60000000 * 60000000) = T := by rw [even, eT]
  obtain ⟨J1, J2⟩ := T6 ⟨_, evenT⟩
  have hjx := J2 _ evenT
  -- the instant which corresponds to `x` within the minute of `j`
  have hj0 : j % 60000000 = 0 := by
    have := even j
    rw [J1] at this
    have h2 := J2 (j / 60000000 * 60000000 + 0)
    by_contra hne
    unfold shown at J1
    split at J1 <;> omega
  have hjs : shown c (j + x.start % 60000000) = shown c x.start := by
    have e1 : shown c (j + x.start % 60000000) / 60000000 * 60000000 = T := by
      rw [← even, show (j + x.start % 60000000) / 60000000 * 60000000 = j by omega, J1]
    have m1 : shown c (j + x.start % 60000000) % 60000000 = x.start % 60000000 := by unfold shown; split <;> omega
    have m2 : shown c x.start % 60000000 = x.start % 60000000 := by unfold shown; split <;> omega
    omega
  have hT : Representable T := by unfold Representable at *; omega
  refine ⟨fun hlast => ?_, fun ⟨i, hi, hlt⟩ hrep => ?_⟩
  · have := hlast _ hjs
    have ej : j = x.start / 60000000 * 60000000 := by omega
    have := T4 ⟨hT, by unfold Representable at *; omega⟩
    rw [ej] at this
    exact this
  · have hji : j = i / 60000000 * 60000000 ∨ i / 60000000 * 60000000 < j := by
      have := J2 (i / 60000000 * 60000000) (by rw [even, hi, eT])
      omega
    have mi : i % 60000000 = x.start % 60000000 := by
      have m1 : shown c i % 60000000 = i % 60000000 := by unfold shown; split <;> omega
      have m2 : shown c x.start % 60000000 = x.start % 60000000 := by unfold shown; split <;> omega
      rw [hi] at m1; omega
    have ej : j = x.start / 60000000 * 60000000 + c.save := by
      have hlt' : x.start / 60000000 * 60000000 < j := by omega
      have e1 := J1
      have e2 := evenT
      have := k.pos
      unfold shown at e1 e2
      split at e1 <;> split at e2 <;> omega
    have := T4 ⟨hT, by unfold Representable maxUs at *; omega⟩
    rw [ej] at this
    exact this

/-- **C121.**  Refused as in other zones: what is shown for another day or with seconds… -/
theorem zone_readback_refused {z : Zone} {c : Clocks} (k : Keeps z c) {x now : Time} (hx : x.t.Valid) (hn : now.t.Valid)
    (hxr : x.res < dayUs) (hnr : now.res < dayUs) {p : Precision} {s : List Nat} (h : ExtimeZone.asHumanly x z now p = .ok s)
    (hc : shown c x.start / dayUs ≠ shown c now.start / dayUs ∨ p = .seconds) :
    ExtimeZone.fromHumanly D s z now = .error .valueError := by
  obtain ⟨-, d, n, hdv, hnv, hdu, hnu, -, rfl⟩ := asHumanly_zone k hx hn hxr hnr h
  obtain ⟨h1, h2⟩ := humanText_noMatch D (secs := p == .seconds) (allDay := false) (n := n) hdv (by
    intro hs
    rw [same_day hdv hnv, hdu, hnu] at hs
    rcases hc with hc | hc
    · exact absurd hs hc
    · right; rw [hc]; rfl)
  exact noMatch_refused_zone D h1 h2 z now

/-- In New York, at one o'clock in the night of 30 October 2005, half past one comes twice.  Both have the same text, and it is read
as the second. -/
theorem zone_readback_fails :
    let now : Time := ⟨⟨2005, 10, 30, 5, 0, 0, 0⟩, 1⟩
    ExtimeZone.asHumanly ⟨⟨2005, 10, 30, 5, 30, 0, 0⟩, 1⟩ newYork.zone now .minutes = .ok ("01:30 am".toList.map Char.toNat) ∧
    ExtimeZone.asHumanly ⟨⟨2005, 10, 30, 6, 30, 0, 0⟩, 1⟩ newYork.zone now .minutes = .ok ("01:30 am".toList.map Char.toNat) ∧
    ExtimeZone.fromHumanly Extime.asciiDigits ("01:30 am".toList.map Char.toNat) newYork.zone now =
      .ok ⟨⟨2005, 10, 30, 6, 30, 0, 0⟩, 60000000⟩ := by
  decide +kernel

/-- The clocks of New York change on whole minutes; shown and read there in July. -/
example : (∀ w, newYork.summer w = newYork.summer (w / 60000000 * 60000000)) ∧ newYork.std % 60000000 = 0 ∧
    newYork.save % 60000000 = 0 ∧
    (let now : Time := ⟨⟨2005, 7, 4, 12, 0, 0, 0⟩, 1⟩
     ExtimeZone.asHumanly ⟨⟨2005, 7, 4, 17, 30, 5, 0⟩, 1⟩ newYork.zone now .minutes = .ok ("01:30 pm".toList.map Char.toNat) ∧
     ExtimeZone.fromHumanly Extime.asciiDigits ("01:30 pm".toList.map Char.toNat) newYork.zone now =
      .ok ⟨⟨2005, 7, 4, 17, 30, 0, 0⟩, 60000000⟩) := by
  have e1 : DT.toUs ⟨2005, 4, 3, 2, 0, 0, 0⟩ = 63248090400000000 := by decide
  have e2 : DT.toUs ⟨2005, 10, 30, 1, 0, 0, 0⟩ = 63266230800000000 := by decide
  refine ⟨fun w => ?_, by decide, by decide, by decide +kernel⟩
  rw [Bool.eq_iff_iff]
  simp only [newYork, e1, e2, Bool.and_eq_true, decide_eq_true_eq]
  omega

end Verif.ExtimeZone
