import Verif.Lemmas.ExtimeIsoSem
/-!
# Printing ISO 8601 strings

What `asISO8601TimeAndDate` prints is a string of the grammar of `Lemmas/ExtimeIso`.
-/
namespace Verif.Extime
open Verif.Py

section
variable (D : Digits)

/-! ## Digits -/

theorem isDigit_is {c : Nat} (h : isDigit c = true) : D.is c = true := by
  unfold isDigit at h
  simp at h
  unfold Digits.is
  rw [D.ascii c (by omega), if_pos (by omega)]; rfl

theorem int_ascii {s : List Nat} (h : ∀ c ∈ s, isDigit c = true) : D.int s = digitsVal s := by
  unfold Digits.int digitsVal
  congr 1
  apply List.map_congr_left
  intro c hc
  have := h c hc
  unfold isDigit at this
  simp at this
  rw [D.ascii c (by omega), if_pos (by omega)]; rfl

theorem isDig_pad {w n : Nat} (hw : 0 < w) (h : n < 10 ^ w) : IsDig D w (padZero w n) :=
  ⟨padZero_length w n hw h, fun c hc => isDigit_is D (padZero_isDigit w n c hc)⟩

theorem int_pad (w n : Nat) : D.int (padZero w n) = n := by
  rw [int_ascii D (padZero_isDigit w n), digitsVal_padZero]

/-! ## Trailing zeros -/

theorem rstrip0_spec (s : List Nat) : ∃ k, s = rstrip0 s ++ List.replicate k 48 := by
  refine ⟨(s.reverse.takeWhile (· == 48)).length, ?_⟩
  have h : s.reverse.takeWhile (· == 48) = List.replicate (s.reverse.takeWhile (· == 48)).length 48 := by
    apply List.eq_replicate_of_mem
    intro c hc
    have := List.all_takeWhile (p := (· == 48)) (l := s.reverse)
    rw [List.all_eq_true] at this
    simpa using this c hc
  have h2 := List.takeWhile_append_dropWhile (p := (· == 48)) (l := s.reverse)
  have h3 := congrArg List.reverse h2
  rw [List.reverse_append, List.reverse_reverse] at h3
  unfold rstrip0
  rw [h, List.reverse_replicate] at h3
  exact h3.symm

theorem rstrip0_mem {s : List Nat} {c : Nat} (h : c ∈ rstrip0 s) : c ∈ s := by
  obtain ⟨k, hk⟩ := rstrip0_spec s
  rw [hk]; exact List.mem_append_left _ h

theorem digitsVal_append_zeros (s : List Nat) (k : Nat) : digitsVal (s ++ List.replicate k 48) = digitsVal s * 10 ^ k := by
  unfold digitsVal
  rw [List.map_append, List.map_replicate, ofDigits_append]
  have : ofDigits 10 (List.replicate k (48 - 48)) = 0 := by
    induction k with
    | zero => rfl
    | succ k ih =>
      rw [List.replicate_succ]
      have := ofDigits_append 10 [48 - 48] (List.replicate k (48 - 48))
      rw [List.singleton_append] at this
      rw [this, ih]
      simp [ofDigits]
  rw [this]
  simp

/-- The fraction printed for `us` microseconds. -/
theorem frac_printed {us : Nat} (h : us < 1000000) :
    (∀ c ∈ rstrip0 (padZero 6 us), D.is c = true) ∧ (rstrip0 (padZero 6 us)).length ≤ 6 ∧
    fracUs D (rstrip0 (padZero 6 us)) = us ∧ (rstrip0 (padZero 6 us) = [] ↔ us = 0) ∧
    us % 10 ^ (6 - (rstrip0 (padZero 6 us)).length) = 0 := by
  obtain ⟨k, hk⟩ := rstrip0_spec (padZero 6 us)
  have hd : ∀ c ∈ rstrip0 (padZero 6 us), isDigit c = true := fun c hc => padZero_isDigit 6 us c (rstrip0_mem hc)
  have hlen : (rstrip0 (padZero 6 us)).length + k = 6 := by
    have := congrArg List.length hk
    rw [padZero_length 6 us (by omega) (by omega)] at this
    simpa using this.symm
  have hval : us = digitsVal (rstrip0 (padZero 6 us)) * 10 ^ k := by
    have := congrArg digitsVal hk
    rwa [digitsVal_append_zeros, digitsVal_padZero] at this
  refine ⟨fun c hc => isDigit_is D (hd c hc), by omega, ?_, ?_, ?_⟩
  · unfold fracUs Digits.float
    rw [int_ascii D hd]
    generalize (rstrip0 (padZero 6 us)).length = l at *
    generalize hv : digitsVal (rstrip0 (padZero 6 us)) = v at *
    have hq : (v : Rat) / 10 ^ l * 1000000 = us := by
      have e : (1000000 : Rat) = 10 ^ l * 10 ^ k := by
        rw [← pow_add, hlen]; norm_num
      rw [e, hval]
      push_cast
      field_simp
    apply frac_round
    · positivity
    · have : (us : Rat) < 1000000 := by exact_mod_cast h
      linarith
    · rw [hq]; push_cast; simp
  · constructor
    · intro he; rw [he] at hval
      simpa [digitsVal, ofDigits] using hval
    · intro h0
      subst h0
      decide
  · have : 6 - (rstrip0 (padZero 6 us)).length = k := by omega
    rw [this]
    rw [hval]
    exact Nat.mul_mod_left _ _

/-! ## Offsets -/

theorem signHrMin_spec {z : Tz} (hz : z.Good) : signHrMin (z.minutes * 60000000) =
    (decide (z.minutes < 0), z.minutes.natAbs / 60, z.minutes.natAbs % 60) := by
  unfold Tz.Good at hz
  have h1 : fdiv ((z.minutes * 60000000 : Int) : Rat) 60000000 = z.minutes := by
    unfold fdiv
    have : ((z.minutes * 60000000 : Int) : Rat) / 60000000 = ((z.minutes : Int) : Rat) := by
      push_cast; field_simp
    rw [this, roundF_int]
    rw [abs_lt]; constructor <;> omega
  unfold signHrMin
  simp only
  rw [h1, rhe_int]
  by_cases h : z.minutes < 0
  · have : (-z.minutes).toNat = z.minutes.natAbs := by omega
    simp [h, this]
  · have : z.minutes.toNat = z.minutes.natAbs := by omega
    simp [h, this]

/-! ## The syntax printed -/

/-- The zone printed. -/
def zoneOf (delims : Bool) (tz : Option Tz) (incl : Bool) : Zone :=
  if incl then
    match tz with
    | none => .hourMin false [48, 48] delims [48, 48]
    | some z => .hourMin (decide (z.minutes < 0)) (padZero 2 (z.minutes.natAbs / 60)) delims
        (padZero 2 (z.minutes.natAbs % 60))
  else .unstated

/-- What is printed for a `Time` of resolution `res` whose local time is `l`. -/
def restOf (res : Int) (l : DT) (b : Bool) (z : Zone) : Rest :=
  let date := FullDate.ymd b (padZero 2 l.month) b (padZero 2 l.day)
  let h := padZero 2 l.hour
  let m := padZero 2 l.minute
  let s := padZero 2 l.second
  if res ≤ 1 then
    .time date (if l.us = 0 then .hms h b m b s else .frac h b m b s false (rstrip0 (padZero 6 l.us))) z
  else if res ≤ 1000000 then .time date (.hms h b m b s) z
  else if res ≤ 60000000 then .time date (.hm h b m) z
  else if res ≤ 3600000000 then .time date (.hh h) z
  else if res ≤ dayUs then .day date
  else if res ≤ 31 * dayUs then .month b (padZero 2 l.month)
  else .nothing

def isoOf (res : Int) (l : DT) (b : Bool) (z : Zone) : Iso := ⟨padZero 4 l.year, restOf res l b z⟩

theorem restOf_wf (res : Int) {l : DT} (hl : l.Valid) (b : Bool) {z : Zone} (hz : z.WF D) :
    (isoOf res l b z).WF D := by
  obtain ⟨⟨a1, a2, a3, a4, a5⟩, a6, a7, a8, a9, a10⟩ := hl
  have hd31 : l.day < 100 := by
    unfold daysInMonth at a5
    have : monthLen (isLeap l.year) l.month ≤ 31 := by
      generalize l.month = m at *
      cases isLeap l.year <;> interval_cases m <;> decide
    omega
  have p (n : Nat) (h : n < 100) : IsDig D 2 (padZero 2 n) := isDig_pad D (by omega) (by omega)
  refine ⟨isDig_pad D (by omega) (by omega), ?_⟩
  have hdate : FullDate.WF D (.ymd b (padZero 2 l.month) b (padZero 2 l.day)) := ⟨p _ (by omega), p _ hd31⟩
  have ph := p l.hour (by omega)
  have pm := p l.minute (by omega)
  have ps := p l.second (by omega)
  have pf := frac_printed D a10
  unfold isoOf restOf
  simp only
  split
  · refine ⟨hdate, ?_, hz⟩
    split
    · exact ⟨ph, pm, ps⟩
    · rename_i h0
      exact ⟨ph, pm, ps, fun h => h0 (pf.2.2.2.1.1 h), pf.1⟩
  split
  · exact ⟨hdate, ⟨ph, pm, ps⟩, hz⟩
  split
  · exact ⟨hdate, ⟨ph, pm⟩, hz⟩
  split
  · exact ⟨hdate, ph, hz⟩
  split
  · exact hdate
  split
  · exact p _ (by omega)
  · exact trivial

theorem zoneOf_wf (b : Bool) {tz : Option Tz} (hz : ∀ z, tz = some z → z.Good) (incl : Bool) :
    (zoneOf b tz incl).WF D := by
  unfold zoneOf
  split
  · split
    · exact ⟨isDig_pad D (n := 0) (by omega) (by omega), isDig_pad D (n := 0) (by omega) (by omega)⟩
    · rename_i z
      have := hz z rfl
      unfold Tz.Good at this
      exact ⟨isDig_pad D (by omega) (by omega), isDig_pad D (by omega) (by omega)⟩
  · exact trivial

include D in
/-- The string printed, once the local time is known. -/
theorem asIso_render {x : Time} {b incl : Bool} {tz : Option Tz} (hz : ∀ z, tz = some z → z.Good) {a : ADT}
    (ha : asDatetime x (if x.res < dayUs then tz else none) = .ok a) (hv : a.dt.Valid) :
    asIso x b tz incl = .ok (if x.res ≤ 366 * dayUs then (isoOf x.res a.dt b (zoneOf b tz incl)).render else []) := by
  have hsep : (if b = true then [45] else []) = sep 45 b ∧ (if b = true then [58] else []) = sep 58 b := ⟨rfl, rfl⟩
  have hus : rstrip0 (padZero 6 a.dt.us) = [] ↔ a.dt.us = 0 := (frac_printed D hv.2.2.2.2.2).2.2.2.1
  have htz : (if (!isTimezoneDependent x) = true then none else tz) = if x.res < dayUs then tz else none := by
    unfold isTimezoneDependent
    by_cases h : x.res < dayUs <;> simp [h]
  have hzone : x.res < dayUs →
      timezoneText (sep 58 b) (if x.res < dayUs then tz else none) incl = (zoneOf b tz incl).render := by
    intro h
    rw [if_pos h]
    unfold zoneOf timezoneText
    cases incl with
    | false => rfl
    | true =>
      cases tz with
      | none => simp [Zone.render]
      | some z =>
        simp only [if_true]
        rw [signHrMin_spec (hz z rfl)]
        simp [Zone.render]
  unfold asIso
  simp only [htz, ha, hsep.1, hsep.2]
  congr 1
  unfold isoOf restOf dayUs at *
  simp only
  by_cases c1 : x.res ≤ 1
  · have d2 : x.res ≤ 1000000 := by omega
    have d3 : x.res ≤ 60000000 := by omega
    have d4 : x.res ≤ 3600000000 := by omega
    have d5 : x.res ≤ 86400000000 := by omega
    have d6 : x.res ≤ 31 * 86400000000 := by omega
    have d7 : x.res ≤ 366 * 86400000000 := by omega
    have hzone := hzone (by omega)
    simp only [List.filter, c1, d2, d3, d4, d5, d6, d7, decide_true, if_true, List.flatMap_cons, List.flatMap_nil]
    by_cases h0 : a.dt.us = 0
    · have := hus.2 h0
      rw [this, if_neg (by simp), if_pos h0]
      rw [hzone]
      simp [Iso.render, Rest.render, FullDate.render, Clock.render]
    · have : rstrip0 (padZero 6 a.dt.us) ≠ [] := fun h => h0 (hus.1 h)
      simp only [ne_eq, this, not_false_eq_true, if_true, h0, if_false]
      rw [hzone]
      simp [Iso.render, Rest.render, FullDate.render, Clock.render]
  by_cases c2 : x.res ≤ 1000000
  · have d3 : x.res ≤ 60000000 := by omega
    have d4 : x.res ≤ 3600000000 := by omega
    have d5 : x.res ≤ 86400000000 := by omega
    have d6 : x.res ≤ 31 * 86400000000 := by omega
    have d7 : x.res ≤ 366 * 86400000000 := by omega
    have hzone := hzone (by omega)
    simp only [List.filter, c1, c2, d3, d4, d5, d6, d7, decide_true, decide_false, if_true, if_false, List.flatMap_cons,
      List.flatMap_nil]
    rw [hzone]
    simp [Iso.render, Rest.render, FullDate.render, Clock.render]
  by_cases c3 : x.res ≤ 60000000
  · have d4 : x.res ≤ 3600000000 := by omega
    have d5 : x.res ≤ 86400000000 := by omega
    have d6 : x.res ≤ 31 * 86400000000 := by omega
    have d7 : x.res ≤ 366 * 86400000000 := by omega
    have hzone := hzone (by omega)
    simp only [List.filter, c1, c2, c3, d4, d5, d6, d7, decide_true, decide_false, if_true, if_false, List.flatMap_cons,
      List.flatMap_nil]
    rw [hzone]
    simp [Iso.render, Rest.render, FullDate.render, Clock.render]
  by_cases c4 : x.res ≤ 3600000000
  · have d5 : x.res ≤ 86400000000 := by omega
    have d6 : x.res ≤ 31 * 86400000000 := by omega
    have d7 : x.res ≤ 366 * 86400000000 := by omega
    have hzone := hzone (by omega)
    simp only [List.filter, c1, c2, c3, c4, d5, d6, d7, decide_true, decide_false, if_true, if_false, List.flatMap_cons,
      List.flatMap_nil]
    rw [hzone]
    simp [Iso.render, Rest.render, FullDate.render, Clock.render]
  by_cases c5 : x.res ≤ 86400000000
  · have d6 : x.res ≤ 31 * 86400000000 := by omega
    have d7 : x.res ≤ 366 * 86400000000 := by omega
    simp only [List.filter, c1, c2, c3, c4, c5, d6, d7, decide_true, decide_false, if_true, if_false, List.flatMap_cons,
      List.flatMap_nil]
    simp [Iso.render, Rest.render, FullDate.render]
  by_cases c6 : x.res ≤ 31 * 86400000000
  · have d7 : x.res ≤ 366 * 86400000000 := by omega
    simp only [List.filter, c1, c2, c3, c4, c5, c6, d7, decide_true, decide_false, if_true, if_false, List.flatMap_cons,
      List.flatMap_nil]
    simp [Iso.render, Rest.render]
  by_cases c7 : x.res ≤ 366 * 86400000000
  · simp only [List.filter, c1, c2, c3, c4, c5, c6, c7, decide_true, decide_false, if_true, if_false, List.flatMap_cons,
      List.flatMap_nil]
    simp [Iso.render, Rest.render]
  · simp only [List.filter, c1, c2, c3, c4, c5, c6, c7, decide_false, if_false, List.flatMap_nil]

/-! ## Meaning of what is printed -/

/-- The beginning of the period of the printed precision that contains the local time `l`. -/
def periodStart (res : Int) (l : DT) : Int :=
  if res ≤ 1 then l.toUs
  else if res ≤ 1000000 then l.toUs / 1000000 * 1000000
  else if res ≤ 60000000 then l.toUs / 60000000 * 60000000
  else if res ≤ 3600000000 then l.toUs / 3600000000 * 3600000000
  else if res ≤ dayUs then l.toUs / dayUs * dayUs
  else if res ≤ 31 * dayUs then DT.toUs ⟨l.year, l.month, 1, 0, 0, 0, 0⟩
  else DT.toUs ⟨l.year, 1, 1, 0, 0, 0, 0⟩

theorem restOf_means (res : Int) {l : DT} (hl : l.Valid) (b : Bool) (z : Zone) :
    (restOf res l b z).ClockOK D ∧ ∃ N : Nat, (restOf res l b z).Names D l.year N ∧ N ≤ 3652059 ∧
      ((N : Int) - 1) * dayUs + (restOf res l b z).since D = periodStart res l := by
  have hl' := hl
  obtain ⟨⟨a1, a2, a3, a4, a5⟩, a6, a7, a8, a9, a10⟩ := hl
  have hord : l.ord ≤ 3652059 := by
    have := (DT.toUs_range hl').2
    unfold DT.toUs maxUs at this
    omega
  have hord1 : 1 ≤ l.ord := ymd2ord_pos hl'.1
  have hf := (frac_printed D a10).2.2.1
  have hname : FullDate.Names D l.year l.ord (.ymd b (padZero 2 l.month) b (padZero 2 l.day)) := by
    simp only [FullDate.Names, int_pad]
    exact ⟨hl'.1, rfl⟩
  have hle : ∀ m d, 1 ≤ m → m ≤ l.month → (m < l.month ∨ d ≤ l.day) → 1 ≤ d → d ≤ monthLen (isLeap l.year) m →
      ymd2ord l.year m d ≤ l.ord := by
    intro m d h1 h2 h3 h4 h5
    unfold DT.ord ymd2ord
    by_cases e : m < l.month
    · have := beforeMonth_mono (isLeap l.year) m l.month h1 e a3; omega
    · have : m = l.month := by omega
      subst this; omega
  have hlen1 : ∀ m, 1 ≤ m → m ≤ 12 → 1 ≤ monthLen (isLeap l.year) m := by
    intro m h1 h2; cases isLeap l.year <;> interval_cases m <;> decide
  unfold restOf periodStart
  simp only
  by_cases c1 : res ≤ 1
  · simp only [c1, if_true]
    by_cases h0 : l.us = 0
    · rw [if_pos h0]
      refine ⟨?_, l.ord, hname, hord, ?_⟩
      · simp only [Rest.ClockOK, Clock.OK, int_pad]; omega
      · simp only [Rest.since, Clock.since, int_pad]; unfold DT.toUs dayUs; push_cast; omega
    · rw [if_neg h0]
      refine ⟨?_, l.ord, hname, hord, ?_⟩
      · simp only [Rest.ClockOK, Clock.OK, int_pad, hf]; omega
      · simp only [Rest.since, Clock.since, int_pad, hf]; unfold DT.toUs dayUs; push_cast; omega
  by_cases c2 : res ≤ 1000000
  · simp only [c1, c2, if_true, if_false]
    refine ⟨?_, l.ord, hname, hord, ?_⟩
    · simp only [Rest.ClockOK, Clock.OK, int_pad]; omega
    · simp only [Rest.since, Clock.since, int_pad]; unfold DT.toUs dayUs; push_cast; omega
  by_cases c3 : res ≤ 60000000
  · simp only [c1, c2, c3, if_true, if_false]
    refine ⟨?_, l.ord, hname, hord, ?_⟩
    · simp only [Rest.ClockOK, Clock.OK, int_pad]; omega
    · simp only [Rest.since, Clock.since, int_pad]; unfold DT.toUs dayUs; push_cast; omega
  by_cases c4 : res ≤ 3600000000
  · simp only [c1, c2, c3, c4, if_true, if_false]
    refine ⟨?_, l.ord, hname, hord, ?_⟩
    · simp only [Rest.ClockOK, Clock.OK, int_pad]; omega
    · simp only [Rest.since, Clock.since, int_pad]; unfold DT.toUs dayUs; push_cast; omega
  by_cases c5 : res ≤ dayUs
  · simp only [c1, c2, c3, c4, c5, if_true, if_false]
    refine ⟨trivial, l.ord, hname, hord, ?_⟩
    simp only [Rest.since]; unfold DT.toUs dayUs; push_cast; omega
  by_cases c6 : res ≤ 31 * dayUs
  · simp only [c1, c2, c3, c4, c5, c6, if_true, if_false]
    refine ⟨trivial, ymd2ord l.year l.month 1, ?_, ?_, ?_⟩
    · simp only [Rest.Names, int_pad]; exact ⟨a2, a3, trivial⟩
    · have := hle l.month 1 a2 (le_refl _) (Or.inr a4) (le_refl _) (hlen1 _ a2 a3); omega
    · simp only [Rest.since]; unfold DT.toUs DT.ord dayUs; simp
  · simp only [c1, c2, c3, c4, c5, c6, if_false]
    refine ⟨trivial, ymd2ord l.year 1 1, rfl, ?_, ?_⟩
    · have := hle 1 1 (le_refl _) a2 (Or.inr a4) (le_refl _) (hlen1 _ (le_refl _) (by omega)); omega
    · simp only [Rest.since]; unfold DT.toUs DT.ord dayUs; simp

/-- The offset read back: the minutes are always added. -/
def readBack (incl : Bool) : Option Tz → Tz
  | none => ⟨0⟩
  | some z => if incl = true ∧ z.minutes < 0 then ⟨z.minutes + 2 * ((z.minutes.natAbs % 60 : Nat) : Int)⟩ else z

theorem zoneOf_read (b : Bool) (tz : Option Tz) (incl : Bool) (tzp : Option Tz)
    (hp : incl = false → tzp = tz) : (zoneOf b tz incl).read D tzp = readBack incl tz := by
  unfold zoneOf
  cases incl with
  | false =>
    rw [hp rfl]
    cases tz with
    | none => rfl
    | some z => simp [Zone.read, readBack]
  | true =>
    cases tz with
    | none =>
      have h : D.int [48, 48] = 0 := int_pad D 2 0
      simp [Zone.read, readBack, h]
    | some z =>
      obtain ⟨m⟩ := z
      simp only [if_true, Zone.read, int_pad, readBack, true_and]
      by_cases h : m < 0
      · simp only [h, decide_true, if_true, Tz.mk.injEq]; omega
      · simp only [h, decide_false, Bool.false_eq_true, if_false, Tz.mk.injEq]; omega

end

end Verif.Extime
