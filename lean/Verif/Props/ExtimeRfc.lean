import Verif.Lemmas.ExtimeRfc
import Verif.Props.ExtimeIso
/-!
# C17: RFC 2822 dates

`RfcText` (in `Lemmas/ExtimeRfc`) is the written form of a date; `Spaced` says that a text consists of its tokens and
whitespace.
-/
namespace Verif.Extime
open Verif.Py

/-- The text names the local time `t`: years below 100 are abbreviations for 1969 to 2068. -/
structure RfcText.Names (r : RfcText) (t : DT) : Prop where
  year : (digitsVal r.yy < 69 → t.year = 2000 + digitsVal r.yy) ∧
    (69 ≤ digitsVal r.yy → digitsVal r.yy < 100 → t.year = 1900 + digitsVal r.yy) ∧
    (100 ≤ digitsVal r.yy → t.year = digitsVal r.yy)
  month : t.month = r.month
  day : t.day = digitsVal r.dd
  hour : t.hour = digitsVal r.hh
  minute : t.minute = digitsVal r.mi
  second : t.second = r.second
  us : t.us = 0

theorem fromStructTime_take {s s' : List Int} (h : s.take 6 = s'.take 6) (tz : Option Tz) :
    fromStructTime s tz = fromStructTime s' tz := by
  unfold fromStructTime; rw [h]

theorem sanitize_valid {t : DT} (ht : t.Valid) (l : List Int) :
    sanitizeStructTime ([(t.year : Int), t.month, t.day, t.hour, t.minute, t.second] ++ l) =
      [(t.year : Int), t.month, t.day, t.hour, t.minute, t.second] ++ l := by
  obtain ⟨⟨a1, a2, a3, a4, a5⟩, a6, a7, a8, a9, a10⟩ := ht
  have hd : t.day ≤ 31 := by
    unfold daysInMonth at a5
    have : monthLen (isLeap t.year) t.month ≤ 31 := by
      unfold monthLen; split <;> (try split) <;> omega
    omega
  unfold sanitizeStructTime
  simp only [List.cons_append, List.nil_append, List.take_succ_cons, List.take_zero, List.drop_succ_cons, List.drop_zero,
    List.zip_cons_cons, List.zip_nil_left, List.map_cons, List.map_nil, List.cons.injEq, and_true]
  omega

theorem mk?_fields {t : DT} (ht : t.Valid) : ∃ d, DT.mk? t.year t.month t.day t.hour t.minute t.second 0 = .ok d := by
  have hv : (⟨t.year, t.month, t.day, t.hour, t.minute, t.second, 0⟩ : DT).Valid := by
    obtain ⟨h1, h2, h3, h4, h5, h6⟩ := ht
    exact ⟨h1, h2, h3, h4, h5, by simp⟩
  have hm := DT.mk?_ok (y := t.year) (m := t.month) (d := t.day) (h := t.hour) (mi := t.minute) (s := t.second) (us := 0)
  rw [if_pos hv] at hm
  exact ⟨_, hm⟩

/-- From the numbers of a well-formed date to the instant it denotes. -/
theorem rfc_parse_numbers {r : RfcText} {s : List Nat} (hp : parsedateTz s = some [fullYear (digitsVal r.yy), r.month,
      digitsVal r.dd, digitsVal r.hh, digitsVal r.mi, r.second, 0, 1, -1, r.minutes * 60]) {t : DT} (ht : t.Valid)
    (hn : r.Names t) :
    (|r.minutes| < 1440 → Representable (t.toUs - r.minutes * 60000000) →
      ∃ y, fromRFC2822 s = .ok y ∧ y.t.Valid ∧ y.start = t.toUs - r.minutes * 60000000 ∧ y.res = 1000000) ∧
    (|r.minutes| < 1440 → ¬ Representable (t.toUs - r.minutes * 60000000) → fromRFC2822 s = .error .overflowError) ∧
    (1440 ≤ |r.minutes| → ∃ e, fromRFC2822 s = .error e ∧ (e = .valueError ∨ e = .overflowError)) := by
  have hy : fullYear (digitsVal r.yy) = t.year := by
    obtain ⟨h1, h2, h3⟩ := hn.year
    unfold fullYear
    split
    · split <;> omega
    · omega
  rw [hy, ← hn.month, ← hn.day, ← hn.hour, ← hn.minute, ← hn.second] at hp
  have hsan := sanitize_valid ht [0, 1, -1, r.minutes * 60]
  simp only [List.cons_append, List.nil_append] at hsan
  have hdiv : r.minutes * 60 / 60 = r.minutes := by omega
  have htt := fun z => fromStructTime_take (s := [(t.year : Int), t.month, t.day, t.hour, t.minute, t.second, 0, 1, -1,
    r.minutes * 60]) (s' := timetuple t) (by unfold timetuple; rfl) (some z)
  unfold fromRFC2822
  rw [hp]
  simp only
  rw [hsan]
  simp only [List.getLastD_cons, List.getLastD_nil]
  rw [hdiv]
  have hinst : ADT.instant ⟨t, some ⟨r.minutes⟩⟩ = t.toUs - r.minutes * 60000000 := rfl
  have hwhole : wholeSecond (t.toUs - r.minutes * 60000000) = t.toUs - r.minutes * 60000000 := by
    unfold wholeSecond DT.toUs
    rw [hn.us]
    push_cast
    omega
  have hzf : fixedOffset 0 r.minutes = ⟨r.minutes⟩ := by unfold fixedOffset; simp
  refine ⟨fun hz hr => ?_, fun hz hr => ?_, fun hz => ?_⟩
  · rw [abs_lt] at hz
    have hgood : ∀ z, some (⟨r.minutes⟩ : Tz) = some z → z.Good := by rintro z ⟨⟩; exact hz
    unfold fixedOffsetChecked
    rw [if_pos (by omega), hzf]
    simp only
    rw [htt]
    obtain ⟨y, e, v, st, rs⟩ := (fromStructTime_timetuple ht (some ⟨r.minutes⟩) hgood).1 (by rw [hinst, hwhole]; exact hr)
    rw [e]
    exact ⟨_, rfl, v, by rw [hinst, hwhole] at st; exact st, rfl⟩
  · rw [abs_lt] at hz
    have hgood : ∀ z, some (⟨r.minutes⟩ : Tz) = some z → z.Good := by rintro z ⟨⟩; exact hz
    unfold fixedOffsetChecked
    rw [if_pos (by omega), hzf]
    simp only
    rw [htt, (fromStructTime_timetuple ht (some ⟨r.minutes⟩) hgood).2 (by rw [hinst, hwhole]; exact hr)]
  · unfold fixedOffsetChecked
    by_cases hc : -999999999 * 1440 ≤ r.minutes ∧ r.minutes < 1000000000 * 1440
    · rw [if_pos hc, hzf]
      refine ⟨.valueError, ?_, Or.inl rfl⟩
      simp only
      rw [htt]
      have hoff : (⟨r.minutes⟩ : Tz).offset = .error .valueError := by
        unfold Tz.offset
        rw [if_neg]
        intro hh
        rw [le_abs] at hz
        simp only at hh
        omega
      obtain ⟨x, hx⟩ := mk?_fields ht
      unfold fromStructTime
      simp only [timetuple, List.take_succ_cons, List.take_zero]
      rw [hx]
      simp only [fromDatetime, astimezone, hoff]
    · rw [if_neg hc]
      exact ⟨_, rfl, Or.inr rfl⟩

/-- What `fromRFC2822` makes of a well-formed date: the instant it denotes. -/
theorem rfc_parse {r : RfcText} (h : r.OK) {s : List Nat} (hs : Spaced r.tokens s) {t : DT} (ht : t.Valid)
    (hn : r.Names t) :
    (|r.minutes| < 1440 → Representable (t.toUs - r.minutes * 60000000) →
      ∃ y, fromRFC2822 s = .ok y ∧ y.t.Valid ∧ y.start = t.toUs - r.minutes * 60000000 ∧ y.res = 1000000) ∧
    (|r.minutes| < 1440 → ¬ Representable (t.toUs - r.minutes * 60000000) → fromRFC2822 s = .error .overflowError) ∧
    (1440 ≤ |r.minutes| → ∃ e, fromRFC2822 s = .error e ∧ (e = .valueError ∨ e = .overflowError)) :=
  rfc_parse_numbers (parsedateTz_spec h hs) ht hn

/-- The tokens of a date with another text `z` for the zone. -/
def RfcText.tokensZone (r : RfcText) (z : List Nat) : List (List Nat) :=
  (match r.dayName with | none => [] | some n => [n ++ [44]]) ++ [r.dd, r.mon, r.yy, joinSep [58] r.clock, z]

/-- The tokens of a date in the style of RFC 850: `Monday,`, `02-Jan-06`, `15:04:05`, zone. -/
def RfcText.tokens850 (r : RfcText) (day z : List Nat) : List (List Nat) :=
  [day ++ [44], joinSep [45] [r.dd, r.mon, r.yy], joinSep [58] r.clock, z]

/-- The zones of RFC 822, in minutes. -/
def rfc822Zones : List (String × Int) :=
  [("UT", 0), ("UTC", 0), ("GMT", 0), ("Z", 0), ("AST", -240), ("ADT", -180), ("EST", -300), ("EDT", -240), ("CST", -360), ("CDT", -300), ("MST", -420), ("MDT", -360), ("PST", -480), ("PDT", -420)]

/-- What the text of a zone means, in minutes: a name of RFC 822 in any case, nothing (that is, UTC) for any other text that is
no number, or a number of hours and minutes. -/
inductive ZoneMeans : List Nat → Int → Prop
  | named {z : List Nat} {n : String} {m : Int} : (n, m) ∈ rfc822Zones → z.map asciiUpper = n.toList.map Char.toNat → ZoneMeans z m
  | unknown {z : List Nat} : (∀ p ∈ rfc822Zones, z.map asciiUpper ≠ p.1.toList.map Char.toNat) →
      asciiInt (z.map asciiUpper) = none → ZoneMeans z 0
  | number {r : RfcText} : r.OK → ZoneMeans ((if r.neg then 45 else 43) :: (r.zh ++ r.zm)) r.minutes

theorem zoneSeconds_means {z : List Nat} {m : Int} (h : ZoneMeans z m) : zoneSeconds z = m * 60 := by
  cases h with
  | @named _ n _ hm hz =>
    have key : ∀ p ∈ rfc822Zones, zoneNames.find? (fun q => q.1 == p.1.toList.map Char.toNat) =
        some (p.1.toList.map Char.toNat, (if p.2 < 0 then -((-p.2) / 60 * 100 + (-p.2) % 60) else p.2 / 60 * 100 + p.2 % 60)) ∧
        p.2 ≤ 0 := by decide
    obtain ⟨h1, h2⟩ := key _ hm
    unfold zoneSeconds zoneNumber
    rw [hz, h1]
    simp only at h2 ⊢
    split <;> split <;> omega
  | unknown h1 h2 =>
    have : zoneNames.find? (fun p => p.1 == z.map asciiUpper) = none := by
      rw [List.find?_eq_none]
      intro p hp e
      rw [beq_iff_eq] at e
      have : ∀ p ∈ zoneNames, ∃ q ∈ rfc822Zones, p.1 = q.1.toList.map Char.toNat := by decide
      obtain ⟨q, hq, e'⟩ := this p hp
      exact h1 q hq (by rw [← e, e'])
    unfold zoneSeconds zoneNumber
    rw [this, h2]
    rfl
  | number h => exact zoneSeconds_zone h

/-- The zone may be a name, or unknown, and the date may be written as in RFC 850: the date read is the same. -/
theorem rfc_forms {r : RfcText} (h : r.OK) {s : List Nat} {z : List Nat} (hz : ZoneMeans z r.minutes)
    (hs : Spaced (r.tokensZone z) s ∨ ∃ day, Spaced (r.tokens850 day z) s) :
    parsedateTz s = some [fullYear (digitsVal r.yy), r.month, digitsVal r.dd, digitsVal r.hh, digitsVal r.mi, r.second,
      0, 1, -1, r.minutes * 60] := by
  have hfin : parseParts r.dd r.mon r.yy (joinSep [58] r.clock) z =
      some [fullYear (digitsVal r.yy), r.month, digitsVal r.dd, digitsVal r.hh, digitsVal r.mi, r.second, 0, 1, -1,
        r.minutes * 60] := by rw [parseParts_zone h, zoneSeconds_means hz]
  unfold parsedateTz
  rcases hs with hs | ⟨day, hs⟩
  · rw [splitWs_spaced hs]
    unfold RfcText.tokensZone
    cases hd : r.dayName with
    | none =>
      have h1 : r.dd.getLast? ≠ some 44 := fun e => numeral_notin h.dd.2 (by decide) (List.mem_of_getLast? e)
      have h2 : r.dd.map asciiLower ∉ dayNames := by
        rw [map_lower_numeral h.dd.2]
        intro hm
        have : ∀ n ∈ dayNames, ∃ c ∈ n, isDigit c = false := by decide
        obtain ⟨c, hc, hf⟩ := this _ hm
        rw [h.dd.2 c hc] at hf; cases hf
      have h3 : (r.dd.reverse.takeWhile (· ≠ 44)).reverse = r.dd := by
        rw [takeWhile_all, List.reverse_reverse]
        intro c hc
        have := h.dd.2 c (List.mem_reverse.1 hc)
        simp only [ne_eq, decide_not, Bool.not_eq_eq_eq_not, Bool.not_true, decide_eq_false_iff_not]
        rintro rfl
        exact absurd this (by decide)
      simp only [List.nil_append, skipDayName]
      rw [if_neg (by simp [h1, h2]), h3]
      simp only [splitRfc850, splitZone]
      exact hfin
    | some n =>
      have h1 : (n ++ [44]).getLast? = some 44 := by simp
      simp only [List.singleton_append, skipDayName, h1, true_or, if_true, splitRfc850, splitZone]
      exact hfin
  · rw [splitWs_spaced hs]
    have h1 : (day ++ [44]).getLast? = some 44 := by simp
    have hmon : 45 ∉ r.mon := by
      obtain ⟨n, hn, e⟩ := h.mon
      intro hm
      have : ∀ n ∈ monthNames, 45 ∉ n := by decide
      apply this n hn
      rw [← e]
      exact List.mem_map.2 ⟨45, hm, rfl⟩
    have hj := splitSep_joinSep [45] (by simp) (by decide) [r.dd, r.mon, r.yy] (by simp) (by
      intro p hp
      simp only [List.mem_cons, List.not_mem_nil, or_false] at hp
      rcases hp with rfl | rfl | rfl
      · exact infix_single (numeral_notin h.dd.2 (by decide))
      · exact infix_single hmon
      · exact infix_single (numeral_notin h.yy.2 (by decide)))
    simp only [RfcText.tokens850, skipDayName, h1, true_or, if_true, splitRfc850, hj, splitZone]
    exact hfin

/-- C17: so a date in any of these forms is read as the instant that it denotes. -/
theorem rfc_parse_forms {r : RfcText} (h : r.OK) {s z : List Nat} (hz : ZoneMeans z r.minutes)
    (hs : Spaced (r.tokensZone z) s ∨ ∃ day, Spaced (r.tokens850 day z) s) {t : DT} (ht : t.Valid) (hn : r.Names t)
    (hm : |r.minutes| < 1440) (hr : Representable (t.toUs - r.minutes * 60000000)) :
    ∃ y, fromRFC2822 s = .ok y ∧ y.t.Valid ∧ y.start = t.toUs - r.minutes * 60000000 ∧ y.res = 1000000 :=
  (rfc_parse_numbers (rfc_forms h hz hs) ht hn).1 hm hr

/-- `Monday, 02-Jan-06 15:04:05 est`, and a zone called `XYZ`. -/
example : ZoneMeans [101, 115, 116] (-300) ∧ ZoneMeans [88, 89, 90] 0 ∧
    parsedateTz ("Monday, 02-Jan-06 15:04:05 est".toList.map Char.toNat) = some [2006, 1, 2, 15, 4, 5, 0, 1, -1, -18000] ∧
    parsedateTz ("Monday, 02-Jan-06 15:04:05 XYZ".toList.map Char.toNat) = some [2006, 1, 2, 15, 4, 5, 0, 1, -1, 0] :=
  ⟨.named (n := "EST") (by decide) (by decide), .unknown (by decide) (by decide), by decide, by decide⟩

theorem strFind_first {a b : List Nat} {c : Nat} (h : c ∉ a) : strFind (a ++ c :: b) [c] none none = a.length := by
  unfold strFind adjustIndices
  simp only
  have hat : ∀ p, matchAt (a ++ c :: b) [c] p = true ↔ (a ++ c :: b)[p]? = some c := by
    intro p
    rw [matchAt_iff]
    constructor
    · intro h; simpa using h 0 (by simp)
    · intro h j hj
      have : j = 0 := by simpa using hj
      subst this
      simpa using h
  have hmem : matchAt (a ++ c :: b) [c] a.length = true := by rw [hat]; simp
  rcases scanUp_spec (a ++ c :: b) [c] (candidates [c].length (Int.toNat 0) (Int.toNat ((a ++ c :: b).length : Int))) (Int.toNat 0) with
    ⟨_, h2⟩ | ⟨p, h1, _, _, h3, h4⟩
  · have := h2 a.length (by simp) ((candidates_iff _ _ _ _).2 ⟨by simp, by simp only [List.length_append, List.length_cons, List.length_nil, Int.toNat_natCast]; omega⟩).2
    rw [hmem] at this; cases this
  · rw [h1]
    rcases Nat.lt_trichotomy p a.length with hl | he | hg
    · rw [hat, List.getElem?_append_left hl] at h3
      exact absurd (List.mem_of_getElem? h3) h
    · rw [he]
    · have := h4 a.length (by simp) hg
      rw [hmem] at this; cases this

/-- The tokens of a date whose last part is `x`: the clock time with the zone attached, or the time alone. -/
def RfcText.tokensLast (r : RfcText) (x : List Nat) : List (List Nat) :=
  (match r.dayName with | none => [] | some n => [n ++ [44]]) ++ [r.dd, r.mon, r.yy, x]

theorem skipDayName_last {r : RfcText} (h : r.OK) (x : List Nat) :
    splitRfc850 (skipDayName (r.tokensLast x)) = [r.dd, r.mon, r.yy, x] := by
  unfold RfcText.tokensLast
  cases hd : r.dayName with
  | none =>
    have h1 : r.dd.getLast? ≠ some 44 := fun e => numeral_notin h.dd.2 (by decide) (List.mem_of_getLast? e)
    have h2 : r.dd.map asciiLower ∉ dayNames := by
      rw [map_lower_numeral h.dd.2]
      intro hm
      have : ∀ n ∈ dayNames, ∃ c ∈ n, isDigit c = false := by decide
      obtain ⟨c, hc, hf⟩ := this _ hm
      rw [h.dd.2 c hc] at hf; cases hf
    have h3 : (r.dd.reverse.takeWhile (· ≠ 44)).reverse = r.dd := by
      rw [takeWhile_all, List.reverse_reverse]
      intro c hc
      have := h.dd.2 c (List.mem_reverse.1 hc)
      simp only [ne_eq, decide_not, Bool.not_eq_eq_eq_not, Bool.not_true, decide_eq_false_iff_not]
      rintro rfl
      exact absurd this (by decide)
    simp only [List.nil_append, skipDayName]
    rw [if_neg (by simp [h1, h2]), h3]
    rfl
  | some n =>
    have h1 : (n ++ [44]).getLast? = some 44 := by simp
    simp only [List.singleton_append, skipDayName, h1, true_or, if_true, splitRfc850]

theorem clock_chars {r : RfcText} (h : r.OK) : joinSep [58] r.clock ≠ [] ∧
    ∀ c ∈ joinSep [58] r.clock, isDigit c = true ∨ c = 58 := by
  have hne := h.hh.1
  unfold RfcText.clock
  cases hs : r.ss with
  | none =>
    simp only [joinSep]
    refine ⟨by simp, fun c hc => ?_⟩
    simp only [List.mem_append, List.mem_singleton] at hc
    rcases hc with (hc | hc) | hc
    · exact .inl (h.hh.2 c hc)
    · exact .inr hc
    · exact .inl (h.mi.2 c hc)
  | some ss =>
    simp only [joinSep]
    refine ⟨by simp, fun c hc => ?_⟩
    simp only [List.mem_append, List.mem_singleton] at hc
    have := (h.ss ss hs).2
    rcases hc with (hc | hc) | (hc | hc) | hc
    · exact .inl (h.hh.2 c hc)
    · exact .inr hc
    · exact .inl (h.mi.2 c hc)
    · exact .inr hc
    · exact .inl (this c hc)

/-- The numbers read when the zone is attached to the clock time, `15:04:05-0700`, or missing (and then it is UTC). -/
theorem rfc_attached {r : RfcText} (h : r.OK) {s : List Nat} :
    (Spaced (r.tokensLast (joinSep [58] r.clock ++ (if r.neg then 45 else 43) :: (r.zh ++ r.zm))) s →
      parsedateTz s = some [fullYear (digitsVal r.yy), r.month, digitsVal r.dd, digitsVal r.hh, digitsVal r.mi, r.second,
        0, 1, -1, r.minutes * 60]) ∧
    (Spaced (r.tokensLast (joinSep [58] r.clock)) s →
      parsedateTz s = some [fullYear (digitsVal r.yy), r.month, digitsVal r.dd, digitsVal r.hh, digitsVal r.mi, r.second,
        0, 1, -1, 0]) := by
  obtain ⟨hne, hch⟩ := clock_chars h
  have hno : ∀ c, isDigit c = false → c ≠ 58 → c ∉ joinSep [58] r.clock := by
    intro c h1 h2 hm
    rcases hch c hm with h' | h'
    · rw [h1] at h'; cases h'
    · exact h2 h'
  have hnz : ∀ c, isDigit c = false → c ∉ r.zh ++ r.zm := by
    intro c h1 hm
    rcases List.mem_append.1 hm with hm | hm
    · rw [h.zh c hm] at h1; cases h1
    · rw [h.zm c hm] at h1; cases h1
  have hpos : 0 < (joinSep [58] r.clock).length := List.length_pos_iff.2 hne
  have hshape : ∀ x, ∃ d t, r.tokensLast x = d :: t := by
    intro x
    unfold RfcText.tokensLast
    cases r.dayName <;> exact ⟨_, _, rfl⟩
  constructor
  · intro hs
    unfold parsedateTz
    rw [splitWs_spaced hs]
    obtain ⟨d, t, hdt⟩ := hshape (joinSep [58] r.clock ++ (if r.neg then 45 else 43) :: (r.zh ++ r.zm))
    have hk := skipDayName_last h (joinSep [58] r.clock ++ (if r.neg then 45 else 43) :: (r.zh ++ r.zm))
    rw [hdt] at hk ⊢
    simp only [hk]
    have hz : splitZone [r.dd, r.mon, r.yy, joinSep [58] r.clock ++ (if r.neg then 45 else 43) :: (r.zh ++ r.zm)] =
        [r.dd, r.mon, r.yy, joinSep [58] r.clock, (if r.neg then 45 else 43) :: (r.zh ++ r.zm)] := by
      unfold splitZone
      simp only
      have hi : (if strFind (joinSep [58] r.clock ++ (if r.neg then 45 else 43) :: (r.zh ++ r.zm)) [43] none none = -1 then
          strFind (joinSep [58] r.clock ++ (if r.neg then 45 else 43) :: (r.zh ++ r.zm)) [45] none none
          else strFind (joinSep [58] r.clock ++ (if r.neg then 45 else 43) :: (r.zh ++ r.zm)) [43] none none) =
          ((joinSep [58] r.clock).length : Int) := by
        cases r.neg with
        | true =>
          simp only [if_true]
          rw [strFind_absent (c := 43), if_pos rfl, strFind_first (hno 45 (by decide) (by decide))]
          intro hm
          rcases List.mem_append.1 hm with hm | hm
          · exact hno 43 (by decide) (by decide) hm
          · rcases List.mem_cons.1 hm with hm | hm
            · cases hm
            · exact hnz 43 (by decide) hm
        | false =>
          simp only [Bool.false_eq_true, if_false]
          rw [strFind_first (hno 43 (by decide) (by decide)), if_neg (by omega)]
      rw [hi, if_pos (by omega)]
      simp
    rw [hz]
    simp only
    rw [parseParts_zone h, zoneSeconds_zone h]
  · intro hs
    unfold parsedateTz
    rw [splitWs_spaced hs]
    obtain ⟨d, t, hdt⟩ := hshape (joinSep [58] r.clock)
    have hk := skipDayName_last h (joinSep [58] r.clock)
    rw [hdt] at hk ⊢
    simp only [hk]
    have hz : splitZone [r.dd, r.mon, r.yy, joinSep [58] r.clock] = [r.dd, r.mon, r.yy, joinSep [58] r.clock, []] := by
      unfold splitZone
      simp only
      rw [strFind_absent (hno 43 (by decide) (by decide)), strFind_absent (hno 45 (by decide) (by decide))]
      rfl
    rw [hz]
    simp only
    rw [parseParts_zone h]
    rfl

/-- C17: so a date with the zone attached to the time, or missing, is read as the instant that it denotes. -/
theorem rfc_parse_attached {r : RfcText} (h : r.OK) {s : List Nat} {m : Int}
    (hs : Spaced (r.tokensLast (joinSep [58] r.clock ++ (if r.neg then 45 else 43) :: (r.zh ++ r.zm))) s ∧ m = r.minutes ∨
      Spaced (r.tokensLast (joinSep [58] r.clock)) s ∧ m = 0 ∧ r.minutes = 0) {t : DT} (ht : t.Valid) (hn : r.Names t)
    (hm : |m| < 1440) (hr : Representable (t.toUs - m * 60000000)) :
    ∃ y, fromRFC2822 s = .ok y ∧ y.t.Valid ∧ y.start = t.toUs - m * 60000000 ∧ y.res = 1000000 := by
  rcases hs with ⟨hs, rfl⟩ | ⟨hs, rfl, h0⟩
  · exact (rfc_parse_numbers ((rfc_attached h).1 hs) ht hn).1 hm hr
  · have := (rfc_attached h).2 hs
    rw [show (0 : Int) = r.minutes * 60 by rw [h0]; rfl] at this
    rw [← h0] at hr hm ⊢
    refine (rfc_parse_numbers ?_ ht hn).1 hm hr
    rw [this, h0]
    rfl

/-- `2 Jan 2006 15:04:05-0700`, and without a zone. -/
example :
    parsedateTz ("2 Jan 2006 15:04:05-0700".toList.map Char.toNat) = some [2006, 1, 2, 15, 4, 5, 0, 1, -1, -25200] ∧
    parsedateTz ("Mon, 2 Jan 2006 15:04:05+0130".toList.map Char.toNat) = some [2006, 1, 2, 15, 4, 5, 0, 1, -1, 5400] ∧
    parsedateTz ("2 Jan 2006 15:04:05".toList.map Char.toNat) = some [2006, 1, 2, 15, 4, 5, 0, 1, -1, 0] := by decide

/-- The offset printed: minutes, and whether with a minus sign. -/
def printedZone : Option Tz → Bool × Nat
  | none => (true, 0)
  | some z => (decide (z.minutes < 0), z.minutes.natAbs)

/-- The date printed for the local time `l`. -/
def rfcTextOf (l : DT) (tz : Option Tz) (dow : Bool) : RfcText where
  dayName := if dow then some (rfcWeekdays.getD l.weekday []) else none
  dd := natStr l.day
  mon := rfcMonths.getD (l.month - 1) []
  yy := natStr l.year
  hh := padZero 2 l.hour
  mi := padZero 2 l.minute
  ss := some (padZero 2 l.second)
  neg := (printedZone tz).1
  zh := padZero 2 ((printedZone tz).2 / 60)
  zm := padZero 2 ((printedZone tz).2 % 60)

theorem numeral_natStr (n : Nat) : Numeral (natStr n) := ⟨natStr_ne_nil n, natStr_isDigit n⟩

theorem numeral_padZero (w n : Nat) : Numeral (padZero w n) := by
  refine ⟨?_, padZero_isDigit w n⟩
  unfold padZero
  intro h
  exact natStr_ne_nil n (List.append_eq_nil_iff.1 h).2

theorem month_table : ∀ m, 1 ≤ m → m ≤ 12 → (rfcMonths.getD (m - 1) []).map asciiLower ∈ monthNames ∧
    monthNames.idxOf ((rfcMonths.getD (m - 1) []).map asciiLower) % 12 + 1 = m ∧
    (∀ c ∈ rfcMonths.getD (m - 1) [], isAsciiSpace c = false) ∧ rfcMonths.getD (m - 1) [] ≠ [] := by
  intro m h1 h2
  have : m = 1 ∨ m = 2 ∨ m = 3 ∨ m = 4 ∨ m = 5 ∨ m = 6 ∨ m = 7 ∨ m = 8 ∨ m = 9 ∨ m = 10 ∨ m = 11 ∨ m = 12 := by omega
  rcases this with rfl | rfl | rfl | rfl | rfl | rfl | rfl | rfl | rfl | rfl | rfl | rfl <;> decide

theorem weekday_table : ∀ d, d < 7 → ∀ c ∈ rfcWeekdays.getD d [], isAsciiSpace c = false := by decide

theorem rfcTextOf_ok {l : DT} (hl : l.Valid) {tz : Option Tz} (dow : Bool) :
    (rfcTextOf l tz dow).OK := by
  obtain ⟨⟨a1, a2, a3, a4, a5⟩, a6, a7, a8, a9, a10⟩ := hl
  refine ⟨numeral_natStr _, ⟨_, (month_table l.month a2 a3).1, rfl⟩, numeral_natStr _, numeral_padZero _ _,
    numeral_padZero _ _, ?_, padZero_isDigit _ _, padZero_isDigit _ _, padZero_length 2 _ (by omega) (by omega)⟩
  rintro s ⟨⟩
  exact numeral_padZero _ _

theorem rfcTextOf_names {l : DT} (hl : l.Valid) (hy : 100 ≤ l.year) {tz : Option Tz} (dow : Bool) :
    (rfcTextOf l tz dow).Names { l with us := 0 } := by
  obtain ⟨⟨a1, a2, a3, a4, a5⟩, a6, a7, a8, a9, a10⟩ := hl
  have e := digitsVal_natStr l.year
  refine ⟨?_, ?_, ?_, ?_, ?_, ?_, rfl⟩
  · have e' : digitsVal (rfcTextOf l tz dow).yy = l.year := e
    rw [e']
    refine ⟨fun h => ?_, fun _ h => ?_, fun _ => rfl⟩ <;> exact absurd hy (by omega)
  · exact (month_table l.month a2 a3).2.1.symm
  · exact (digitsVal_natStr _).symm
  · exact (digitsVal_padZero _ _).symm
  · exact (digitsVal_padZero _ _).symm
  · exact (digitsVal_padZero _ _).symm

theorem rfcTextOf_minutes (l : DT) (tz : Option Tz) (dow : Bool) :
    (rfcTextOf l tz dow).minutes * 60000000 = ahead tz := by
  unfold RfcText.minutes rfcTextOf
  simp only [digitsVal_padZero]
  cases tz with
  | none => rfl
  | some z =>
    unfold printedZone ahead
    simp only
    by_cases h : z.minutes < 0
    · simp only [h, decide_true, if_true]; omega
    · simp only [h, decide_false, Bool.false_eq_true, if_false]; omega

theorem digits_nospace {s : List Nat} (h : ∀ c ∈ s, isDigit c = true) : ∀ c ∈ s, isAsciiSpace c = false :=
  fun c hc => isDigit_not_space (h c hc)

theorem spaced_step {tok s : List Nat} {toks : List (List Nat)} (k : Nat) (hne : tok ≠ [])
    (ht : ∀ c ∈ tok, isAsciiSpace c = false) (h : Spaced toks (32 :: s)) :
    Spaced (tok :: toks) (32 :: (List.replicate k 32 ++ tok ++ 32 :: s)) := by
  have := Spaced.cons (w := 32 :: List.replicate k 32) (by
    intro c hc
    rcases List.mem_cons.1 hc with rfl | hc
    · rfl
    · rw [List.eq_of_mem_replicate hc]; rfl) hne ht (Or.inr ⟨32, s, rfl, rfl⟩) h
  simpa using this

/-- What `asRFC2822` prints. -/
theorem asRFC2822_spaced {x : Time} {tz : Option Tz} (hz : ∀ z, tz = some z → z.Good) {a : ADT}
    (ha : asDatetime x tz = .ok a) (hv : a.dt.Valid) (dow : Bool) :
    ∃ s, asRFC2822 x tz dow = .ok s ∧ Spaced (rfcTextOf a.dt tz dow).tokens s := by
  have hoff : rfcOffset tz = .ok ((if (printedZone tz).1 then 45 else 43) ::
      (padZero 2 ((printedZone tz).2 / 60) ++ padZero 2 ((printedZone tz).2 % 60))) := by
    unfold rfcOffset printedZone
    cases tz with
    | none => rfl
    | some z =>
      simp only
      rw [(hz z rfl).offset]
      simp only
      rw [signHrMin_spec (hz z rfl)]
      simp
  unfold asRFC2822
  rw [ha]
  simp only
  rw [hoff]
  refine ⟨_, rfl, ?_⟩
  obtain ⟨⟨a1, a2, a3, a4, a5⟩, -⟩ := hv
  have hw : a.dt.weekday < 7 := Nat.mod_lt _ (by omega)
  obtain ⟨-, -, m3, m4⟩ := month_table a.dt.month a2 a3
  unfold RfcText.tokens rfcTextOf RfcText.clock
  simp only [joinSep]
  generalize hzt : (if (printedZone tz).1 then 45 else 43) ::
      (padZero 2 ((printedZone tz).2 / 60) ++ padZero 2 ((printedZone tz).2 % 60)) = zt
  have hzt' : zt ≠ [] ∧ ∀ c ∈ zt, isAsciiSpace c = false := by
    subst hzt
    refine ⟨by simp, ?_⟩
    intro c hc
    simp only [List.mem_cons, List.mem_append] at hc
    rcases hc with rfl | hc | hc
    · cases (printedZone tz).1 <;> decide
    · exact digits_nospace (padZero_isDigit _ _) c hc
    · exact digits_nospace (padZero_isDigit _ _) c hc
  have h5 : Spaced [zt] (32 :: zt) := by
    have := Spaced.cons (w := [32]) (by decide) hzt'.1 hzt'.2 (Or.inl rfl) (Spaced.nil (w := []) (by simp))
    simpa using this
  have h4 := spaced_step (tok := padZero 2 a.dt.hour ++ [58] ++ (padZero 2 a.dt.minute ++ [58] ++ padZero 2 a.dt.second)) 0
    (by simp) (by
      intro c hc
      simp only [List.mem_append, List.mem_singleton] at hc
      rcases hc with (hc | rfl) | (hc | rfl) | hc
      · exact digits_nospace (padZero_isDigit _ _) c hc
      · decide
      · exact digits_nospace (padZero_isDigit _ _) c hc
      · decide
      · exact digits_nospace (padZero_isDigit _ _) c hc) h5
  have h3 := spaced_step (tok := natStr a.dt.year) (4 - (natStr a.dt.year).length) (natStr_ne_nil _)
    (digits_nospace (natStr_isDigit _)) h4
  have h2 := spaced_step 0 m4 m3 h3
  have h1 := spaced_step (tok := natStr a.dt.day) 0 (natStr_ne_nil _) (digits_nospace (natStr_isDigit _)) h2
  cases dow with
  | false =>
    have := Spaced.cons (w := []) (by simp) (natStr_ne_nil a.dt.day) (digits_nospace (natStr_isDigit _))
      (Or.inr ⟨32, _, rfl, rfl⟩) h2
    simpa [padSpace] using this
  | true =>
    have := Spaced.cons (w := []) (tok := rfcWeekdays.getD a.dt.weekday [] ++ [44]) (by simp) (by simp) (by
      intro c hc
      simp only [List.mem_append, List.mem_singleton] at hc
      rcases hc with hc | rfl
      · exact weekday_table _ hw c hc
      · decide) (Or.inr ⟨32, _, rfl, rfl⟩) h1
    simpa [padSpace] using this

/-- The local time printed; it denotes the instant itself. -/
theorem rfc_local {x : Time} (hx : x.t.Valid) {tz : Option Tz} (hz : ∀ z, tz = some z → z.Good)
    (hr : tz = none ∨ x.res < dayUs) {a : ADT} (ha : asDatetime x tz = .ok a) :
    a.dt.Valid ∧ a.dt.toUs = x.start + ahead tz := by
  cases tz with
  | none =>
    have : asDatetime x none = .ok ⟨x.t, some utc⟩ := by
      unfold asDatetime
      simp only [Option.getD_none, astimezone_utc hx]
      split <;> rfl
    rw [this] at ha
    cases ha
    exact ⟨hx, by unfold ahead Time.start; simp⟩
  | some z =>
    have hr' : x.res < dayUs := by rcases hr with h | h; cases h; exact h
    have hi := asDatetime_instant hx hr' (hz z rfl)
    by_cases c : Representable (x.start + z.minutes * 60000000)
    · obtain ⟨b, e1, e2, e3, e4⟩ := hi.1 c
      rw [ha] at e1; cases e1
      refine ⟨e3, ?_⟩
      unfold ADT.instant at e4
      rw [e2] at e4
      unfold ahead
      simp only at e4 ⊢
      omega
    · rw [hi.2 c] at ha; cases ha

/-- What is printed for the local time `a.dt` is read back as that local time, in the same zone, to the second. -/
theorem rfc_print_parse {x : Time} {tz : Option Tz} (hz : ∀ z, tz = some z → z.Good) (dow : Bool) {a : ADT}
    (ha : asDatetime x tz = .ok a) (hv : a.dt.Valid) (hy : 100 ≤ a.dt.year)
    (hrep : Representable (wholeSecond (a.dt.toUs - ahead tz))) :
    ∃ s y, asRFC2822 x tz dow = .ok s ∧ fromRFC2822 s = .ok y ∧ y.t.Valid ∧
      y.start = wholeSecond (a.dt.toUs - ahead tz) ∧ y.res = 1000000 := by
  obtain ⟨s, hs1, hs2⟩ := asRFC2822_spaced hz ha hv dow
  have hv' : ({ a.dt with us := 0 } : DT).Valid := ⟨hv.1, hv.2.1, hv.2.2.1, hv.2.2.2.1, hv.2.2.2.2.1, by simp⟩
  have hm := rfcTextOf_minutes a.dt tz dow
  have hst : ({ a.dt with us := 0 } : DT).toUs - (rfcTextOf a.dt tz dow).minutes * 60000000 =
      wholeSecond (a.dt.toUs - ahead tz) := by
    have h60 : ahead tz % 1000000 = 0 := by rw [← hm]; omega
    have hus := hv.2.2.2.2.2
    have e : ({ a.dt with us := 0 } : DT).toUs = a.dt.toUs - a.dt.us := by
      unfold DT.toUs DT.ord; simp
    have hmod : a.dt.toUs % 1000000 = a.dt.us := by unfold DT.toUs; omega
    rw [hm, e]
    unfold wholeSecond
    omega
  have hbound : |(rfcTextOf a.dt tz dow).minutes| < 1440 := by
    rw [abs_lt]
    cases tz with
    | none => simp only [ahead] at hm; omega
    | some z => have := hz z rfl; unfold Tz.Good at this; simp only [ahead] at hm; omega
  obtain ⟨y, h1, h2, h3, h4⟩ := (rfc_parse (rfcTextOf_ok hv dow) hs2 hv' (rfcTextOf_names hv hy dow)).1 hbound
    (by rw [hst]; exact hrep)
  exact ⟨s, y, hs1, h1, h2, by rw [h3, hst], h4⟩

/-- **C17, partial.**  A `Time`, printed and read back, is the same instant to the second, in every zone, with or
without the day of the week; provided the printed year has at least three digits and, if a zone is given, the `Time`
is finer than a day. -/
theorem rfc_roundtrip_partial {x : Time} (hx : x.t.Valid) {tz : Option Tz} (hz : ∀ z, tz = some z → z.Good)
    (hr : tz = none ∨ x.res < dayUs) (dow : Bool) {a : ADT} (ha : asDatetime x tz = .ok a) (hy : 100 ≤ a.dt.year) :
    ∃ s y, asRFC2822 x tz dow = .ok s ∧ fromRFC2822 s = .ok y ∧ y.t.Valid ∧ y.start = wholeSecond x.start ∧
      y.res = 1000000 := by
  obtain ⟨hv, hl⟩ := rfc_local hx hz hr ha
  have hrep : Representable (wholeSecond x.start) := by
    have hs := start_representable hx
    unfold Representable wholeSecond maxUs at *; omega
  have e : a.dt.toUs - ahead tz = x.start := by omega
  have := rfc_print_parse hz dow ha hv hy (by rw [e]; exact hrep)
  rwa [e] at this

example : (⟨⟨2000, 1, 1, 0, 30, 5, 678901⟩, 1⟩ : Time).t.Valid ∧ (⟨-330⟩ : Tz).Good ∧
    (asDatetime ⟨⟨2000, 1, 1, 0, 30, 5, 678901⟩, 1⟩ (some ⟨-330⟩)).toOption.map (·.dt.year) = some 1999 ∧
    (asRFC2822 ⟨⟨2000, 1, 1, 0, 30, 5, 678901⟩, 1⟩ none true) = .ok ([83, 97, 116, 44, 32, 49, 32, 74, 97, 110, 32, 50,
      48, 48, 48, 32, 48, 48, 58, 51, 48, 58, 48, 53, 32, 45, 48, 48, 48, 48] : List Nat) := by decide

/-- The day name printed is that of the local day: 1 January of the year 1 was a Monday. -/
theorem rfc_dayName {x : Time} (hx : x.t.Valid) {tz : Option Tz} (hz : ∀ z, tz = some z → z.Good)
    (hr : tz = none ∨ x.res < dayUs) {a : ADT} (ha : asDatetime x tz = .ok a) :
    ∃ s n, asRFC2822 x tz true = .ok s ∧ n <+: s ∧
      n = [[77, 111, 110, 44], [84, 117, 101, 44], [87, 101, 100, 44], [84, 104, 117, 44], [70, 114, 105, 44],
        [83, 97, 116, 44], [83, 117, 110, 44]].getD (((x.start + ahead tz) / dayUs % 7).toNat) [] := by
  obtain ⟨hv, hl⟩ := rfc_local hx hz hr ha
  have hv' := hv
  have hw : (x.start + ahead tz) / dayUs % 7 = a.dt.weekday := by
    rw [← hl]
    obtain ⟨-, h2, h3, h4, h5, h6⟩ := hv
    have hord : (1 : Int) ≤ a.dt.ord := by
      unfold DT.ord ymd2ord
      have := hv'.1.2.2.2.1
      omega
    have e : a.dt.toUs / dayUs = a.dt.ord - 1 := by
      unfold DT.toUs dayUs; omega
    rw [e]
    unfold DT.weekday
    omega
  rw [hw]
  obtain ⟨s, hs, -⟩ := asRFC2822_spaced hz ha hv' true
  refine ⟨s, rfcWeekdays.getD a.dt.weekday [] ++ [44], hs, ?_, ?_⟩
  · unfold asRFC2822 at hs
    rw [ha] at hs
    simp only at hs
    cases ho : rfcOffset tz with
    | error e => rw [ho] at hs; cases hs
    | ok o =>
      rw [ho] at hs
      cases hs
      simp only [if_true]
      rw [show rfcWeekdays.getD a.dt.weekday [] ++ [44, 32] = rfcWeekdays.getD a.dt.weekday [] ++ [44] ++ [32] by simp,
        List.append_assoc]
      exact List.prefix_append _ _
  · have hlt : a.dt.weekday < 7 := Nat.mod_lt _ (by omega)
    generalize a.dt.weekday = d at hlt
    rw [Int.toNat_natCast]
    revert hlt
    revert d
    decide

/-- C17 as stated is false: a year below 100 is read as an abbreviation… -/
theorem rfc_roundtrip_fails_year : ∃ x s y, x.t.Valid ∧ x.res = 1 ∧ asRFC2822 x none true = .ok s ∧
    fromRFC2822 s = .ok y ∧ x.t.year = 70 ∧ y.t.year = 1970 := by
  refine ⟨⟨⟨70, 1, 1, 0, 0, 0, 0⟩, 1⟩, _, ⟨⟨1970, 1, 1, 0, 0, 0, 0⟩, 1000000⟩, by decide, rfl, rfl, by decide, rfl, rfl⟩

/-- …and a `Time` of a day or more is printed in the zone asked for, but not shifted. -/
theorem rfc_roundtrip_fails_day {x : Time} (hx : x.t.Valid) (hr : dayUs ≤ x.res) {z : Tz} (hz : z.Good)
    (hy : 100 ≤ x.t.year) (dow : Bool) (hrep : Representable (wholeSecond (x.start - z.minutes * 60000000))) :
    ∃ s y, asRFC2822 x (some z) dow = .ok s ∧ fromRFC2822 s = .ok y ∧
      y.start = wholeSecond (x.start - z.minutes * 60000000) := by
  have ha := (asDatetime_coarse hr z).1
  obtain ⟨s, y, h1, h2, -, h4, -⟩ := rfc_print_parse (tz := some z) (by rintro w ⟨⟩; exact hz) dow ha hx hy hrep
  exact ⟨s, y, h1, h2, h4⟩

example : (⟨⟨2004, 2, 29, 0, 0, 0, 0⟩, dayUs⟩ : Time).t.Valid ∧ (⟨60⟩ : Tz).Good ∧
    Representable (wholeSecond ((⟨⟨2004, 2, 29, 0, 0, 0, 0⟩, dayUs⟩ : Time).start - 60 * 60000000)) ∧
    wholeSecond ((⟨⟨2004, 2, 29, 0, 0, 0, 0⟩, dayUs⟩ : Time).start - 60 * 60000000) ≠
      (⟨⟨2004, 2, 29, 0, 0, 0, 0⟩, dayUs⟩ : Time).start := by decide

theorem parseParts_length {dd mm yy tm tz : List Nat} {l : List Int} (h : parseParts dd mm yy tm tz = some l) :
    l.length = 10 := by
  unfold parseParts at h
  dsimp only at h
  repeat' split at h
  all_goals first | (cases h; rfl) | cases h

theorem fromDatetime_errors {a : ADT} {e : PyErr} (h : fromDatetime a = .error e) :
    e = .valueError ∨ e = .overflowError := by
  have ho : ∀ {z : Tz} {e}, z.offset = .error e → e = .valueError := by
    intro z e h
    unfold Tz.offset at h
    split at h <;> cases h; rfl
  have ha : ∀ {t : DT} {d : Int} {e}, t.add d = .error e → e = .overflowError := by
    intro t d e h
    unfold DT.add at h
    split at h <;> cases h; rfl
  unfold fromDatetime at h
  split at h
  · cases h
  · split at h
    · rename_i h'
      cases h
      unfold astimezone at h'
      repeat' split at h'
      all_goals first
        | (cases h'; rename_i h''; exact Or.inl (ho h''))
        | (cases h'; rename_i h''; exact Or.inr (ha h''))
        | exact Or.inr (ha h')
    · cases h

/-- Whatever the (ASCII) text, the only exceptions are `ValueError` and `OverflowError`. -/
theorem rfc_errors {s : List Nat} {e : PyErr} (h : fromRFC2822 s = .error e) : e = .valueError ∨ e = .overflowError := by
  unfold fromRFC2822 at h
  cases hp : parsedateTz s with
  | none => rw [hp] at h; cases h; exact Or.inl rfl
  | some l =>
    have hl : l.length = 10 := by
      unfold parsedateTz at hp
      split at hp
      · cases hp
      · split at hp
        · exact parseParts_length hp
        · cases hp
    rw [hp] at h
    simp only at h
    have hs : (sanitizeStructTime l).length = 10 := by rw [sanitize_length, hl]
    generalize sanitizeStructTime l = st at *
    unfold fixedOffsetChecked at h
    split at h
    · rename_i h'
      split at h' <;> cases h'
      cases h; exact Or.inr rfl
    · split at h
      · rename_i h'
        cases h
        match st, hs with
        | [a1, a2, a3, a4, a5, a6, a7, a8, a9, a10], _ =>
          unfold fromStructTime at h'
          simp only [List.take_succ_cons, List.take_zero] at h'
          split at h'
          · rename_i h''
            cases h'
            exact Or.inl (DT.mk?_err h'')
          · split at h'
            · rename_i h''
              cases h'
              exact fromDatetime_errors h''
            · cases h'
      · cases h

/-- Both happen: `31 Feb` is no date, and `31 Dec 9999 23:00 -0100` is after the last one. -/
example : fromRFC2822 [51, 49, 32, 70, 101, 98, 32, 50, 48, 48, 52, 32, 49, 58, 48, 48] = .error .valueError ∧
    fromRFC2822 [51, 49, 32, 68, 101, 99, 32, 57, 57, 57, 57, 32, 50, 51, 58, 48, 48, 32, 45, 48, 49, 48, 48] =
      .error .overflowError := by decide

/-- **C17.** A day name in front, in any case, with or without a comma, is ignored, whether or not it is that of the date; so is
every other word with a comma at its end. -/
theorem rfc_day_ignored {n s d : List Nat} {r : List (List Nat)} (hn : ∀ c ∈ n, isAsciiSpace c = false) (h0 : n ≠ [])
    (hd : n.getLast? = some 44 ∨ n.map asciiLower ∈ ([[109, 111, 110], [116, 117, 101], [119, 101, 100], [116, 104, 117],
      [102, 114, 105], [115, 97, 116], [115, 117, 110]] : List (List Nat)))
    (hs : splitWs [] s = d :: r) (h1 : 44 ∉ d) (h2 : d.map asciiLower ∉ dayNames) :
    fromRFC2822 (n ++ 32 :: s) = fromRFC2822 s := by
  have e : splitWs [] (n ++ 32 :: s) = n :: d :: r := by
    rw [splitWs_tok hn, List.nil_append, splitWs, if_pos (by decide), hs]
    simp [h0]
  have hd' : skipDayName (n :: d :: r) = d :: r := by
    rw [skipDayName, if_pos (show _ ∨ _ ∈ dayNames from hd)]
  have hs' : skipDayName (d :: r) = d :: r := by
    have ht : d.reverse.takeWhile (· ≠ 44) = d.reverse := by
      have := List.takeWhile_append_of_pos (p := fun x => decide (x ≠ 44)) (l₁ := d.reverse) (l₂ := []) (by
        intro c hc
        simp only [ne_eq, decide_not, Bool.not_eq_eq_eq_not, Bool.not_true, decide_eq_false_iff_not]
        rintro rfl
        exact h1 (List.mem_reverse.1 hc))
      simpa using this
    rw [skipDayName, if_neg, ht, List.reverse_reverse]
    · rintro (h | h)
      · exact h1 (List.mem_of_getLast? h)
      · exact h2 h
  unfold fromRFC2822 parsedateTz
  rw [e, hs]
  simp only [hd', hs']

/-- `SUN 1 Jan 2000 00:00:00 GMT`, which was a Saturday. -/
example : fromRFC2822 ([83, 85, 78, 32] ++ [49, 32, 74, 97, 110, 32, 50, 48, 48, 48, 32, 48, 48, 58, 48, 48, 58, 48, 48, 32, 71, 77, 84]) =
    fromRFC2822 [49, 32, 74, 97, 110, 32, 50, 48, 48, 48, 32, 48, 48, 58, 48, 48, 58, 48, 48, 32, 71, 77, 84] :=
  rfc_day_ignored (n := [83, 85, 78]) (d := [49]) (by decide) (by decide) (.inr (by decide)) rfl (by decide) (by decide)

end Verif.Extime
