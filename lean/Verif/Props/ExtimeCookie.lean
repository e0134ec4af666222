import Verif.Model.ExtimeCookie
import Verif.Props.ExtimePosix
import Verif.Props.ExtimeRfc
/-!
# C86: RFC 1123 dates

`httpDate` is the fixed form of RFC 1123 (and RFC 7231): 29 characters, always in GMT.
-/
namespace Verif.Extime
open Verif.Py

def ascii (s : String) : List Nat := s.toList.map Char.toNat

def twoDigits (n : Nat) : List Nat := [48 + n / 10, 48 + n % 10]
def fourDigits (n : Nat) : List Nat := [48 + n / 1000, 48 + n / 100 % 10, 48 + n / 10 % 10, 48 + n % 10]

/-- `Sun, 06 Nov 1994 08:49:37 GMT`; 1 January of the year 1 was a Monday. -/
def httpDate (t : DT) : List Nat :=
  (["Mon", "Tue", "Wed", "Thu", "Fri", "Sat", "Sun"].map ascii).getD (t.toUs / dayUs % 7).toNat [] ++ ascii ", " ++
  twoDigits t.day ++ ascii " " ++
  (["Jan", "Feb", "Mar", "Apr", "May", "Jun", "Jul", "Aug", "Sep", "Oct", "Nov", "Dec"].map ascii).getD (t.month - 1) [] ++
  ascii " " ++ fourDigits t.year ++ ascii " " ++ twoDigits t.hour ++ ascii ":" ++ twoDigits t.minute ++ ascii ":" ++
  twoDigits t.second ++ ascii " GMT"

/-! ## The second read back from the timestamp -/

theorem asPOSIX_ge {x : Time} (hx : x.t.Valid) : ((x.sinceEpoch / 1000000 : Int) : Rat) ≤ asPOSIX x := by
  have hs := start_representable hx
  have hd : x.t.toUs - epoch.toUs = x.sinceEpoch := by rw [epoch_toUs]; rfl
  have hb1 : -100000000000 ≤ x.sinceEpoch / 1000000 := by
    unfold Time.sinceEpoch Representable maxUs dayUs at *; omega
  have hb2 : x.sinceEpoch / 1000000 ≤ 300000000000 := by
    unfold Time.sinceEpoch Representable maxUs dayUs at *; omega
  unfold asPOSIX timedeltaToSeconds
  rw [hd]
  generalize x.sinceEpoch = d at *
  have hS : d / dayUs * 86400 + d % dayUs / 1000000 = d / 1000000 := by unfold dayUs; omega
  rw [hS]
  have hu0 : 0 ≤ d % 1000000 := by omega
  have hu1 : d % 1000000 < 1000000 := by omega
  generalize d / 1000000 = S at *
  generalize d % 1000000 = u at *
  have hu0' : (0 : Rat) ≤ u := by exact_mod_cast hu0
  have hu1' : (u : Rat) ≤ 1000000 := by exact_mod_cast hu1.le
  have hb1' : (-100000000000 : Rat) ≤ S := by exact_mod_cast hb1
  have hb2' : (S : Rat) ≤ 300000000000 := by exact_mod_cast hb2
  have e1 := roundF_error (1 / 1000000) (-19) (by rw [abs_of_pos (by norm_num)]; norm_num) (by norm_num)
  norm_num at e1
  have hm : (0 : Rat) ≤ roundF (1 / 1000000) ∧ roundF (1 / 1000000) ≤ 1 := by
    norm_num at e1 ⊢; rw [abs_le] at e1; constructor <;> linarith
  generalize roundF (1 / 1000000) = m at *
  have hp0 : (0 : Rat) ≤ u * m := mul_nonneg hu0' hm.1
  have hp1 : (u : Rat) * m ≤ 1000000 := by nlinarith
  have hf0 : ((0 : Int) : Rat) ≤ fmul (u : Rat) m :=
    roundF_ge (by rw [abs_of_nonneg hp0]; norm_num; linarith) (by simpa using hp0)
  have hf1 : fmul (u : Rat) m ≤ 1000001 := by
    have := roundF_error ((u : Rat) * m) 20 (by rw [abs_of_nonneg hp0]; norm_num; linarith) (by norm_num)
    unfold fmul
    norm_num at this
    rw [abs_le] at this
    linarith
  simp only [Int.cast_zero] at hf0
  generalize fmul (u : Rat) m = f at *
  unfold fadd
  apply roundF_ge
  · rw [abs_lt]; norm_num; constructor <;> linarith
  · linarith

theorem timedelta_ge {q : Rat} {S : Int} (h : (S : Rat) ≤ q) : S * 1000000 ≤ timedeltaSeconds (.float q) := by
  have ht := trunc_near q
  have hr : ∀ k : Int, |k| ≤ 2000000 → (k : Rat) ≤ (q - trunc q) * 1000000 → k ≤ rhe (fmul (q - trunc q) 1000000) := by
    intro k _ hk
    apply rhe_ge
    unfold fmul
    apply roundF_ge _ hk
    rw [abs_lt] at ht ⊢; norm_num; constructor <;> linarith
  unfold timedeltaSeconds
  simp only
  by_cases h0 : 0 ≤ q
  · have e : trunc q = ⌊q⌋ := by unfold trunc; rw [if_pos h0]
    have h1 : S ≤ trunc q := by rw [e]; exact Int.le_floor.2 h
    have := hr 0 (by norm_num) (by rw [e]; have := Int.floor_le q; push_cast; linarith)
    omega
  · have e : trunc q = ⌈q⌉ := by unfold trunc; rw [if_neg h0]
    have h1 : S ≤ trunc q := by
      rw [e]; have := Int.le_ceil q; have : (S : Rat) ≤ ⌈q⌉ := by linarith
      exact_mod_cast this
    rcases eq_or_lt_of_le h1 with h2 | h2
    · have := hr 0 (by norm_num) (by rw [← h2]; push_cast; linarith)
      omega
    · have := hr (-1000000) (by norm_num) (by
        rw [e]; have := Int.ceil_lt_add_one q; push_cast; linarith)
      omega

/-- The second read is that of the time, or the next one. -/
theorem second_read {x : Time} (hx : x.t.Valid) :
    ∃ e : Int, timedeltaSeconds (.float (asPOSIX x)) / 1000000 = x.sinceEpoch / 1000000 + e ∧ (e = 0 ∨ e = 1) ∧
      (|x.sinceEpoch| ≤ 1000000 * (2 ^ 33 - 1) ∨ x.t.us ≤ 999983 → e = 0) := by
  have h1 := timedelta_ge (asPOSIX_ge hx)
  have h2 := timedelta_asPOSIX_near hx
  have h3 := timedelta_asPOSIX (x := x)
  rw [abs_le] at h2
  have hus : x.sinceEpoch % 1000000 = x.t.us := by
    have := hx.2.2.2.2.2
    unfold Time.sinceEpoch Time.start DT.toUs dayUs; omega
  refine ⟨timedeltaSeconds (.float (asPOSIX x)) / 1000000 - x.sinceEpoch / 1000000, by omega, by omega, ?_⟩
  rintro (h | h)
  · rw [h3 h]; omega
  · omega

/-! ## The text -/

theorem padZero_two {n : Nat} (h : n < 100) : padZero 2 n = twoDigits n := by
  have hl := padZero_length 2 n (by omega) (by omega)
  have hd := padZero_isDigit 2 n
  have hv := digitsVal_padZero 2 n
  match hp : padZero 2 n, hl with
  | [a, b], _ =>
    rw [hp] at hd hv
    have ha := hd a (by simp)
    have hb := hd b (by simp)
    unfold isDigit at ha hb
    simp only [decide_eq_true_eq, Bool.and_eq_true] at ha hb
    simp only [digitsVal, ofDigits, List.map_cons, List.map_nil, List.foldl_cons, List.foldl_nil] at hv
    unfold twoDigits
    simp only [List.cons.injEq, and_true]
    omega

theorem padZero_four {n : Nat} (h : n < 10000) : padZero 4 n = fourDigits n := by
  have hl := padZero_length 4 n (by omega) (by omega)
  have hd := padZero_isDigit 4 n
  have hv := digitsVal_padZero 4 n
  match hp : padZero 4 n, hl with
  | [a, b, c, d], _ =>
    rw [hp] at hd hv
    have ha := hd a (by simp)
    have hb := hd b (by simp)
    have hc := hd c (by simp)
    have hd' := hd d (by simp)
    unfold isDigit at ha hb hc hd'
    simp only [decide_eq_true_eq, Bool.and_eq_true] at ha hb hc hd'
    simp only [digitsVal, ofDigits, List.map_cons, List.map_nil, List.foldl_cons, List.foldl_nil] at hv
    unfold fourDigits
    simp only [List.cons.injEq, and_true]
    omega

theorem weekday_days {t : DT} (ht : t.Valid) : (t.toUs / dayUs % 7).toNat = t.weekday := by
  have hord : (1 : Int) ≤ t.ord := by
    unfold DT.ord ymd2ord
    have := ht.1.2.2.2.1
    omega
  obtain ⟨-, h2, h3, h4, h5, h6⟩ := ht
  have e : t.toUs / dayUs = t.ord - 1 := by unfold DT.toUs dayUs; omega
  rw [e]
  unfold DT.weekday
  omega

theorem day_lt {t : DT} (ht : t.Valid) : t.day ≤ 31 := by
  have a5 := ht.1.2.2.2.2
  unfold daysInMonth at a5
  have : monthLen (isLeap t.year) t.month ≤ 31 := by
    unfold monthLen; split <;> (try split) <;> omega
  omega

theorem formatGmt_eq {t : DT} (ht : t.Valid) : formatGmt t = httpDate t := by
  have hw := weekday_days ht
  have hd := day_lt ht
  obtain ⟨⟨a1, a2, a3, a4, a5⟩, a6, a7, a8, a9, a10⟩ := ht
  unfold formatGmt httpDate
  rw [hw, padZero_two (by omega), padZero_two (by omega), padZero_two (by omega), padZero_two (by omega),
    padZero_four (by omega)]
  have e1 : (["Mon", "Tue", "Wed", "Thu", "Fri", "Sat", "Sun"].map ascii) = rfcWeekdays := by decide
  have e2 : (["Jan", "Feb", "Mar", "Apr", "May", "Jun", "Jul", "Aug", "Sep", "Oct", "Nov", "Dec"].map ascii) = rfcMonths := by
    decide
  have e3 : ascii ", " = [44, 32] := by decide
  have e4 : ascii " " = [32] := by decide
  have e5 : ascii ":" = [58] := by decide
  have e6 : ascii " GMT" = [32, 71, 77, 84] := by decide
  rw [e1, e2, e3, e4, e5, e6]
  simp

/-- The text depends on the second only. -/
theorem httpDate_second {t t' : DT} (ht : t.Valid) (ht' : t'.Valid) (h : t.toUs / 1000000 = t'.toUs / 1000000) :
    httpDate t = httpDate t' := by
  have z : ∀ {t : DT}, t.Valid → ({ t with us := 0 } : DT).Valid ∧
      ({ t with us := 0 } : DT).toUs = t.toUs / 1000000 * 1000000 ∧ httpDate { t with us := 0 } = httpDate t := by
    intro t ht
    have hv : ({ t with us := 0 } : DT).Valid := ⟨ht.1, ht.2.1, ht.2.2.1, ht.2.2.2.1, ht.2.2.2.2.1, by simp⟩
    have hus := ht.2.2.2.2.2
    have e : ({ t with us := 0 } : DT).toUs = t.toUs - t.us := by unfold DT.toUs DT.ord; simp
    have hmod : t.toUs % 1000000 = t.us := by unfold DT.toUs; omega
    refine ⟨hv, by rw [e]; omega, ?_⟩
    unfold httpDate
    rw [weekday_days hv, weekday_days ht]
    rfl
  obtain ⟨v, u, w⟩ := z ht
  obtain ⟨v', u', w'⟩ := z ht'
  rw [← w, ← w', DT.toUs_inj v v' (by rw [u, u', h])]

theorem asRFC1123_spec {x : Time} (T : Int) (hT : timedeltaSeconds (.float (asPOSIX x)) = T) :
    (Representable (719162 * dayUs + T) → ∃ t, t.Valid ∧ t.toUs = 719162 * dayUs + T ∧ asRFC1123 x = .ok (httpDate t)) ∧
    (¬ Representable (719162 * dayUs + T) → asRFC1123 x = .error .valueError) := by
  unfold asRFC1123 fromTimestamp
  simp only
  rw [epoch_toUs, hT]
  constructor
  · intro h
    unfold Representable at h
    rw [if_pos h]
    refine ⟨_, DT.ofUs_valid h.1 h.2, DT.toUs_ofUs h.1, ?_⟩
    simp only
    rw [formatGmt_eq (DT.ofUs_valid h.1 h.2)]
  · intro h
    unfold Representable at h
    rw [if_neg h]

/-- **C86, partial.**  `asRFC1123` prints the second of the time; provided the time is within 2³³ seconds of 1970 (from
1697 to 2242), or not in the last sixteen microseconds of a second. -/
theorem rfc1123_partial {x : Time} (hx : x.t.Valid) (h : |x.sinceEpoch| ≤ 1000000 * (2 ^ 33 - 1) ∨ x.t.us ≤ 999983) :
    asRFC1123 x = .ok (httpDate x.t) := by
  obtain ⟨e, h1, -, h3⟩ := second_read hx
  rw [h3 h] at h1
  have hs := start_representable hx
  obtain ⟨t, ht, hu, hr⟩ := (asRFC1123_spec (x := x) _ rfl).1 (by
    generalize timedeltaSeconds (.float (asPOSIX x)) = T at *
    unfold Time.sinceEpoch Representable maxUs dayUs at *; omega)
  have hsec : t.toUs / 1000000 = x.t.toUs / 1000000 := by
    rw [hu]
    generalize timedeltaSeconds (.float (asPOSIX x)) = T at *
    unfold Time.sinceEpoch Time.start dayUs at *; omega
  rw [hr, httpDate_second ht hx hsec]

example : (⟨⟨1994, 11, 6, 8, 49, 37, 999999⟩, 1⟩ : Time).t.Valid ∧
    |(⟨⟨1994, 11, 6, 8, 49, 37, 999999⟩, 1⟩ : Time).sinceEpoch| ≤ 1000000 * (2 ^ 33 - 1) ∧
    httpDate ⟨1994, 11, 6, 8, 49, 37, 999999⟩ = ascii "Sun, 06 Nov 1994 08:49:37 GMT" ∧
    (⟨⟨9999, 12, 31, 23, 59, 59, 999983⟩, 1⟩ : Time).t.Valid := by decide

/-- Elsewhere the next second may be printed, or nothing, if that is in the year 10000. -/
theorem rfc1123_near {x : Time} (hx : x.t.Valid) :
    asRFC1123 x = .ok (httpDate x.t) ∨
    (∃ t, t.Valid ∧ t.toUs = wholeSecond x.start + 1000000 ∧ asRFC1123 x = .ok (httpDate t)) ∨
    (x.start + 1000000 ≥ maxUs ∧ asRFC1123 x = .error .valueError) := by
  obtain ⟨e, h1, h2, -⟩ := second_read hx
  have hs := start_representable hx
  by_cases hr : Representable (719162 * dayUs + timedeltaSeconds (.float (asPOSIX x)))
  · obtain ⟨t, ht, hu, he⟩ := (asRFC1123_spec (x := x) _ rfl).1 hr
    generalize timedeltaSeconds (.float (asPOSIX x)) = T at *
    rcases h2 with rfl | rfl
    · left
      have hsec : t.toUs / 1000000 = x.t.toUs / 1000000 := by
        rw [hu]; unfold Time.sinceEpoch Time.start dayUs at *; omega
      rw [he, httpDate_second ht hx hsec]
    · right; left
      have hr' : Representable (wholeSecond x.start + 1000000) := by
        unfold Time.sinceEpoch Representable wholeSecond maxUs dayUs at *; omega
      refine ⟨_, DT.ofUs_valid hr'.1 hr'.2, DT.toUs_ofUs hr'.1, ?_⟩
      have hsec : t.toUs / 1000000 = (DT.ofUs (wholeSecond x.start + 1000000)).toUs / 1000000 := by
        rw [DT.toUs_ofUs hr'.1, hu]
        unfold Time.sinceEpoch wholeSecond dayUs at *; omega
      rw [he, httpDate_second ht (DT.ofUs_valid hr'.1 hr'.2) hsec]
  · right; right
    refine ⟨?_, (asRFC1123_spec _ rfl).2 hr⟩
    generalize timedeltaSeconds (.float (asPOSIX x)) = T at *
    unfold Time.sinceEpoch Representable maxUs dayUs at *; omega

/-- C86 as stated is false: the last microsecond of a second in the year 9999 is printed as the next second… -/
theorem rfc1123_fails_second : ∃ x : Time, x.t.Valid ∧ x.res = 1 ∧
    httpDate x.t = ascii "Fri, 31 Dec 9999 23:59:58 GMT" ∧ asRFC1123 x = .ok (ascii "Fri, 31 Dec 9999 23:59:59 GMT") := by
  refine ⟨⟨⟨9999, 12, 31, 23, 59, 58, 999999⟩, 1⟩, by decide, rfl, by decide, ?_⟩
  have hp : asPOSIX ⟨⟨9999, 12, 31, 23, 59, 58, 999999⟩, 1⟩ = 253402300799 := by
    rw [asPOSIX_round_up (S := 253402300798) (by decide) (by norm_num) (by norm_num)]; norm_num
  have ht : timedeltaSeconds (.float (253402300799)) = 253402300799 * 1000000 :=
    timedelta_near _ _ (by norm_num)
  obtain ⟨t, h1, h2, h3⟩ := (asRFC1123_spec (x := ⟨⟨9999, 12, 31, 23, 59, 58, 999999⟩, 1⟩) (253402300799 * 1000000) (by rw [hp, ht])).1
    (by decide)
  rw [h3]
  have : t = ⟨9999, 12, 31, 23, 59, 59, 0⟩ := DT.toUs_inj h1 (by decide) (by rw [h2]; decide)
  rw [this]
  have : httpDate ⟨9999, 12, 31, 23, 59, 59, 0⟩ = ascii "Fri, 31 Dec 9999 23:59:59 GMT" := by decide
  rw [this]

/-- …and the last microsecond of that year raises `ValueError`. -/
theorem rfc1123_fails_last : ∃ x : Time, x.t.Valid ∧ x.res = 1 ∧ asRFC1123 x = .error .valueError := by
  refine ⟨⟨⟨9999, 12, 31, 23, 59, 59, 999999⟩, 1⟩, by decide, rfl, ?_⟩
  have hp : asPOSIX ⟨⟨9999, 12, 31, 23, 59, 59, 999999⟩, 1⟩ = 253402300800 := by
    rw [asPOSIX_round_up (S := 253402300799) (by decide) (by norm_num) (by norm_num)]; norm_num
  have ht : timedeltaSeconds (.float (253402300800)) = 253402300800 * 1000000 :=
    timedelta_near _ _ (by norm_num)
  exact (asRFC1123_spec (253402300800 * 1000000) (by rw [hp, ht])).2 (by decide)

/-- The text always has 29 characters. -/
theorem httpDate_length {t : DT} (ht : t.Valid) : (httpDate t).length = 29 := by
  obtain ⟨⟨a1, a2, a3, a4, a5⟩, -⟩ := ht
  have h1 : ∀ n, n < 7 → ((["Mon", "Tue", "Wed", "Thu", "Fri", "Sat", "Sun"].map ascii).getD n []).length = 3 := by decide
  have h2 : ∀ n, n < 12 → ((["Jan", "Feb", "Mar", "Apr", "May", "Jun", "Jul", "Aug", "Sep", "Oct", "Nov", "Dec"].map
      ascii).getD n []).length = 3 := by decide
  unfold httpDate
  simp only [List.length_append]
  rw [h1 _ (by omega), h2 _ (by omega)]
  rfl

/-- …and `fromRFC2822` reads it back as the second printed, from the year 100 on. -/
theorem httpDate_read {t : DT} (ht : t.Valid) (hy : 100 ≤ t.year) :
    ∃ y, fromRFC2822 (httpDate t) = .ok y ∧ y.t.Valid ∧ y.start = wholeSecond t.toUs ∧ y.res = 1000000 := by
  have hw : t.weekday < 7 := Nat.mod_lt _ (by omega)
  have ht' := ht
  obtain ⟨⟨a1, a2, a3, a4, a5⟩, a6, a7, a8, a9, a10⟩ := ht
  obtain ⟨m1, m2, m3, m4⟩ := month_table t.month a2 a3
  let r : RfcText := { dayName := some (rfcWeekdays.getD t.weekday []), dd := padZero 2 t.day,
                       mon := rfcMonths.getD (t.month - 1) [], yy := padZero 4 t.year, hh := padZero 2 t.hour,
                       mi := padZero 2 t.minute, ss := some (padZero 2 t.second), neg := false, zh := [48, 48],
                       zm := [48, 48] }
  have hz : ∀ c ∈ [48, 48], isDigit c = true := by decide
  have hz0 : digitsVal [48, 48] = 0 := by decide
  have hok : r.OK := by
    refine ⟨numeral_padZero _ _, ⟨_, m1, rfl⟩, numeral_padZero _ _, numeral_padZero _ _, numeral_padZero _ _, ?_,
      hz, hz, rfl⟩
    rintro s ⟨⟩
    exact numeral_padZero _ _
  have hmin : r.minutes = 0 := by simp [RfcText.minutes, r, hz0]
  have hnames : r.Names { t with us := 0 } := by
    have e : digitsVal r.yy = t.year := digitsVal_padZero 4 t.year
    refine ⟨?_, m2.symm, (digitsVal_padZero 2 t.day).symm, (digitsVal_padZero 2 t.hour).symm,
      (digitsVal_padZero 2 t.minute).symm, (digitsVal_padZero 2 t.second).symm, rfl⟩
    rw [e]
    refine ⟨fun h => ?_, fun _ h => ?_, fun _ => rfl⟩ <;> exact absurd hy (by omega)
  have hv' : ({ t with us := 0 } : DT).Valid := ⟨ht'.1, ht'.2.1, ht'.2.2.1, ht'.2.2.2.1, ht'.2.2.2.2.1, by simp⟩
  have hsp : Spaced [rfcWeekdays.getD t.weekday [] ++ [44], r.dd, r.mon, r.yy, joinSep [58] r.clock, [71, 77, 84]]
      (formatGmt t) := by
    have h5 : Spaced [[71, 77, 84]] (32 :: [71, 77, 84]) :=
      Spaced.cons (w := [32]) (by decide) (by decide) (by decide) (Or.inl rfl) (Spaced.nil (w := []) (by simp))
    have h4 := spaced_step (tok := padZero 2 t.hour ++ [58] ++ (padZero 2 t.minute ++ [58] ++ padZero 2 t.second)) 0
      (by simp) (by
        intro c hc
        simp only [List.mem_append, List.mem_singleton] at hc
        rcases hc with (hc | rfl) | (hc | rfl) | hc
        · exact digits_nospace (padZero_isDigit _ _) c hc
        · decide
        · exact digits_nospace (padZero_isDigit _ _) c hc
        · decide
        · exact digits_nospace (padZero_isDigit _ _) c hc) h5
    have h3 := spaced_step (tok := padZero 4 t.year) 0 (numeral_padZero _ _).1 (digits_nospace (padZero_isDigit _ _)) h4
    have h2 := spaced_step 0 m4 m3 h3
    have h1 := spaced_step (tok := padZero 2 t.day) 0 (numeral_padZero _ _).1 (digits_nospace (padZero_isDigit _ _)) h2
    have := Spaced.cons (w := []) (tok := rfcWeekdays.getD t.weekday [] ++ [44]) (by simp) (by simp) (by
      intro c hc
      simp only [List.mem_append, List.mem_singleton] at hc
      rcases hc with hc | rfl
      · exact weekday_table _ hw c hc
      · decide) (Or.inr ⟨32, _, rfl, rfl⟩) h1
    simpa [formatGmt, r, RfcText.clock, joinSep] using this
  have hp : parsedateTz (httpDate t) = some [fullYear (digitsVal r.yy), r.month, digitsVal r.dd, digitsVal r.hh,
      digitsVal r.mi, r.second, 0, 1, -1, r.minutes * 60] := by
    rw [← formatGmt_eq ht']
    unfold parsedateTz
    rw [splitWs_spaced hsp]
    have h1 : (rfcWeekdays.getD t.weekday [] ++ [44]).getLast? = some 44 := by simp
    simp only [skipDayName, h1, true_or, if_true, splitRfc850, splitZone]
    rw [parseParts_zone hok, hmin]
    have : zoneSeconds [71, 77, 84] = 0 := by decide
    rw [this]
    rfl
  obtain ⟨y, g1, g2, g3, g4⟩ := (rfc_parse_numbers hp hv' hnames).1 (by rw [hmin]; decide) (by
    rw [hmin]; have := DT.toUs_range hv'; unfold Representable; omega)
  refine ⟨y, g1, g2, ?_, g4⟩
  rw [g3, hmin]
  have e : ({ t with us := 0 } : DT).toUs = t.toUs - t.us := by unfold DT.toUs DT.ord; simp
  have hmod : t.toUs % 1000000 = t.us := by unfold DT.toUs; omega
  unfold wholeSecond
  rw [e]
  omega

end Verif.Extime
