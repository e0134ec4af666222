import Verif.Model.ExtimeShow
import Verif.Props.ExtimeHuman
/-!
# C21: `asHumanly`

`unit p`: the length of the unit shown, in microseconds.
-/
namespace Verif.Extime
open Verif.Py

def Precision.unit : Precision → Int
  | .seconds => 1000000
  | _ => 60000000

theorem lower_padZero (w n : Nat) : (padZero w n).map asciiLower = padZero w n := by
  conv => rhs; rw [← List.map_id (padZero w n)]
  apply List.map_congr_left
  intro c hc
  have := padZero_isDigit w n c hc
  unfold isDigit at this
  unfold asciiLower
  simp only [Bool.and_eq_true, decide_eq_true_eq] at this
  rw [if_neg (by omega)]
  rfl

theorem clock_lower (secs : Bool) (t : DT) : (clockText secs t).map asciiLower =
    padZero 2 (if t.hour % 12 = 0 then 12 else t.hour % 12) ++ ([58] ++ (padZero 2 t.minute ++
    ((if secs then [58] ++ padZero 2 t.second else []) ++ ([32] ++ (if t.hour < 12 then [97, 109] else [112, 109]))))) := by
  unfold clockText
  simp only [List.map_append, lower_padZero, List.append_assoc]
  cases secs <;> by_cases h : t.hour < 12 <;> simp [h, lower_padZero, asciiLower]

theorem clock_length {secs : Bool} {t : DT} (h : t.Valid) :
    ((clockText secs t).map asciiLower).length = if secs then 11 else 8 := by
  have h1 := h.2.2.1
  have h2 := h.2.2.2.1
  have h3 := h.2.2.2.2.1
  have e1 := padZero_length 2 (if t.hour % 12 = 0 then 12 else t.hour % 12) (by omega) (by split <;> omega)
  have e2 := padZero_length 2 t.minute (by omega) (by omega)
  have e3 := padZero_length 2 t.second (by omega) (by omega)
  rw [clock_lower]
  cases secs <;> by_cases h : t.hour < 12 <;> simp [h, e1, e2, e3]

theorem padZero_inj {w m n : Nat} (h : padZero w m = padZero w n) : m = n := by
  have := congrArg digitsVal h
  rwa [digitsVal_padZero, digitsVal_padZero] at this

/-- The clock determines hour, minute, and (if shown) second. -/
theorem clock_inj {secs : Bool} {s t : DT} (hs : s.Valid) (ht : t.Valid)
    (h : (clockText secs s).map asciiLower = (clockText secs t).map asciiLower) :
    s.hour = t.hour ∧ s.minute = t.minute ∧ (secs = true → s.second = t.second) := by
  have hs1 := hs.2.2.1
  have hs2 := hs.2.2.2.1
  have hs3 := hs.2.2.2.2.1
  have ht1 := ht.2.2.1
  have ht2 := ht.2.2.2.1
  have ht3 := ht.2.2.2.2.1
  rw [clock_lower, clock_lower] at h
  obtain ⟨a1, h⟩ := List.append_inj h (by
    rw [padZero_length 2 _ (by omega) (by split <;> omega), padZero_length 2 _ (by omega) (by split <;> omega)])
  have a1 := padZero_inj a1
  obtain ⟨_, h⟩ := List.append_inj h rfl
  obtain ⟨a2, h⟩ := List.append_inj h (by
    rw [padZero_length 2 _ (by omega) (by omega), padZero_length 2 _ (by omega) (by omega)])
  have a2 := padZero_inj a2
  have fin : ∀ {u v : List Nat}, u ++ ([32] ++ if s.hour < 12 then [97, 109] else [112, 109]) =
      v ++ ([32] ++ if t.hour < 12 then [97, 109] else [112, 109]) → u.length = v.length →
      u = v ∧ s.hour = t.hour := by
    intro u v e hl
    obtain ⟨e1, e2⟩ := List.append_inj e hl
    refine ⟨e1, ?_⟩
    have e3 := (List.append_inj e2 rfl).2
    by_cases c1 : s.hour < 12 <;> by_cases c2 : t.hour < 12
    · split at a1 <;> split at a1 <;> omega
    · rw [if_pos c1, if_neg c2] at e3; cases e3
    · rw [if_neg c1, if_pos c2] at e3; cases e3
    · split at a1 <;> split at a1 <;> omega
  cases secs with
  | false =>
    obtain ⟨_, e⟩ := fin h rfl
    exact ⟨e, a2, fun h => by cases h⟩
  | true =>
    obtain ⟨e, e'⟩ := fin h (by
      simp only [if_true, List.length_append]
      rw [padZero_length 2 _ (by omega) (by omega), padZero_length 2 _ (by omega) (by omega)])
    simp only [if_true] at e
    exact ⟨e', a2, fun _ => padZero_inj (List.append_inj e rfl).2⟩

/-- The date, as printed when it is not today. -/
theorem date_inj {s t n : DT} (hs : s.Valid) (ht : t.Valid)
    (h : natStr s.day ++ [32] ++ rfcMonths.getD (s.month - 1) [] ++ (if s.year == n.year then [] else [32] ++ natStr s.year) =
      natStr t.day ++ [32] ++ rfcMonths.getD (t.month - 1) [] ++ (if t.year == n.year then [] else [32] ++ natStr t.year)) :
    s.year = t.year ∧ s.month = t.month ∧ s.day = t.day := by
  have hsm : 1 ≤ s.month ∧ s.month ≤ 12 := ⟨hs.1.2.1, hs.1.2.2.1⟩
  have htm : 1 ≤ t.month ∧ t.month ≤ 12 := ⟨ht.1.2.1, ht.1.2.2.1⟩
  simp only [List.append_assoc] at h
  have cut : ∀ {a b x y : List Nat}, (∀ c ∈ a, isDigit c = true) → (∀ c ∈ b, isDigit c = true) →
      a ++ 32 :: x = b ++ 32 :: y → a = b ∧ x = y := by
    intro a
    induction a with
    | nil =>
      intro b x y _ hb e
      cases b with
      | nil => exact ⟨rfl, by simpa using e⟩
      | cons c r =>
        have := hb c (by simp)
        simp only [List.nil_append, List.cons_append, List.cons.injEq] at e
        rw [← e.1] at this; exact absurd this (by decide)
    | cons c r ih =>
      intro b x y ha hb e
      cases b with
      | nil =>
        have := ha c (by simp)
        simp only [List.nil_append, List.cons_append, List.cons.injEq] at e
        rw [e.1] at this; exact absurd this (by decide)
      | cons c' r' =>
        simp only [List.cons_append, List.cons.injEq] at e
        obtain ⟨e1, e2⟩ := ih (fun c hc => ha c (by simp [hc])) (fun c hc => hb c (by simp [hc])) e.2
        exact ⟨by rw [e.1, e1], e2⟩
  obtain ⟨e1, h⟩ := cut (natStr_isDigit _) (natStr_isDigit _) h
  replace h : rfcMonths.getD (s.month - 1) [] ++ _ = rfcMonths.getD (t.month - 1) [] ++ _ := h
  have lens : ∀ m, m < 12 → (rfcMonths.getD m []).length = 3 := by decide
  obtain ⟨e2, h⟩ := List.append_inj h (by rw [lens _ (by omega), lens _ (by omega)])
  have inj : ∀ m, m < 12 → ∀ k, k < 12 → rfcMonths.getD m [] = rfcMonths.getD k [] → m = k := by decide
  have e2 := inj _ (by omega) _ (by omega) e2
  refine ⟨?_, by omega, natStr_inj e1⟩
  by_cases c1 : s.year = n.year <;> by_cases c2 : t.year = n.year
  · omega
  · simp [c1, c2] at h
  · simp [c1, c2] at h
  · rw [if_neg (by simpa using c1), if_neg (by simpa using c2)] at h
    exact natStr_inj (List.append_inj h rfl).2

theorem sameDate_iff {a b : DT} : sameDate a b = true ↔ a.year = b.year ∧ a.month = b.month ∧ a.day = b.day := by
  unfold sameDate
  simp [and_assoc]

/-- The text determines the date, the hour, the minute and (if shown) the second. -/
theorem humanText_inj {secs : Bool} {s t n : DT} (hs : s.Valid) (ht : t.Valid)
    (h : humanText secs false s n = humanText secs false t n) :
    s.year = t.year ∧ s.month = t.month ∧ s.day = t.day ∧ s.hour = t.hour ∧ s.minute = t.minute ∧
      (secs = true → s.second = t.second) := by
  have form : ∀ {d : DT}, humanText secs false d n = (if sameDate d n then [] else
      (natStr d.day ++ [32] ++ rfcMonths.getD (d.month - 1) [] ++ (if d.year == n.year then [] else [32] ++ natStr d.year)) ++
        [44, 32]) ++ (clockText secs d).map asciiLower := by
    intro d
    unfold humanText
    by_cases c : sameDate d n = true
    · simp [c]
    · simp [c, asciiLower]
  rw [form, form] at h
  obtain ⟨h1, h2⟩ := List.append_inj' h (by rw [clock_length hs, clock_length ht])
  obtain ⟨k1, k2, k3⟩ := clock_inj hs ht h2
  have hd : s.year = t.year ∧ s.month = t.month ∧ s.day = t.day := by
    by_cases c1 : sameDate s n = true <;> by_cases c2 : sameDate t n = true
    · obtain ⟨a, b, c⟩ := sameDate_iff.1 c1
      obtain ⟨a', b', c'⟩ := sameDate_iff.1 c2
      omega
    · rw [if_pos c1, if_neg c2] at h1; simp at h1
    · rw [if_neg c1, if_pos c2] at h1; simp at h1
    · rw [if_neg c1, if_neg c2] at h1
      exact date_inj hs ht (List.append_inj' h1 rfl).1
  exact ⟨hd.1, hd.2.1, hd.2.2, k1, k2, k3⟩

theorem truncSecond {t : DT} (ht : t.Valid) : ({ t with us := 0 } : DT).Valid ∧
    ({ t with us := 0 } : DT).toUs = t.toUs / 1000000 * 1000000 := by
  obtain ⟨h1, h2, h3, h4, h5, h6⟩ := ht
  refine ⟨⟨h1, h2, h3, h4, h5, by simp⟩, ?_⟩
  have : ({ t with us := 0 } : DT).ord = t.ord := rfl
  unfold DT.toUs
  simp only
  rw [this]
  push_cast
  omega

/-- The number of whole units since the epoch, and the fields down to that unit, determine each other. -/
theorem units_iff {s t : DT} (hs : s.Valid) (ht : t.Valid) (p : Precision) (hp : p ≠ .other) :
    s.toUs / p.unit = t.toUs / p.unit ↔ s.year = t.year ∧ s.month = t.month ∧ s.day = t.day ∧ s.hour = t.hour ∧
      s.minute = t.minute ∧ ((p == .seconds) = true → s.second = t.second) := by
  cases p with
  | other => exact absurd rfl hp
  | minutes =>
    obtain ⟨v1, e1⟩ := truncMinute hs
    obtain ⟨v2, e2⟩ := truncMinute ht
    simp only [Precision.unit]
    constructor
    · intro h
      have := DT.toUs_inj v1 v2 (by rw [e1, e2, h])
      simp only [DT.mk.injEq] at this
      exact ⟨this.1, this.2.1, this.2.2.1, this.2.2.2.1, this.2.2.2.2.1, fun h => by cases h⟩
    · intro ⟨a, b, c, d, e, _⟩
      have : ({ s with second := 0, us := 0 } : DT) = { t with second := 0, us := 0 } := by
        simp only [DT.mk.injEq]; exact ⟨a, b, c, d, e, trivial, trivial⟩
      rw [this, e2] at e1
      omega
  | seconds =>
    obtain ⟨v1, e1⟩ := truncSecond hs
    obtain ⟨v2, e2⟩ := truncSecond ht
    simp only [Precision.unit]
    constructor
    · intro h
      have := DT.toUs_inj v1 v2 (by rw [e1, e2, h])
      simp only [DT.mk.injEq] at this
      exact ⟨this.1, this.2.1, this.2.2.1, this.2.2.2.1, this.2.2.2.2.1, fun _ => this.2.2.2.2.2.1⟩
    · intro ⟨a, b, c, d, e, f⟩
      have : ({ s with us := 0 } : DT) = { t with us := 0 } := by
        simp only [DT.mk.injEq]; exact ⟨a, b, c, d, e, f rfl, trivial⟩
      rw [this, e2] at e1
      omega

theorem asDatetime_getD (x : Time) (tz : Option Tz) : asDatetime x tz = asDatetime x (some (tz.getD utc)) := by
  cases tz <;> rfl

theorem asHumanly_ok {x now : Time} (hx : x.t.Valid) (hn : now.t.Valid) {tz : Option Tz} (hz : (tz.getD utc).Good)
    {p : Precision} {s : List Nat} (h : asHumanly x tz now p = .ok s) : p ≠ .other ∧ ∃ d n : DT,
      d.Valid ∧ n.Valid ∧ d.toUs = wall x (tz.getD utc) ∧ n.toUs = wall now (tz.getD utc) ∧
      s = humanText (p == .seconds) (isAllDay x) d n := by
  unfold asHumanly at h
  split at h
  · cases h
  rename_i hp
  refine ⟨hp, ?_⟩
  rw [asDatetime_getD now, asDatetime_getD x] at h
  by_cases h1 : Representable (wall now (tz.getD utc))
  · obtain ⟨n, e, v, u⟩ := (asDatetime_wall hn hz).1 h1
    by_cases h2 : Representable (wall x (tz.getD utc))
    · obtain ⟨d, e', v', u'⟩ := (asDatetime_wall hx hz).1 h2
      rw [e, e'] at h
      cases h
      exact ⟨d.dt, n.dt, v', v, u', u, rfl⟩
    · rw [e, (asDatetime_wall hx hz).2 h2] at h; cases h
  · rw [(asDatetime_wall hn hz).2 h1] at h; cases h

/-- **C21**: for a fixed `now`, zone and precision, two times that are not whole days have the same text exactly if
they show the same minute (second) of the same day on the wall. -/
theorem humanly_injective {x y now : Time} (hx : x.t.Valid) (hy : y.t.Valid) (hn : now.t.Valid) {tz : Option Tz}
    (hz : (tz.getD utc).Good) {p : Precision} {s s' : List Nat} (hxr : x.res ≠ dayUs) (hyr : y.res ≠ dayUs)
    (h : asHumanly x tz now p = .ok s) (h' : asHumanly y tz now p = .ok s') :
    s = s' ↔ wall x (tz.getD utc) / p.unit = wall y (tz.getD utc) / p.unit := by
  obtain ⟨hp, d, n, v1, v2, u1, u2, rfl⟩ := asHumanly_ok hx hn hz h
  obtain ⟨_, d', n', v1', v2', u1', u2', rfl⟩ := asHumanly_ok hy hn hz h'
  obtain rfl : n = n' := DT.toUs_inj v2 v2' (by rw [u2, u2'])
  have ex : isAllDay x = false := by simpa [isAllDay] using hxr
  have ey : isAllDay y = false := by simpa [isAllDay] using hyr
  rw [ex, ey, ← u1, ← u1', units_iff v1 v1' p hp]
  refine ⟨humanText_inj v1 v1', ?_⟩
  intro ⟨a, b, c, e, f, g⟩
  have ec : clockText (p == .seconds) d = clockText (p == .seconds) d' := by
    unfold clockText
    rw [e, f]
    cases hps : (p == .seconds) with
    | false => rfl
    | true => rw [g hps]
  unfold humanText sameDate
  rw [a, b, c, ec]

/-- … and it is refused for a precision that is neither, and overflows when the wall clock leaves the years 1–9999;
nothing else is raised. -/
theorem humanly_total {x now : Time} (hx : x.t.Valid) (hn : now.t.Valid) {tz : Option Tz} (hz : (tz.getD utc).Good)
    (p : Precision) :
    (p = .other → asHumanly x tz now p = .error (.other "InvalidPrecision")) ∧
    (p ≠ .other → Representable (wall x (tz.getD utc)) → Representable (wall now (tz.getD utc)) →
      ∃ s, asHumanly x tz now p = .ok s) ∧
    (p ≠ .other → ¬ (Representable (wall x (tz.getD utc)) ∧ Representable (wall now (tz.getD utc))) →
      asHumanly x tz now p = .error .overflowError) := by
  unfold asHumanly
  rw [asDatetime_getD now, asDatetime_getD x]
  refine ⟨fun h => by rw [if_pos h], fun h h1 h2 => ?_, fun h h1 => ?_⟩
  · obtain ⟨n, e, _⟩ := (asDatetime_wall hn hz).1 h2
    obtain ⟨d, e', _⟩ := (asDatetime_wall hx hz).1 h1
    rw [if_neg h, e, e']
    exact ⟨_, rfl⟩
  · rw [if_neg h]
    by_cases h2 : Representable (wall now (tz.getD utc))
    · obtain ⟨n, e, _⟩ := (asDatetime_wall hn hz).1 h2
      rw [e, (asDatetime_wall hx hz).2 (fun h3 => h1 ⟨h3, h2⟩)]
    · rw [(asDatetime_wall hn hz).2 h2]

/-- 2004-02-29 13:05 UTC, said on the same day, in the same year, and in another year -/
example : let x : Time := ⟨⟨2004, 2, 29, 13, 5, 9, 0⟩, 1⟩
    asHumanly x none ⟨⟨2004, 2, 29, 1, 0, 0, 0⟩, 1⟩ .minutes = .ok [48, 49, 58, 48, 53, 32, 112, 109] ∧
    asHumanly x none ⟨⟨2004, 3, 1, 1, 0, 0, 0⟩, 1⟩ .minutes =
      .ok [50, 57, 32, 70, 101, 98, 44, 32, 48, 49, 58, 48, 53, 32, 112, 109] ∧
    asHumanly x none ⟨⟨2005, 2, 28, 1, 0, 0, 0⟩, 1⟩ .seconds =
      .ok [50, 57, 32, 70, 101, 98, 32, 50, 48, 48, 52, 44, 32, 48, 49, 58, 48, 53, 58, 48, 57, 32, 112, 109] := by decide

/-- Two minutes of the same day, said in another year -/
example : ∃ x y now : Time, x.t.Valid ∧ y.t.Valid ∧ now.t.Valid ∧ x.res ≠ dayUs ∧ y.res ≠ dayUs ∧
    wall x ⟨-570⟩ / 60000000 ≠ wall y ⟨-570⟩ / 60000000 ∧ (∃ s, asHumanly x (some ⟨-570⟩) now .minutes = .ok s) ∧
    ∃ s, asHumanly y (some ⟨-570⟩) now .minutes = .ok s :=
  ⟨⟨⟨2004, 2, 29, 13, 5, 9, 0⟩, 1⟩, ⟨⟨2004, 2, 29, 13, 6, 9, 0⟩, 1⟩, ⟨⟨2001, 2, 28, 13, 6, 9, 0⟩, 1⟩, by decide, by decide,
    by decide, by decide, by decide, by decide, ⟨_, rfl⟩, ⟨_, rfl⟩⟩

end Verif.Extime
