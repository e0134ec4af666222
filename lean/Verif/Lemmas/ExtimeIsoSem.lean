import Verif.Lemmas.ExtimeIsoDate
import Verif.Props.Extime
/-!
# What an ISO 8601 string means

The meaning of the grammar of `Lemmas/ExtimeIso`, and the theorem that `fromISO8601TimeAndDate` computes it.
-/
namespace Verif.Extime
open Verif.Py

/-! ## Decimal fractions in floating point -/

theorem frac_round (q : Rat) (m : Int) (h0 : 0 ≤ q) (h1 : q ≤ 1) (hm : |q * 1000000 - m| ≤ 1 / 4) :
    rhe (fmul (roundF q) 1000000) = m := by
  have e1 := roundF_error q 1 (by rw [abs_of_nonneg h0]; norm_num; linarith) (by norm_num)
  norm_num at e1
  rw [abs_le] at e1 hm
  apply rhe_eq
  have hb : |roundF q * 1000000| < 2 ^ (21 : Int) := by
    rw [abs_lt]; norm_num; constructor <;> linarith
  have e2 := roundF_error (roundF q * 1000000) 21 hb (by norm_num)
  unfold fmul
  norm_num at e2
  rw [abs_le] at e2
  rw [abs_lt]
  constructor <;> linarith

/-- The microseconds are within a thousandth of the nearest to the fraction. -/
theorem frac_near (q : Rat) (h0 : 0 ≤ q) (h1 : q ≤ 1) :
    |(rhe (fmul (roundF q) 1000000) : Rat) - q * 1000000| ≤ 1 / 2 + 1 / 1000 := by
  have e1 := roundF_error q 1 (by rw [abs_of_nonneg h0]; norm_num; linarith) (by norm_num)
  norm_num at e1
  rw [abs_le] at e1
  have hb : |roundF q * 1000000| < 2 ^ (21 : Int) := by
    rw [abs_lt]; norm_num; constructor <;> linarith
  have e2 := roundF_error (roundF q * 1000000) 21 hb (by norm_num)
  have e3 := rhe_near (fmul (roundF q) 1000000)
  unfold fmul at *
  norm_num at e2
  rw [abs_le] at e2 e3 ⊢
  constructor <;> linarith

/-! ## Numbers -/

theorem ofDigits_lt (ds : List Nat) (h : ∀ d ∈ ds, d < 10) : ofDigits 10 ds < 10 ^ ds.length := by
  have : ∀ (ds : List Nat) (a : Nat), (∀ d ∈ ds, d < 10) →
      ds.foldl (fun a d => a * 10 + d) a < (a + 1) * 10 ^ ds.length := by
    intro ds
    induction ds with
    | nil => intro a _; simp
    | cons d ds ih =>
      intro a hd
      simp only [List.foldl_cons, List.length_cons]
      have h1 := ih (a * 10 + d) (fun e he => hd e (List.mem_cons_of_mem _ he))
      have h2 := hd d (by simp)
      calc _ < (a * 10 + d + 1) * 10 ^ ds.length := h1
        _ ≤ (a + 1) * 10 * 10 ^ ds.length := Nat.mul_le_mul_right _ (by omega)
        _ = _ := by ring
  have := this ds 0 h
  simpa [ofDigits] using this

theorem int_lt (D : Digits) (s : List Nat) : D.int s < 10 ^ s.length := by
  unfold Digits.int
  have := ofDigits_lt (s.map fun c => (D.val c).getD 0) (by
    intro d hd
    obtain ⟨c, -, rfl⟩ := List.mem_map.1 hd
    cases h : D.val c with
    | none => simp
    | some v => simpa using D.lt c v h)
  simpa using this

theorem IsDig.int_lt {D : Digits} {n : Nat} {s : List Nat} (h : IsDig D n s) : D.int s < 10 ^ n := by
  rw [← h.1]; exact Verif.Extime.int_lt D s

/-! ## Meaning -/

/-- The day a full date names in the year `y`. -/
def FullDate.Names (D : Digits) (y N : Nat) : FullDate → Prop
  | .ymd _ m _ d => DateOK y (D.int m) (D.int d) ∧ N = ymd2ord y (D.int m) (D.int d)
  | .ywd _ w _ d => IsoDay y (D.int w) (D.int d) N
  | .yd _ n => OrdinalDay y (D.int n) N

/-- The first day of the period named. -/
def Rest.Names (D : Digits) (y N : Nat) : Rest → Prop
  | .nothing => N = ymd2ord y 1 1
  | .month _ m => 1 ≤ D.int m ∧ D.int m ≤ 12 ∧ N = ymd2ord y (D.int m) 1
  | .week _ w => IsoDay y (D.int w) 1 N
  | .day fd => fd.Names D y N
  | .time fd _ _ => fd.Names D y N

/-- `int(round(float('.' + f) * 1000000))` -/
def fracUs (D : Digits) (f : List Nat) : Int := rhe (fmul (D.float f) 1000000)

/-- A clock that shows a time of day. -/
def Clock.OK (D : Digits) : Clock → Prop
  | .hh h => D.int h ≤ 23
  | .hm h _ m => D.int h ≤ 23 ∧ D.int m ≤ 59
  | .hms h _ m _ s => D.int h ≤ 23 ∧ D.int m ≤ 59 ∧ D.int s ≤ 59
  | .frac h _ m _ s _ f => D.int h ≤ 23 ∧ D.int m ≤ 59 ∧ D.int s ≤ 59 ∧ fracUs D f < 1000000

/-- …in microseconds since midnight. -/
def Clock.since (D : Digits) : Clock → Int
  | .hh h => D.int h * 3600000000
  | .hm h _ m => D.int h * 3600000000 + D.int m * 60000000
  | .hms h _ m _ s => D.int h * 3600000000 + D.int m * 60000000 + D.int s * 1000000
  | .frac h _ m _ s _ f => D.int h * 3600000000 + D.int m * 60000000 + D.int s * 1000000 + fracUs D f

/-- The length of the unit a clock counts; a microsecond is the finest. -/
def Clock.unit : Clock → Int
  | .hh _ => 3600000000
  | .hm _ _ _ => 60000000
  | .hms _ _ _ _ _ => 1000000
  | .frac _ _ _ _ _ _ f => if f.length ≤ 6 then 10 ^ (6 - f.length) else 1

/-- The offset the code reads, in minutes. -/
def Zone.read (D : Digits) (tz : Option Tz) : Zone → Tz
  | .unstated => tz.getD ⟨0⟩
  | .zulu => ⟨0⟩
  | .hour neg h => ⟨(if neg then -(D.int h : Int) else D.int h) * 60⟩
  | .hourMin neg h _ m => ⟨(if neg then -(D.int h : Int) else D.int h) * 60 + D.int m⟩

/-- Days in a year. -/
def lengthOfYear (y : Nat) : Nat := if 4 ∣ y ∧ (¬ 100 ∣ y ∨ 400 ∣ y) then 366 else 365

/-- The length of the period named, in microseconds. -/
def Rest.len (D : Digits) (y : Nat) : Rest → Int
  | .nothing => lengthOfYear y * dayUs
  | .month _ m => lengthOfMonth y (D.int m) * dayUs
  | .week _ _ => 7 * dayUs
  | .day _ => dayUs
  | .time _ c _ => c.unit

def Rest.ClockOK (D : Digits) : Rest → Prop
  | .time _ c _ => c.OK D
  | _ => True

def Rest.since (D : Digits) : Rest → Int
  | .time _ c _ => c.since D
  | _ => 0

def Rest.zone (D : Digits) (tz : Option Tz) : Rest → Option Tz
  | .time _ _ z => some (z.read D tz)
  | _ => none

/-- The time of day as `datetime` sees it. -/
def Rest.minutes (D : Digits) (tz : Option Tz) (r : Rest) : Int :=
  match r.zone D tz with
  | some z => z.minutes
  | none => 0

/-! ## The groups of a string, as numbers -/

section
variable (D : Digits)

theorem us_zero : rhe (fmul (D.float [48]) 1000000) = 0 := by
  have hv : D.val 48 = some 0 := by rw [D.ascii 48 (by omega)]; simp
  have : D.float [48] = roundF 0 := by
    unfold Digits.float Digits.int
    simp [hv, ofDigits]
  rw [this]
  exact frac_round 0 0 (by norm_num) (by norm_num) (by norm_num)

theorem put_year (r : Rest) (g : Groups) : (r.put g).year = g.year := by
  cases r with
  | nothing => rfl
  | month => rfl
  | week => rfl
  | day fd => cases fd <;> rfl
  | time fd c z => cases fd <;> cases c <;> cases z <;> rfl

theorem coerce_year (i : Iso) : (coerceGroups D i.groups).year = D.int i.year := by
  unfold coerceGroups Iso.groups
  simp only [put_year]

theorem namesDay_iff (i : Iso) (N : Nat) (hy : 1 ≤ D.int i.year) :
    NamesDay i.groups (coerceGroups D i.groups) N ↔ i.rest.Names D (D.int i.year) N := by
  obtain ⟨y, r⟩ := i
  cases r with
  | nothing =>
    simp only [NamesDay, Iso.groups, Rest.put, coerceGroups, Rest.Names, optInt]
    have : DateOK (D.int y) 1 1 := (jan1_ok hy).1
    simp [this]
  | month b m =>
    simp only [NamesDay, Iso.groups, Rest.put, coerceGroups, Rest.Names, optInt]
    have : DateOK (D.int y) (D.int m) 1 ↔ 1 ≤ D.int m ∧ D.int m ≤ 12 := by
      unfold DateOK
      constructor
      · rintro ⟨-, h1, h2, -⟩; exact ⟨h1, h2⟩
      · rintro ⟨h1, h2⟩
        refine ⟨hy, h1, h2, le_refl _, ?_⟩
        unfold daysInMonth
        have hp : ∀ (leap : Bool) (k : Nat), 1 ≤ k → k ≤ 12 → 1 ≤ monthLen leap k := by
          intro leap k a b; cases leap <;> interval_cases k <;> decide
        exact hp _ _ h1 h2
    simp [this, and_assoc]
  | week b w => simp [NamesDay, Iso.groups, Rest.put, coerceGroups, Rest.Names, optInt]
  | day fd =>
    cases fd <;> simp [NamesDay, Iso.groups, Rest.put, FullDate.put, coerceGroups, Rest.Names, FullDate.Names, optInt]
  | time fd c z =>
    cases fd <;> cases c <;> cases z <;>
      simp [NamesDay, Iso.groups, Rest.put, FullDate.put, Clock.put, Zone.put, coerceGroups, Rest.Names,
        FullDate.Names, optInt]

theorem fracUs_nonneg (f : List Nat) : 0 ≤ fracUs D f := by
  unfold fracUs Digits.float
  have hq0 : (0 : Rat) ≤ (D.int f : Rat) / 10 ^ f.length := by positivity
  have hq1 : (D.int f : Rat) / 10 ^ f.length ≤ 1 := by
    rw [div_le_one (by positivity)]
    exact_mod_cast (int_lt D f).le
  have := frac_near _ hq0 hq1
  rw [abs_le] at this
  have h : (-1 : Rat) < (rhe (fmul (roundF ((D.int f : Rat) / 10 ^ f.length)) 1000000) : Rat) := by linarith
  have : (-1 : Int) < rhe (fmul (roundF ((D.int f : Rat) / 10 ^ f.length)) 1000000) := by exact_mod_cast h
  omega

theorem todOK_iff (i : Iso) : TodOK (coerceGroups D i.groups) ↔ i.rest.ClockOK D := by
  obtain ⟨y, r⟩ := i
  have z := us_zero D
  cases r with
  | nothing => simp [TodOK, Iso.groups, Rest.put, coerceGroups, Rest.ClockOK, optInt, z]
  | month b m => simp [TodOK, Iso.groups, Rest.put, coerceGroups, Rest.ClockOK, optInt, z]
  | week b w => simp [TodOK, Iso.groups, Rest.put, coerceGroups, Rest.ClockOK, optInt, z]
  | day fd => cases fd <;> simp [TodOK, Iso.groups, Rest.put, FullDate.put, coerceGroups, Rest.ClockOK, optInt, z]
  | time fd c zn =>
    cases c with
    | frac h b m b' s comma f =>
      have := fracUs_nonneg D f
      cases fd <;> cases zn <;>
        simp [TodOK, Iso.groups, Rest.put, FullDate.put, Clock.put, Zone.put, coerceGroups, Rest.ClockOK, Clock.OK, optInt,
          ← fracUs.eq_1, this]
    | _ =>
      cases fd <;> cases zn <;>
        simp [TodOK, Iso.groups, Rest.put, FullDate.put, Clock.put, Zone.put, coerceGroups, Rest.ClockOK, Clock.OK, optInt, z]

theorem tod_eq (i : Iso) : (coerceGroups D i.groups).tod = i.rest.since D := by
  obtain ⟨y, r⟩ := i
  have z := us_zero D
  cases r with
  | nothing => simp [Nums.tod, Iso.groups, Rest.put, coerceGroups, Rest.since, optInt, z]
  | month b m => simp [Nums.tod, Iso.groups, Rest.put, coerceGroups, Rest.since, optInt, z]
  | week b w => simp [Nums.tod, Iso.groups, Rest.put, coerceGroups, Rest.since, optInt, z]
  | day fd => cases fd <;> simp [Nums.tod, Iso.groups, Rest.put, FullDate.put, coerceGroups, Rest.since, optInt, z]
  | time fd c zn =>
    cases fd <;> cases c <;> cases zn <;>
      simp [Nums.tod, Iso.groups, Rest.put, FullDate.put, Clock.put, Zone.put, coerceGroups, Rest.since, Clock.since, optInt, z,
        ← fracUs.eq_1] <;> ring

theorem hour_none (i : Iso) (tz : Option Tz) :
    (if i.groups.hour ≠ none then some (calculateTimezone D i.groups tz) else none) = i.rest.zone D tz := by
  obtain ⟨y, r⟩ := i
  cases r with
  | nothing => rfl
  | month b m => rfl
  | week b w => rfl
  | day fd => cases fd <;> rfl
  | time fd c zn =>
    cases fd <;> cases c <;> cases zn <;>
      simp [Iso.groups, Rest.put, FullDate.put, Clock.put, Zone.put, calculateTimezone, Rest.zone, Zone.read, optInt,
        fixedOffset]

theorem inRange_of (i : Iso) (hy : 1 ≤ D.int i.year) {N : Nat} (hn : i.rest.Names D (D.int i.year) N)
    (hc : i.rest.ClockOK D) : (coerceGroups D i.groups).inRange = true := by
  have hd : ∀ {y m d : Nat}, DateOK y m d → 1 ≤ m ∧ m ≤ 12 ∧ 1 ≤ d ∧ d ≤ 31 := by
    rintro y m d ⟨h1, h2, h3, h4, h5⟩
    unfold daysInMonth at h5
    have : monthLen (isLeap y) m ≤ 31 := by cases isLeap y <;> interval_cases m <;> decide
    omega
  have ho : ∀ {y k N : Nat}, 1 ≤ y → OrdinalDay y k N → 1 ≤ k ∧ k ≤ 366 := by
    rintro y k N h ⟨h1, h2, h3⟩
    rw [jan1] at h2 h3
    have := year_len y h
    omega
  have hct := (todOK_iff D i).2 hc
  unfold TodOK at hct
  unfold Nums.inRange
  simp only [Bool.and_eq_true, decide_eq_true_eq]
  obtain ⟨y, r⟩ := i
  have key : 1 ≤ (coerceGroups D (Iso.groups ⟨y, r⟩)).week ∧ (coerceGroups D (Iso.groups ⟨y, r⟩)).week ≤ 53 ∧
      1 ≤ (coerceGroups D (Iso.groups ⟨y, r⟩)).weekday ∧ (coerceGroups D (Iso.groups ⟨y, r⟩)).weekday ≤ 7 ∧
      1 ≤ (coerceGroups D (Iso.groups ⟨y, r⟩)).month ∧ (coerceGroups D (Iso.groups ⟨y, r⟩)).month ≤ 12 ∧
      1 ≤ (coerceGroups D (Iso.groups ⟨y, r⟩)).day ∧ (coerceGroups D (Iso.groups ⟨y, r⟩)).day ≤ 31 ∧
      1 ≤ (coerceGroups D (Iso.groups ⟨y, r⟩)).dayofyear ∧ (coerceGroups D (Iso.groups ⟨y, r⟩)).dayofyear ≤ 366 := by
    cases r with
    | nothing => simp [Iso.groups, Rest.put, coerceGroups, optInt]
    | month b m =>
      have h1 := hn.1
      have h2 := hn.2.1
      simp [Iso.groups, Rest.put, coerceGroups, optInt, h1, h2]
    | week b w =>
      have := isoDay_range (show IsoDay _ _ _ _ from hn) hy
      simp [Iso.groups, Rest.put, coerceGroups, optInt, this]
    | day fd =>
      cases fd with
      | ymd b m b' d =>
        have := hd (show DateOK _ _ _ from hn.1)
        simp [Iso.groups, Rest.put, FullDate.put, coerceGroups, optInt, this]
      | ywd b w b' d =>
        have := isoDay_range (show IsoDay _ _ _ _ from hn) hy
        simp [Iso.groups, Rest.put, FullDate.put, coerceGroups, optInt, this]
      | yd b n =>
        have := ho hy (show OrdinalDay _ _ _ from hn)
        simp [Iso.groups, Rest.put, FullDate.put, coerceGroups, optInt, this]
    | time fd c z =>
      cases fd with
      | ymd b m b' d =>
        have := hd (show DateOK _ _ _ from hn.1)
        cases c <;> cases z <;>
          simp [Iso.groups, Rest.put, FullDate.put, Clock.put, Zone.put, coerceGroups, optInt, this]
      | ywd b w b' d =>
        have := isoDay_range (show IsoDay _ _ _ _ from hn) hy
        cases c <;> cases z <;>
          simp [Iso.groups, Rest.put, FullDate.put, Clock.put, Zone.put, coerceGroups, optInt, this]
      | yd b n =>
        have := ho hy (show OrdinalDay _ _ _ from hn)
        cases c <;> cases z <;>
          simp [Iso.groups, Rest.put, FullDate.put, Clock.put, Zone.put, coerceGroups, optInt, this]
  omega

/-! ## The resolution -/

theorem frac_unit (k : Nat) : max resolution (rhe (fmul (roundF (1 / 10 ^ k)) 1000000)) =
    if k ≤ 6 then 10 ^ (6 - k) else 1 := by
  have h0 : (0 : Rat) ≤ 1 / 10 ^ k := by positivity
  have h1 : (1 : Rat) / 10 ^ k ≤ 1 := by
    rw [div_le_one (by positivity)]; exact one_le_pow₀ (by norm_num)
  split
  · rename_i hk
    have : ((1 : Rat) / 10 ^ k) * 1000000 = ((10 ^ (6 - k) : Int) : Rat) := by
      interval_cases k <;> norm_num
    rw [frac_round _ (10 ^ (6 - k)) h0 h1 (by rw [this]; norm_num)]
    unfold resolution
    have : (1 : Int) ≤ 10 ^ (6 - k) := one_le_pow₀ (by norm_num)
    omega
  · rename_i hk
    rw [frac_round _ 0 h0 h1]
    · rfl
    · have : (1 : Rat) / 10 ^ k ≤ 1 / 10 ^ 7 := by
        apply one_div_le_one_div_of_le (by norm_num)
        exact pow_le_pow_right₀ (by norm_num) (by omega)
      generalize (1 : Rat) / 10 ^ k = q at *
      rw [abs_le]
      norm_num at *
      constructor <;> linarith

theorem date_of_toUs {t : DT} (h : t.Valid) {y m d : Nat} (hd : DateOK y m d) (hy : y ≤ 9999)
    (he : t.toUs = ((ymd2ord y m d : Nat) - 1 : Int) * dayUs) : t = ⟨y, m, d, 0, 0, 0, 0⟩ := by
  have hv : (⟨y, m, d, 0, 0, 0, 0⟩ : DT).Valid := ⟨hd, hy, by simp, by simp, by simp, by simp⟩
  apply DT.toUs_inj h hv
  rw [he]
  unfold DT.toUs DT.ord dayUs
  simp

theorem month_step {y m : Nat} (hy : 1 ≤ y) (h1 : 1 ≤ m) (h2 : m < 12) :
    ymd2ord y (m + 1) 1 = ymd2ord y m 1 + lengthOfMonth y m ∧ DateOK y (m + 1) 1 ∧ DateOK y m 1 := by
  have hp : ∀ (leap : Bool) (k : Nat), 1 ≤ k → k ≤ 12 → 1 ≤ monthLen leap k := by
    intro leap k a b; cases leap <;> interval_cases k <;> decide
  have := beforeMonth_len (isLeap y) m h1 h2
  have e := daysInMonth_eq y m h1 (by omega)
  unfold daysInMonth at e
  refine ⟨by unfold ymd2ord; omega, ⟨hy, by omega, by omega, le_refl _, hp _ _ (by omega) (by omega)⟩,
    ⟨hy, by omega, by omega, le_refl _, hp _ _ (by omega) (by omega)⟩⟩

theorem year_step {y : Nat} (hy : 1 ≤ y) : ymd2ord (y + 1) 1 1 = ymd2ord y 1 1 + lengthOfYear y := by
  rw [jan1, jan1, beforeYear_succ y hy]
  unfold lengthOfYear
  have := isLeap_iff y
  by_cases hl : isLeap y = true
  · rw [if_pos (this.1 hl), if_pos hl]
  · rw [if_neg (fun h => hl (this.2 h)), if_neg hl]

/-- The resolution found for a string: the length of the period — but none for the year 9999. -/
theorem resolution_iff (i : Iso) (hi : i.WF D) (tz : Option Tz) {N : Nat} (hy : 1 ≤ D.int i.year)
    (hN : i.rest.Names D (D.int i.year) N) {t : DT} (ht : t.Valid)
    (he : t.toUs = ((N : Int) - 1) * dayUs + i.rest.since D - i.rest.minutes D tz * 60000000) (r : Int) :
    determineResolution i.groups t = .ok r ↔
      r = i.rest.len D (D.int i.year) ∧ (i.rest = .nothing → D.int i.year < 9999) := by
  obtain ⟨y, rest⟩ := i
  have hyr : D.int y ≤ 9999 := by have := hi.1.int_lt; simp only at this; omega
  have done : ∀ v : Int, (Except.ok v : Except PyErr Int) = .ok r ↔ r = v := by
    intro v; constructor
    · intro h; cases h; rfl
    · intro h; rw [h]
  cases rest with
  | nothing =>
    have hN' : N = ymd2ord (D.int y) 1 1 := hN
    have h2 : t = ⟨D.int y, 1, 1, 0, 0, 0, 0⟩ := by
      apply date_of_toUs ht (jan1_ok hy).1 hyr
      rw [he, hN']
      simp [Rest.since, Rest.minutes, Rest.zone]
    subst h2
    simp only [determineResolution, Iso.groups, Rest.put, ne_eq, not_true_eq_false, if_false, or_self]
    have hm : DT.mk? ((D.int y : Int) + 1) (1 : Nat) (1 : Nat) (0 : Nat) (0 : Nat) (0 : Nat) (0 : Nat) =
        if D.int y < 9999 then .ok ⟨D.int y + 1, 1, 1, 0, 0, 0, 0⟩ else .error .valueError := by
      have := DT.mk?_ok (y := D.int y + 1) (m := 1) (d := 1) (h := 0) (mi := 0) (s := 0) (us := 0)
      push_cast at this ⊢
      rw [this]
      have hiff : DT.Valid ⟨D.int y + 1, 1, 1, 0, 0, 0, 0⟩ ↔ D.int y < 9999 := by
        unfold DT.Valid
        have := (jan1_ok (y := D.int y + 1) (by omega)).1
        simp only [this, true_and]
        omega
      simp only [hiff]
    rw [hm]
    by_cases h9 : D.int y < 9999
    · rw [if_pos h9]
      unfold until?
      simp only
      rw [done]
      have := year_step hy
      unfold DT.toUs DT.ord
      simp only [Rest.len, this, h9, implies_true, and_true]
      unfold dayUs
      constructor <;> intro h <;> rw [h] <;> push_cast <;> ring
    · rw [if_neg h9]
      unfold until?
      simp [h9]
  | month b m =>
    obtain ⟨m1, m2, hN'⟩ : 1 ≤ D.int m ∧ D.int m ≤ 12 ∧ N = ymd2ord (D.int y) (D.int m) 1 := hN
    have hok : DateOK (D.int y) (D.int m) 1 := by
      by_cases h12 : D.int m < 12
      · exact (month_step hy m1 h12).2.2
      · have : D.int m = 12 := by omega
        rw [this]
        exact (month_step (y := D.int y) (m := 11) hy (by omega) (by omega)).2.1
    have h2 : t = ⟨D.int y, D.int m, 1, 0, 0, 0, 0⟩ := by
      apply date_of_toUs ht hok hyr
      rw [he, hN']
      simp [Rest.since, Rest.minutes, Rest.zone]
    subst h2
    simp only [determineResolution, Iso.groups, Rest.put, ne_eq, not_true_eq_false, if_false, reduceCtorEq,
      not_false_eq_true, true_or, if_true, false_implies, and_true]
    by_cases h12 : D.int m = 12
    · rw [if_pos h12, done]
      simp only [Rest.len, h12]
      simp [lengthOfMonth]
    · rw [if_neg h12]
      have hs := month_step hy m1 (by omega : D.int m < 12)
      have hm : DT.mk? (D.int y : Nat) ((D.int m : Int) + 1) (1 : Nat) (0 : Nat) (0 : Nat) (0 : Nat) (0 : Nat) =
          .ok ⟨D.int y, D.int m + 1, 1, 0, 0, 0, 0⟩ := by
        have := DT.mk?_ok (y := D.int y) (m := D.int m + 1) (d := 1) (h := 0) (mi := 0) (s := 0) (us := 0)
        push_cast at this ⊢
        rw [this, if_pos]
        exact ⟨hs.2.1, hyr, by simp, by simp, by simp, by simp⟩
      rw [hm]
      unfold until?
      simp only
      rw [done]
      unfold DT.toUs DT.ord
      simp only [Rest.len, hs.1]
      unfold dayUs
      constructor <;> intro h <;> rw [h] <;> push_cast <;> ring
  | week b w => simp [determineResolution, Iso.groups, Rest.put, Rest.len, eq_comm]
  | day fd => cases fd <;> simp [determineResolution, Iso.groups, Rest.put, FullDate.put, Rest.len, eq_comm]
  | time fd c z =>
    cases c with
    | frac h b m b' s comma f =>
      have hf := frac_unit f.length
      cases fd <;> cases z <;>
        simp only [determineResolution, Iso.groups, Rest.put, FullDate.put, Clock.put, Zone.put, Rest.len, Clock.unit, hf,
          done, reduceCtorEq, false_implies, and_true]
    | _ =>
      cases fd <;> cases z <;>
        simp [determineResolution, Iso.groups, Rest.put, FullDate.put, Clock.put, Zone.put, Rest.len, Clock.unit, eq_comm]

/-! ## The whole -/

theorem fromGroups_iff {g : Groups} {tz : Option Tz} {x : Time} : fromGroups D g tz = .ok x ↔
    (coerceGroups D g).inRange = true ∧ ∃ d, calculateDtime g (coerceGroups D g) = .ok d ∧
    ∃ y, fromDatetime ⟨d, if g.hour ≠ none then some (calculateTimezone D g tz) else none⟩ = .ok y ∧ x.t = y.t ∧
      determineResolution g y.t = .ok x.res := by
  unfold fromGroups
  simp only
  constructor
  · intro h
    split at h
    · cases h
    · rename_i hr
      refine ⟨by simpa using hr, ?_⟩
      cases hc : calculateDtime g (coerceGroups D g) with
      | error e => rw [hc] at h; cases h
      | ok d =>
        rw [hc] at h
        simp only at h
        refine ⟨d, rfl, ?_⟩
        cases hf : fromDatetime ⟨d, if g.hour ≠ none then some (calculateTimezone D g tz) else none⟩ with
        | error e => rw [hf] at h; cases h
        | ok y =>
          rw [hf] at h
          simp only at h
          refine ⟨y, rfl, ?_⟩
          cases hd : determineResolution g y.t with
          | error e => rw [hd] at h; cases h
          | ok r => rw [hd] at h; cases h; exact ⟨rfl, rfl⟩
  · rintro ⟨h1, d, h2, y, h3, h4, h5⟩
    rw [h1, h2]
    simp only [Bool.not_true, Bool.false_eq_true, if_false]
    rw [h3]
    simp only
    rw [h5]
    obtain ⟨xt, xr⟩ := x
    simp only at h4 ⊢
    rw [h4]

/-- **Meaning.**  Parsing a string of the grammar works exactly when the string names a day that exists, a time of day
and an offset of less than a day, and everything lies in the years 1 to 9999; the result is the instant and the
length of the period named.  (Alone the year 9999 is refused.) -/
theorem parse_iff (i : Iso) (hi : i.WF D) (nl : Bool) (tz : Option Tz) (x : Time) :
    parseIso D (i.render ++ endOf nl) tz = .ok x ↔
      1 ≤ D.int i.year ∧ i.rest.ClockOK D ∧ (∀ z, i.rest.zone D tz = some z → z.Good) ∧
      (i.rest = .nothing → D.int i.year < 9999) ∧
      ∃ N : Nat, i.rest.Names D (D.int i.year) N ∧ N ≤ 3652059 ∧ x.t.Valid ∧
        x.start = ((N : Int) - 1) * dayUs + i.rest.since D - i.rest.minutes D tz * 60000000 ∧
        x.res = i.rest.len D (D.int i.year) := by
  have hyr : D.int i.year ≤ 9999 := by have := hi.1.int_lt; omega
  unfold parseIso
  rw [matchIso_complete D i hi nl]
  simp only
  rw [fromGroups_iff, hour_none]
  constructor
  · rintro ⟨h1, d, h2, y, h3, h4, h5⟩
    rw [calc_iff (by rw [coerce_year]; exact hyr) h1, coerce_year, todOK_iff, tod_eq] at h2
    obtain ⟨hy, hc, N, hN, hN2, hv, he⟩ := h2
    rw [namesDay_iff D i N hy] at hN
    have hz : ∀ z, i.rest.zone D tz = some z → z.Good := by
      intro z hz
      rw [hz] at h3
      unfold fromDatetime astimezone at h3
      by_contra hg
      have : z.offset = .error .valueError := by unfold Tz.offset; exact if_neg hg
      simp only [this] at h3
      cases h3
    have hy' : y.t.Valid ∧ y.start = ADT.instant ⟨d, i.rest.zone D tz⟩ := by
      by_cases hr : Representable (ADT.instant ⟨d, i.rest.zone D tz⟩)
      · obtain ⟨y', e1, e2, e3, -⟩ := (fromDatetime_instant (a := ⟨d, i.rest.zone D tz⟩) hv hz).1 hr
        rw [h3] at e1; cases e1
        exact ⟨e2, e3⟩
      · rw [(fromDatetime_instant (a := ⟨d, i.rest.zone D tz⟩) hv hz).2 hr] at h3; cases h3
    have hinst : ADT.instant ⟨d, i.rest.zone D tz⟩ =
        ((N : Int) - 1) * dayUs + i.rest.since D - i.rest.minutes D tz * 60000000 := by
      unfold ADT.instant Rest.minutes
      simp only
      rw [he]
      cases i.rest.zone D tz <;> simp
    have hres := (resolution_iff D i hi tz hy hN hy'.1 (by rw [← hinst]; exact hy'.2) x.res).1 h5
    refine ⟨hy, hc, hz, hres.2, N, hN, hN2, by rw [h4]; exact hy'.1, ?_, hres.1⟩
    unfold Time.start
    rw [h4, ← hinst]; exact hy'.2
  · rintro ⟨hy, hc, hz, h9, N, hN, hN2, hv, he, hr⟩
    have h1 := inRange_of D i hy hN hc
    have hct := tod_range ((todOK_iff D i).2 hc)
    rw [tod_eq] at hct
    have hN1 : 1 ≤ N := by
      have : NamesDay i.groups (coerceGroups D i.groups) N := (namesDay_iff D i N hy).2 hN
      unfold NamesDay at this
      split at this
      · exact (isoDay_range this (by rw [coerce_year]; exact hy)).2.2.2.2
      · split at this
        · obtain ⟨a, b, c⟩ := this
          rw [jan1] at b; omega
        · obtain ⟨a, b⟩ := this
          have := ymd2ord_pos a; omega
    have hloc : 0 ≤ ((N : Int) - 1) * dayUs + i.rest.since D ∧ ((N : Int) - 1) * dayUs + i.rest.since D < maxUs := by
      unfold dayUs maxUs at *; omega
    have hdv := DT.ofUs_valid hloc.1 hloc.2
    have hdu := DT.toUs_ofUs hloc.1
    refine ⟨h1, DT.ofUs (((N : Int) - 1) * dayUs + i.rest.since D), ?_, ?_⟩
    · rw [calc_iff (by rw [coerce_year]; exact hyr) h1, coerce_year, todOK_iff, tod_eq]
      exact ⟨hy, hc, N, (namesDay_iff D i N hy).2 hN, hN2, hdv, hdu⟩
    · have hinst : ADT.instant ⟨DT.ofUs (((N : Int) - 1) * dayUs + i.rest.since D), i.rest.zone D tz⟩ = x.start := by
        rw [he]
        unfold ADT.instant Rest.minutes
        simp only
        rw [hdu]
        cases i.rest.zone D tz <;> simp
      obtain ⟨y, e1, e2, e3, -⟩ := (fromDatetime_instant (a := ⟨DT.ofUs (((N : Int) - 1) * dayUs + i.rest.since D), i.rest.zone D tz⟩) hdv hz).1 (by
        rw [hinst]; exact start_representable hv)
      have hxy : x.t = y.t := DT.toUs_inj hv e2 (by rw [hinst] at e3; exact e3.symm)
      refine ⟨y, e1, hxy, ?_⟩
      rw [← hxy]
      exact (resolution_iff D i hi tz hy hN hv he x.res).2 ⟨hr, h9⟩

/-- Strings outside the grammar are refused. -/
theorem parse_other {s : List Nat} (tz : Option Tz) (h : ∀ (i : Iso) nl, i.WF D → s ≠ i.render ++ endOf nl) :
    parseIso D s tz = .error .valueError := by
  unfold parseIso
  cases hm : matchIso D s with
  | none => rfl
  | some g =>
    obtain ⟨i, nl, h1, h2, -⟩ := matchIso_sound D hm
    exact absurd h2 (h i nl h1)

end

end Verif.Extime
