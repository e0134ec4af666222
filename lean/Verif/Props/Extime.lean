import Verif.Lemmas.Extime
/-!
# C09–C16: `Time` arithmetic, comparison, containment, zones and `struct_time`

An instant is a number of microseconds since 1 January of year 1 (`DT.toUs`; `Props/Calendar` ties it to the
calendar).  `0 ≤ i ∧ i < maxUs` says that the instant `i` lies in the years 1 to 9999.
-/
namespace Verif.Extime
open Verif.Py

/-- The instant a `Time` denotes. -/
def Time.start (x : Time) : Int := x.t.toUs

/-- The end of the period it addresses. -/
def Time.stop (x : Time) : Int := x.start + x.res

/-- The period it addresses. -/
def Time.period (x : Time) : Set Int := {i | x.start ≤ i ∧ i < x.stop}

/-- An instant of the years 1 to 9999. -/
def Representable (i : Int) : Prop := 0 ≤ i ∧ i < maxUs

instance (i : Int) : Decidable (Representable i) := by unfold Representable; infer_instance

/-- The instant denoted by a `datetime`: its fields less its offset from UTC; a naive one is in UTC. -/
def ADT.instant (a : ADT) : Int := a.dt.toUs - (match a.tz with | some z => z.minutes * 60000000 | none => 0)

/-- An offset of less than a day. -/
def Tz.Good (z : Tz) : Prop := -1440 < z.minutes ∧ z.minutes < 1440

instance (z : Tz) : Decidable z.Good := by unfold Tz.Good; infer_instance

theorem Tz.Good.offset {z : Tz} (h : z.Good) : z.offset = .ok (z.minutes * 60000000) := by
  unfold Tz.offset; exact if_pos h

theorem start_representable {x : Time} (h : x.t.Valid) : Representable x.start := DT.toUs_range h

/-! ## C09 -/

/-- `asDatetime` of a `Time` finer than a day gives, in the zone asked for, a `datetime` denoting the same instant;
it works exactly when the local time is representable, and raises `OverflowError` otherwise. -/
theorem asDatetime_instant {x : Time} (hx : x.t.Valid) (hr : x.res < dayUs) {z : Tz} (hz : z.Good) :
    (Representable (x.start + z.minutes * 60000000) →
      ∃ a, asDatetime x (some z) = .ok a ∧ a.tz = some z ∧ a.dt.Valid ∧ a.instant = x.start) ∧
    (¬ Representable (x.start + z.minutes * 60000000) → asDatetime x (some z) = .error .overflowError) := by
  have hs := DT.toUs_range hx
  have hn : (!isTimezoneDependent x) = false := by simp [isTimezoneDependent, hr]
  constructor
  · intro h
    have := astimezone_total (dt := x.t) utc_offset hz.offset (by omega)
      (by unfold Representable Time.start at h; constructor <;> omega)
    refine ⟨_, by unfold asDatetime; simp only [Option.getD_some, hn, this]; rfl, rfl, ?_, ?_⟩
    · apply DT.ofUs_valid <;> (unfold Representable Time.start at h; omega)
    · unfold ADT.instant Time.start
      simp only
      rw [DT.toUs_ofUs (by unfold Representable Time.start at h; omega)]
      omega
  · intro h
    unfold asDatetime
    simp only [Option.getD_some, hn]
    cases ha : astimezone x.t utc z with
    | error e => rw [astimezone_err utc_offset hz.offset ha]; rfl
    | ok t =>
      exfalso
      obtain ⟨o, o', e1, e2, v, e4, -⟩ := astimezone_ok ha
      rw [utc_offset] at e1; rw [hz.offset] at e2; cases e1; cases e2
      have := DT.toUs_range v
      apply h; unfold Representable Time.start; constructor <;> omega

/-- `asNaiveDatetime` gives the clock of the zone without the zone: the instant's distance from year 1 plus the zone's
offset; it raises exactly when that is not representable. -/
theorem asNaiveDatetime_clock {x : Time} (hx : x.t.Valid) (hr : x.res < dayUs) {z : Tz} (hz : z.Good) :
    (Representable (x.start + z.minutes * 60000000) →
      ∃ d : DT, asNaiveDatetime x (some z) = .ok ⟨d, none⟩ ∧ d.Valid ∧ d.toUs = x.start + z.minutes * 60000000) ∧
    (¬ Representable (x.start + z.minutes * 60000000) → asNaiveDatetime x (some z) = .error .overflowError) := by
  obtain ⟨h1, h2⟩ := asDatetime_instant hx hr hz
  constructor
  · intro h
    obtain ⟨a, ha, htz, hv, hi⟩ := h1 h
    refine ⟨a.dt, by unfold asNaiveDatetime; rw [ha], hv, ?_⟩
    unfold ADT.instant at hi
    rw [htz] at hi
    simp only at hi
    omega
  · intro h
    unfold asNaiveDatetime
    rw [h2 h]

/-- Without a zone it is the UTC clock, and a whole day keeps its date in every zone. -/
theorem asNaiveDatetime_plain (x : Time) :
    asNaiveDatetime x none = asNaiveDatetime x (some ⟨0⟩) ∧
    (dayUs ≤ x.res → ∀ z, asNaiveDatetime x z = .ok ⟨x.t, none⟩) := by
  refine ⟨rfl, fun hr z => ?_⟩
  have hn : (!isTimezoneDependent x) = true := by simp [isTimezoneDependent]; omega
  unfold asNaiveDatetime asDatetime
  simp only [hn, if_true]

/-- `FixedOffset(h, m)` is `h` hours and `m` minutes east of UTC. -/
theorem fixedOffset_minutes (h m : Int) : (fixedOffset h m).minutes = 60 * h + m := by
  unfold fixedOffset; simp only; omega

/-- Without a zone, UTC. -/
theorem asDatetime_none (x : Time) : asDatetime x none = asDatetime x (some ⟨0⟩) := rfl

/-- **C09.**  Whenever `asDatetime` gives something, `fromDatetime` gives back an equal `Time` (the very same
instant), provided the `Time` is finer than a day. -/
theorem fromDatetime_asDatetime {x : Time} (hx : x.t.Valid) (hr : x.res < dayUs) {tz : Option Tz} {a : ADT}
    (h : asDatetime x tz = .ok a) : ∃ y, fromDatetime a = .ok y ∧ eq y (some x) = true ∧ y.t = x.t ∧ y.res = 1 := by
  have hn : (!isTimezoneDependent x) = false := by simp [isTimezoneDependent, hr]
  unfold asDatetime at h
  simp only [hn] at h
  cases ha : astimezone x.t utc (tz.getD utc) with
  | error e => rw [ha] at h; cases h
  | ok t =>
    rw [ha] at h
    cases h
    obtain ⟨o, o', e1, e2, v, e4, e5, e6⟩ := astimezone_ok ha
    rw [utc_offset] at e1; cases e1
    have hb := (astimezone_iff (dt := t) e2 utc_offset hx).2 ⟨by omega, by omega, by omega⟩
    refine ⟨⟨x.t, 1⟩, by unfold fromDatetime; simp only [hb]; rfl, ?_, rfl, rfl⟩
    unfold eq
    simp only [beq_iff_eq]
    exact (dtCmp_zero hx hx).2 rfl

/-- …and `fromDatetime` of an aware or naive `datetime` denotes the instant the `datetime` denotes; it fails, with
`OverflowError`, only when that instant is outside the years 1 to 9999. -/
theorem fromDatetime_instant {a : ADT} (ha : a.dt.Valid) (hz : ∀ z, a.tz = some z → z.Good) :
    (Representable a.instant → ∃ y, fromDatetime a = .ok y ∧ y.t.Valid ∧ y.start = a.instant ∧ y.res = 1) ∧
    (¬ Representable a.instant → fromDatetime a = .error .overflowError) := by
  obtain ⟨dt, tz⟩ := a
  have hs := DT.toUs_range ha
  cases tz with
  | none =>
    refine ⟨fun h => ⟨⟨dt, 1⟩, rfl, ha, ?_, rfl⟩, fun h => absurd ?_ h⟩
    · unfold Time.start ADT.instant; simp
    · unfold Representable ADT.instant; simp only at hs ⊢; constructor <;> omega
  | some z =>
    have hz := (hz z rfl).offset
    refine ⟨fun h => ?_, fun h => ?_⟩
    · have h' := h
      unfold Representable ADT.instant at h'
      simp only at h'
      have := astimezone_total (dt := dt) hz utc_offset (by omega) (by constructor <;> omega)
      refine ⟨_, by unfold fromDatetime; simp only [this]; rfl, ?_, ?_, rfl⟩
      · apply DT.ofUs_valid <;> omega
      · unfold Time.start ADT.instant
        simp only
        rw [DT.toUs_ofUs (by omega)]
        omega
    · unfold fromDatetime
      simp only
      cases hb : astimezone dt z utc with
      | error e => rw [astimezone_err hz utc_offset hb]
      | ok t =>
        exfalso
        obtain ⟨o, o', e1, e2, v, e4, e5, e6⟩ := astimezone_ok hb
        rw [utc_offset] at e2; rw [hz] at e1; cases e1; cases e2
        apply h; unfold Representable ADT.instant; simp only; exact ⟨e5, e6⟩

/-- Renderings of one `Time` in two zones differ by nothing. -/
theorem asDatetime_sameInstant {x : Time} (hx : x.t.Valid) (hr : x.res < dayUs) {z w : Tz} {a b : ADT}
    (ha : asDatetime x (some z) = .ok a) (hb : asDatetime x (some w) = .ok b) : a.sub b = .ok 0 := by
  have hn : (!isTimezoneDependent x) = false := by simp [isTimezoneDependent, hr]
  unfold asDatetime at ha hb
  simp only [hn, Option.getD_some] at ha hb
  cases h1 : astimezone x.t utc z with
  | error e => rw [h1] at ha; cases ha
  | ok t =>
    cases h2 : astimezone x.t utc w with
    | error e => rw [h2] at hb; cases hb
    | ok s =>
      rw [h1] at ha; rw [h2] at hb
      cases ha; cases hb
      obtain ⟨o, o', e1, e2, -, e4, -⟩ := astimezone_ok h1
      obtain ⟨p, p', f1, f2, -, f4, -⟩ := astimezone_ok h2
      rw [utc_offset] at e1 f1; cases e1; cases f1
      unfold ADT.sub
      simp only [Option.getD_some, e2, f2]
      congr 1; omega

/-- A `Time` of a day or more keeps its fields in every zone. -/
theorem asDatetime_coarse {x : Time} (hr : dayUs ≤ x.res) (z : Tz) :
    asDatetime x (some z) = .ok ⟨x.t, some z⟩ ∧ asDatetime x none = .ok ⟨x.t, some ⟨0⟩⟩ := by
  have hn : (!isTimezoneDependent x) = true := by simp [isTimezoneDependent, hr]
  unfold asDatetime
  simp [hn, utc, fixedOffset]

example : asDatetime ⟨⟨2004, 2, 29, 23, 30, 0, 5⟩, 1⟩ (some (fixedOffset 5 30)) =
    .ok ⟨⟨2004, 3, 1, 5, 0, 0, 5⟩, some ⟨330⟩⟩ := by decide
example : asDatetime ⟨⟨9999, 12, 31, 23, 30, 0, 5⟩, 1⟩ (some (fixedOffset 1 0)) = .error .overflowError := by decide
example : asDatetime ⟨⟨2004, 2, 29, 0, 0, 0, 0⟩, dayUs⟩ (some (fixedOffset 5 30)) =
    .ok ⟨⟨2004, 2, 29, 0, 0, 0, 0⟩, some ⟨330⟩⟩ := by decide

/-! ## C10 -/

theorem add_spec {x y : Time} {d : Int} : add x d = .ok y ↔ y.t.Valid ∧ y.start = x.start + d ∧ y.res = 1 := by
  unfold add Time.start
  constructor
  · intro h
    cases ha : x.t.add d with
    | error e => rw [ha] at h; cases h
    | ok t =>
      rw [ha] at h; cases h
      exact ⟨(DT.add_ok ha).1, (DT.add_ok ha).2, rfl⟩
  · rintro ⟨h1, h2, h3⟩
    rw [(DT.add_iff h1).2 h2]
    obtain ⟨t, r⟩ := y
    simp only at h3
    subst h3; rfl

theorem sub_spec (x : Time) (d : Int) : sub x d = add x (-d) := rfl

/-- Addition works exactly when the result is representable, and raises `OverflowError` otherwise. -/
theorem add_total (x : Time) (d : Int) : (Representable (x.start + d) → ∃ y, add x d = .ok y) ∧
    (¬ Representable (x.start + d) → add x d = .error .overflowError) := by
  constructor
  · intro h
    obtain ⟨t, ht⟩ := (DT.add_total x.t d).2 h
    exact ⟨⟨t, 1⟩, by unfold add; rw [ht]; rfl⟩
  · intro h
    unfold add
    cases ha : x.t.add d with
    | error e => rw [(DT.add_err ha).1]
    | ok t => exact absurd ((DT.add_total x.t d).1 ⟨t, ha⟩) h

theorem eq_iff {x y : Time} (hx : x.t.Valid) (hy : y.t.Valid) : eq x (some y) = true ↔ x.start = y.start := by
  unfold eq
  simp only [beq_iff_eq]
  exact dtCmp_zero hx hy

/-- `(x + d) - d == x`; and `x - d + d == x`. -/
theorem add_sub {x y : Time} (hx : x.t.Valid) {d : Int} (h : add x d = .ok y) :
    ∃ z, sub y d = .ok z ∧ eq z (some x) = true ∧ z.t = x.t := by
  obtain ⟨h1, h2, -⟩ := add_spec.1 h
  refine ⟨⟨x.t, 1⟩, ?_, (eq_iff hx hx).2 rfl, rfl⟩
  rw [sub_spec]
  exact add_spec.2 ⟨hx, by unfold Time.start at *; simp only; omega, rfl⟩

theorem sub_add {x y : Time} (hx : x.t.Valid) {d : Int} (h : sub x d = .ok y) :
    ∃ z, add y d = .ok z ∧ eq z (some x) = true ∧ z.t = x.t := by
  obtain ⟨h1, h2, -⟩ := add_spec.1 (sub_spec x d ▸ h)
  exact ⟨⟨x.t, 1⟩, add_spec.2 ⟨hx, by unfold Time.start at *; simp only; omega, rfl⟩, (eq_iff hx hx).2 rfl, rfl⟩

/-- The difference of two `Time`s always exists and is that of their instants, whatever their resolutions. -/
theorem diff_spec {x y : Time} (hx : x.t.Valid) (hy : y.t.Valid) : diff x y = .ok (x.start - y.start) := by
  have key : ∀ {x : Time}, x.t.Valid → asDatetime x none = .ok ⟨x.t, some utc⟩ := by
    intro x hx
    unfold asDatetime
    simp only [Option.getD_none, astimezone_utc hx]
    split <;> rfl
  unfold diff
  rw [key hx, key hy]
  unfold ADT.sub Time.start
  simp only [Option.getD_some, utc_offset]
  congr 1; omega

/-- `(x + d) - x` is `d`. -/
theorem add_diff {x y : Time} (hx : x.t.Valid) {d : Int} (h : add x d = .ok y) : diff y x = .ok d := by
  obtain ⟨h1, h2, -⟩ := add_spec.1 h
  rw [diff_spec h1 hx, h2]; congr 1; omega

/-- `x + (y - x) == y`. -/
theorem diff_add {x y : Time} (hx : x.t.Valid) (hy : y.t.Valid) {d : Int} (h : diff y x = .ok d) :
    ∃ z, add x d = .ok z ∧ eq z (some y) = true := by
  rw [diff_spec hy hx] at h
  cases h
  exact ⟨⟨y.t, 1⟩, add_spec.2 ⟨hy, by unfold Time.start at *; simp only; omega, rfl⟩, (eq_iff hy hy).2 rfl⟩

/-- `(x + d) + e` is `x + (d + e)`, in every case where `x + d` exists — also when it does not exist. -/
theorem add_add {x y : Time} {d e : Int} (h : add x d = .ok y) : add y e = add x (d + e) := by
  obtain ⟨h1, h2, -⟩ := add_spec.1 h
  by_cases hr : Representable (x.start + (d + e))
  · obtain ⟨z, hz⟩ := (add_total x (d + e)).1 hr
    obtain ⟨k1, k2, k3⟩ := add_spec.1 hz
    rw [hz]
    exact add_spec.2 ⟨k1, by omega, k3⟩
  · rw [(add_total x (d + e)).2 hr, (add_total y e).2 (by rw [h2]; rwa [add_assoc])]

/-- `x - y` is the negation of `y - x`. -/
theorem diff_neg {x y : Time} (hx : x.t.Valid) (hy : y.t.Valid) {d : Int} (h : diff x y = .ok d) :
    diff y x = .ok (-d) := by
  rw [diff_spec hx hy] at h
  cases h
  rw [diff_spec hy hx]; congr 1; omega

/-- **C10.** -/
theorem time_affine {x y z : Time} (hx : x.t.Valid) (hz : z.t.Valid) {d : Int} (h : add x d = .ok y) :
    (∃ w, sub y d = .ok w ∧ eq w (some x) = true) ∧ diff y x = .ok d ∧ (∀ e, add y e = add x (d + e)) ∧
    (∃ k, diff x z = .ok k ∧ diff z x = .ok (-k)) :=
  ⟨(add_sub hx h).imp fun _ h => ⟨h.1, h.2.1⟩, add_diff hx h, fun _ => add_add h,
    ⟨_, diff_spec hx hz, diff_neg hx hz (diff_spec hx hz)⟩⟩

example : add ⟨⟨1999, 12, 31, 23, 59, 59, 999999⟩, 1⟩ 1 = .ok ⟨⟨2000, 1, 1, 0, 0, 0, 0⟩, 1⟩ := by decide
example : add ⟨⟨9999, 12, 31, 23, 59, 59, 999999⟩, 1⟩ 1 = .error .overflowError := by decide

/-! ## C12 -/

/-- **C12.**  Equality is equality of instants: in particular an equivalence, blind to resolution. -/
theorem eq_spec {x y : Time} (hx : x.t.Valid) (hy : y.t.Valid) :
    (eq x (some y) = true ↔ x.start = y.start) ∧ (ne x (some y) = true ↔ x.start ≠ y.start) ∧
    eq x none = false ∧ ne x none = true := by
  refine ⟨eq_iff hx hy, ?_, rfl, rfl⟩
  unfold ne
  rw [Bool.not_eq_true', ← Bool.not_eq_true, eq_iff hx hy]

theorem eq_refl {x : Time} (hx : x.t.Valid) : eq x (some x) = true := (eq_iff hx hx).2 rfl

theorem eq_symm {x y : Time} (hx : x.t.Valid) (hy : y.t.Valid) : eq x (some y) = eq y (some x) := by
  rw [Bool.eq_iff_iff, eq_iff hx hy, eq_iff hy hx]; exact eq_comm

theorem eq_trans {x y z : Time} (hx : x.t.Valid) (hy : y.t.Valid) (hz : z.t.Valid) (h1 : eq x (some y) = true)
    (h2 : eq y (some z) = true) : eq x (some z) = true :=
  (eq_iff hx hz).2 (((eq_iff hx hy).1 h1).trans ((eq_iff hy hz).1 h2))

/-- `Time`s made from `datetime`s in whatever zones are equal exactly when the `datetime`s denote one instant. -/
theorem eq_zone {a b : ADT} (ha : a.dt.Valid) (hb : b.dt.Valid) (hza : ∀ z, a.tz = some z → z.Good)
    (hzb : ∀ z, b.tz = some z → z.Good) {x y : Time} (hx : fromDatetime a = .ok x) (hy : fromDatetime b = .ok y) :
    eq x (some y) = true ↔ a.instant = b.instant := by
  have key : ∀ {a : ADT}, a.dt.Valid → (∀ z, a.tz = some z → z.Good) → ∀ {x}, fromDatetime a = .ok x →
      x.t.Valid ∧ x.start = a.instant := by
    intro a ha hz x hx
    by_cases hr : Representable a.instant
    · obtain ⟨y, e, v, s, -⟩ := (fromDatetime_instant ha hz).1 hr
      rw [hx] at e; cases e
      exact ⟨v, s⟩
    · rw [(fromDatetime_instant ha hz).2 hr] at hx; cases hx
  obtain ⟨v, s⟩ := key ha hza hx
  obtain ⟨v', s'⟩ := key hb hzb hy
  rw [eq_iff v v', s, s']

example : ∃ x y, fromDatetime ⟨⟨2000, 1, 1, 0, 30, 0, 0⟩, some ⟨60⟩⟩ = .ok x ∧
    fromDatetime ⟨⟨1999, 12, 31, 18, 30, 0, 0⟩, some ⟨-300⟩⟩ = .ok y ∧ eq x (some y) = true :=
  ⟨_, _, rfl, rfl, by decide⟩

/-! ## C11 -/

/-- What `in` computes, in every case. -/
theorem contains_spec {x y : Time} (hx : x.t.Valid) (hy : y.t.Valid) : contains x (some y) =
    if y.start < x.start then .ok false
    else if Representable x.stop ∧ Representable y.stop then .ok (decide (y.stop ≤ x.stop))
    else .error .overflowError := by
  unfold contains
  simp only [dtLt_eq hy hx]
  by_cases h : y.start < x.start
  · have : y.t.toUs < x.t.toUs := h
    simp [h, this]
  · have h' : ¬ y.t.toUs < x.t.toUs := h
    simp only [h, h', decide_false, Bool.false_eq_true, if_false]
    cases ha : x.t.add x.res with
    | error e =>
      have h1 : ¬ Representable x.stop := by
        intro hc; obtain ⟨t, ht⟩ := (DT.add_total x.t x.res).2 hc; rw [ha] at ht; cases ht
      rw [(DT.add_err ha).1]
      simp [h1]
    | ok a =>
      have h1 : Representable x.stop := (DT.add_total x.t x.res).1 ⟨a, ha⟩
      cases hb : y.t.add y.res with
      | error e =>
        have h2 : ¬ Representable y.stop := by
          intro hc; obtain ⟨t, ht⟩ := (DT.add_total y.t y.res).2 hc; rw [hb] at ht; cases ht
        rw [(DT.add_err hb).1]
        simp [h2]
      | ok b =>
        have h2 : Representable y.stop := (DT.add_total y.t y.res).1 ⟨b, hb⟩
        obtain ⟨va, ea⟩ := DT.add_ok ha
        obtain ⟨vb, eb⟩ := DT.add_ok hb
        simp only [h1, h2, and_self, if_true, dtLt_eq va vb, ea, eb]
        have : (x.t.toUs + x.res < y.t.toUs + y.res) ↔ ¬ y.stop ≤ x.stop := by
          unfold Time.stop Time.start; omega
        simp only [this]
        by_cases h3 : y.stop ≤ x.stop <;> simp [h3]

/-- **C11 fails** at the end of time: the last microsecond of 9999 is not tested to be within itself; `in` raises. -/
theorem contains_refl_fails : contains ⟨⟨9999, 12, 31, 23, 59, 59, 999999⟩, 1⟩
    (some ⟨⟨9999, 12, 31, 23, 59, 59, 999999⟩, 1⟩) = .error .overflowError := by decide

/-- **C11**, for periods that end in representable time: `y in x` exactly when every instant of `y` is one of `x`
(and, for an empty period `y`, when both its ends lie within those of `x`). -/
theorem contains_partial {x y : Time} (hx : x.t.Valid) (hy : y.t.Valid) (hxs : Representable x.stop)
    (hys : Representable y.stop) :
    (∃ b, contains x (some y) = .ok b ∧ (b = true ↔ x.start ≤ y.start ∧ y.stop ≤ x.stop)) ∧
    (0 < y.res → (contains x (some y) = .ok true ↔ y.period ⊆ x.period)) := by
  have key : ∃ b, contains x (some y) = .ok b ∧ (b = true ↔ x.start ≤ y.start ∧ y.stop ≤ x.stop) := by
    rw [contains_spec hx hy]
    by_cases h : y.start < x.start
    · exact ⟨false, by simp [h], by simp; omega⟩
    · refine ⟨decide (y.stop ≤ x.stop), by simp [h, hxs, hys], ?_⟩
      simp; omega
  refine ⟨key, fun hp => ?_⟩
  obtain ⟨b, hb, hi⟩ := key
  rw [hb]
  have : (Except.ok b : Except PyErr Bool) = .ok true ↔ b = true := by constructor <;> intro h <;> simp_all
  rw [this, hi]
  constructor
  · rintro ⟨h1, h2⟩ i ⟨h3, h4⟩
    exact ⟨by omega, by omega⟩
  · intro h
    have a := h (show y.start ∈ y.period from ⟨le_refl _, by unfold Time.stop; omega⟩)
    have c := h (show y.stop - 1 ∈ y.period from ⟨by unfold Time.stop; omega, by omega⟩)
    exact ⟨a.1, by have := c.2; omega⟩

/-- A `Time` contains itself… -/
theorem contains_refl_partial {x : Time} (hx : x.t.Valid) (hxs : Representable x.stop) :
    contains x (some x) = .ok true := by
  obtain ⟨b, hb, hi⟩ := (contains_partial hx hx hxs hxs).1
  rw [hb, hi.2 ⟨le_refl _, le_refl _⟩]

/-- …containment is transitive… -/
theorem contains_trans {x y z : Time} (hx : x.t.Valid) (hy : y.t.Valid) (hz : z.t.Valid)
    (h1 : contains x (some y) = .ok true) (h2 : contains y (some z) = .ok true) : contains x (some z) = .ok true := by
  rw [contains_spec hx hy] at h1
  rw [contains_spec hy hz] at h2
  rw [contains_spec hx hz]
  split at h1
  · cases h1
  · split at h1
    · split at h2
      · cases h2
      · split at h2
        · rename_i a b c d
          rw [if_neg (by omega), if_pos ⟨b.1, d.2⟩]
          simp at h1 h2 ⊢; omega
        · cases h2
    · cases h1

/-- …and antisymmetric: `Time`s containing each other address the same period. -/
theorem contains_antisymm {x y : Time} (hx : x.t.Valid) (hy : y.t.Valid)
    (h1 : contains x (some y) = .ok true) (h2 : contains y (some x) = .ok true) :
    eq x (some y) = true ∧ x.res = y.res ∧ x.period = y.period := by
  rw [contains_spec hx hy] at h1
  rw [contains_spec hy hx] at h2
  have key : x.start = y.start ∧ x.stop = y.stop := by
    split at h1
    · cases h1
    · split at h1
      · split at h2
        · cases h2
        · split at h2
          · simp at h1 h2; omega
          · cases h2
      · cases h1
  refine ⟨(eq_iff hx hy).2 key.1, ?_, ?_⟩
  · have := key.2; unfold Time.stop at this; omega
  · unfold Time.period; rw [key.1, key.2]

/-- Anything but a `Time` is a `TypeError`. -/
theorem contains_other (x : Time) : contains x none = .error .typeError := rfl

example : contains ⟨⟨2004, 2, 1, 0, 0, 0, 0⟩, 29 * dayUs⟩ (some ⟨⟨2004, 2, 29, 0, 0, 0, 0⟩, dayUs⟩) = .ok true := by decide
example : contains ⟨⟨2004, 2, 1, 0, 0, 0, 0⟩, 28 * dayUs⟩ (some ⟨⟨2004, 2, 29, 0, 0, 0, 0⟩, dayUs⟩) = .ok false := by decide

/-! ## C13 -/

/-- **C13 fails** on Python 3: `getBounds` never returns, for `Time` has no `<`.  The error is `TypeError`, unless a period of
a day or more cannot be moved to the zone. -/
theorem getBounds_fails (x : Time) (tz : Option Tz) : ∃ e, getBounds3 x tz = .error e ∧
    (tz = none ∨ x.res < dayUs → e = .typeError) ∧
    (∀ z, tz = some z → dayUs ≤ x.res →
      (∀ e', fromDatetime ⟨x.t, some z⟩ = .error e' → e = e') ∧ (∀ v, fromDatetime ⟨x.t, some z⟩ = .ok v → e = .typeError)) := by
  unfold getBounds3
  simp only
  cases tz with
  | none => exact ⟨.typeError, by simp [fromDatetime], fun _ => rfl, fun z h => by cases h⟩
  | some z =>
    by_cases hr : x.res < dayUs
    · exact ⟨.typeError, by rw [if_neg (by omega)]; simp [fromDatetime], fun _ => rfl, fun _ _ h => by omega⟩
    · rw [if_pos ⟨by omega, by simp⟩]
      cases hf : fromDatetime ⟨x.t, some z⟩ with
      | error e =>
        refine ⟨e, rfl, fun h => ?_, fun z' hz _ => ?_⟩
        · rcases h with h | h
          · cases h
          · exact absurd h hr
        · cases hz
          rw [hf]
          exact ⟨(fun e' h => by cases h; rfl), (fun v h => by cases h)⟩
      | ok v =>
        refine ⟨.typeError, rfl, fun _ => rfl, fun z' hz _ => ?_⟩
        cases hz
        rw [hf]
        exact ⟨(fun e' h => by cases h), fun _ _ => rfl⟩

example : getBounds3 ⟨⟨2004, 2, 1, 0, 0, 0, 0⟩, dayUs⟩ none = .error .typeError := rfl

/-- **C13** on Python 2: the bounds enclose the period read in UTC and, for a day or more, read in the zone; they are
no wider than that. -/
theorem getBounds_partial {x : Time} (hx : x.t.Valid) {tz : Option Tz} (hz : ∀ z, tz = some z → z.Good) {lo hi : Time}
    (h : getBounds2 x tz = .ok (lo, hi)) :
    lo.start ≤ x.start ∧ x.stop ≤ hi.start ∧
    (∀ z, tz = some z → dayUs ≤ x.res →
      lo.start ≤ x.start - z.minutes * 60000000 ∧ x.stop - z.minutes * 60000000 ≤ hi.start ∧
      (lo.start = x.start ∨ lo.start = x.start - z.minutes * 60000000) ∧
      (hi.start = x.stop ∨ hi.start = x.stop - z.minutes * 60000000)) ∧
    ((tz = none ∨ x.res < dayUs) → lo.start = x.start ∧ hi.start = x.stop) := by
  have key : ∀ {a : ADT}, a.dt.Valid → (∀ z, a.tz = some z → z.Good) → ∀ {x}, fromDatetime a = .ok x →
      x.t.Valid ∧ x.start = a.instant := by
    intro a ha hz x hx
    by_cases hr : Representable a.instant
    · obtain ⟨y, e, v, s, -⟩ := (fromDatetime_instant ha hz).1 hr
      rw [hx] at e; cases e
      exact ⟨v, s⟩
    · rw [(fromDatetime_instant ha hz).2 hr] at hx; cases hx
  have gen : ∀ {tz' : Option Tz}, (∀ z, tz' = some z → z.Good) → ∀ {a b c d : Time} {e' : DT},
      fromDatetime ⟨x.t, tz'⟩ = .ok a → fromDatetime ⟨x.t, none⟩ = .ok b → x.t.add x.res = .ok e' →
      fromDatetime ⟨e', tz'⟩ = .ok c → fromDatetime ⟨e', none⟩ = .ok d →
      ∃ lo hi : Time, (if dtCmp b.t a.t < 0 then b else a) = lo ∧ (if dtCmp d.t c.t > 0 then d else c) = hi ∧
        lo.start = min x.start (ADT.instant ⟨x.t, tz'⟩) ∧
        hi.start = max x.stop (x.res + ADT.instant ⟨x.t, tz'⟩) := by
    intro tz' hg a b c d e' ha hb he hc hd
    obtain ⟨ve, ee⟩ := DT.add_ok he
    obtain ⟨va, ea⟩ := key (a := ⟨x.t, tz'⟩) hx hg ha
    obtain ⟨vb, eb⟩ := key (a := ⟨x.t, none⟩) hx (by simp) hb
    obtain ⟨vc, ec⟩ := key (a := ⟨e', tz'⟩) ve hg hc
    obtain ⟨vd, ed⟩ := key (a := ⟨e', none⟩) ve (by simp) hd
    refine ⟨_, _, rfl, rfl, ?_, ?_⟩
    · have hb' : b.start = x.start := by rw [eb]; unfold ADT.instant Time.start; simp
      have := dtCmp_neg vb va
      change _ ↔ b.start < a.start at this
      by_cases hh : dtCmp b.t a.t < 0
      · rw [if_pos hh]; have := this.1 hh; omega
      · rw [if_neg hh]; have := mt this.2 hh; omega
    · have hd' : d.start = x.stop := by rw [ed]; unfold ADT.instant Time.stop Time.start; simp only; omega
      have hc' : c.start = x.res + ADT.instant ⟨x.t, tz'⟩ := by rw [ec]; unfold ADT.instant; simp only; omega
      have := dtCmp_pos vd vc
      change _ ↔ c.start < d.start at this
      by_cases hh : dtCmp d.t c.t > 0
      · rw [if_pos hh]; have := this.1 hh; omega
      · rw [if_neg hh]; have := mt this.2 hh; omega
  -- the zone in effect
  let tz' : Option Tz := if x.res ≥ dayUs ∧ tz ≠ none then tz else none
  have hg : ∀ z, tz' = some z → z.Good := by
    intro z hz'
    simp only [tz'] at hz'
    split at hz'
    · exact hz z hz'
    · cases hz'
  have htime : (if x.res ≥ dayUs ∧ tz ≠ none then (⟨x.t, tz⟩ : ADT) else ⟨x.t, none⟩) = ⟨x.t, tz'⟩ := by
    simp only [tz']; split <;> rfl
  have main : lo.start = min x.start (ADT.instant ⟨x.t, tz'⟩) ∧
      hi.start = max x.stop (x.res + ADT.instant ⟨x.t, tz'⟩) := by
    unfold getBounds2 boundsArgs at h
    simp only [htime] at h
    cases ha : fromDatetime ⟨x.t, tz'⟩ with
    | error e => rw [ha] at h; simp at h
    | ok a =>
    cases hb : fromDatetime ⟨x.t, none⟩ with
    | error e => rw [ha, hb] at h; simp at h
    | ok b =>
    cases he : x.t.add x.res with
    | error e => rw [ha, hb, he] at h; simp at h
    | ok e' =>
    cases hc : fromDatetime ⟨e', tz'⟩ with
    | error e => rw [ha, hb, he] at h; simp only [hc] at h; cases h
    | ok c =>
    cases hd : fromDatetime ⟨e', none⟩ with
    | error e => rw [ha, hb, he] at h; simp only [hc, hd] at h; cases h
    | ok d =>
      rw [ha, hb, he] at h
      simp only [hc, hd] at h
      obtain ⟨lo', hi', e1, e2, e3, e4⟩ := gen hg ha hb he hc hd
      rw [e1, e2] at h
      cases h
      exact ⟨e3, e4⟩
  obtain ⟨m1, m2⟩ := main
  have hstop : x.stop = x.start + x.res := rfl
  refine ⟨by omega, by omega, ?_, ?_⟩
  · intro z hz' hr
    have : tz' = some z := by simp only [tz']; rw [if_pos ⟨hr, by rw [hz']; simp⟩, hz']
    have hi' : ADT.instant ⟨x.t, tz'⟩ = x.start - z.minutes * 60000000 := by rw [this]; rfl
    rw [hi'] at m1 m2
    omega
  · intro hc
    have : tz' = none := by
      simp only [tz']
      rw [if_neg]
      rintro ⟨h1, h2⟩
      rcases hc with h | h
      · exact h2 h
      · omega
    have hi' : ADT.instant ⟨x.t, tz'⟩ = x.start := by rw [this]; unfold ADT.instant Time.start; simp
    rw [hi'] at m1 m2
    omega

example : getBounds2 ⟨⟨2005, 4, 1, 0, 0, 0, 0⟩, dayUs⟩ (some ⟨-300⟩) =
    .ok (⟨⟨2005, 4, 1, 0, 0, 0, 0⟩, 1⟩, ⟨⟨2005, 4, 2, 5, 0, 0, 0⟩, 1⟩) := by decide

/-! ## C14 -/

/-- **C14.**  `oneDay` is the UTC day holding the start of the period. -/
theorem oneDay_spec {x : Time} (hx : x.t.Valid) : ∃ y, oneDay x = .ok y ∧ y.t.Valid ∧ y.res = dayUs ∧
    dayUs ∣ y.start ∧ y.start ≤ x.start ∧ x.start < y.start + dayUs ∧ oneDay y = .ok y := by
  have ha : ∀ {x : Time}, x.t.Valid → asDatetime x none = .ok ⟨x.t, some utc⟩ := by
    intro x hx
    unfold asDatetime
    simp only [Option.getD_none, astimezone_utc hx]
    split <;> rfl
  have key : ∀ {x : Time}, x.t.Valid → oneDay x = .ok ⟨⟨x.t.year, x.t.month, x.t.day, 0, 0, 0, 0⟩, dayUs⟩ ∧
      (⟨x.t.year, x.t.month, x.t.day, 0, 0, 0, 0⟩ : DT).Valid := by
    intro x hx
    have hv : (⟨x.t.year, x.t.month, x.t.day, 0, 0, 0, 0⟩ : DT).Valid := by
      obtain ⟨h1, h2, -⟩ := hx
      exact ⟨h1, h2, by simp, by simp, by simp, by simp⟩
    refine ⟨?_, hv⟩
    unfold oneDay
    rw [ha hx]
    have := DT.mk?_ok (y := x.t.year) (m := x.t.month) (d := x.t.day) (h := 0) (mi := 0) (s := 0) (us := 0)
    rw [if_pos hv] at this
    simp only
    rw [show DT.mk? (x.t.year) (x.t.month) (x.t.day) 0 0 0 0 = _ from this]
    unfold fromDatetime
    simp only [astimezone_utc hv]
  obtain ⟨e, hv⟩ := key hx
  refine ⟨_, e, hv, rfl, ?_, ?_, ?_, (key (x := ⟨_, dayUs⟩) hv).1⟩
  · unfold Time.start DT.toUs DT.ord
    simp only
    refine ⟨(ymd2ord x.t.year x.t.month x.t.day : Int) - 1, by unfold dayUs; push_cast; ring⟩
  · unfold Time.start DT.toUs DT.ord; simp only; omega
  · obtain ⟨-, -, h3, h4, h5, h6⟩ := hx
    unfold Time.start DT.toUs DT.ord dayUs; simp only; omega

/-- It contains every `Time` whose period lies in that day, unless the day is the last of 9999… -/
theorem oneDay_contains_partial {x y z : Time} (hx : x.t.Valid) (hz : z.t.Valid) (hr : 0 ≤ z.res)
    (h : oneDay x = .ok y) (hl : y.stop < maxUs) (h1 : y.start ≤ z.start) (h2 : z.stop ≤ y.stop) :
    contains y (some z) = .ok true := by
  obtain ⟨y', e, v, r, -⟩ := oneDay_spec hx
  rw [h] at e; cases e
  have s := start_representable v
  have s' := start_representable hz
  unfold Representable at s s'
  have : y.stop = y.start + y.res := rfl
  have : z.stop = z.start + z.res := rfl
  have hd : (0 : Int) < dayUs := by decide
  obtain ⟨b, hb, hi⟩ := (contains_partial v hz (by unfold Representable; omega) (by unfold Representable; omega)).1
  rw [hb, hi.2 ⟨h1, h2⟩]

/-- …for which `in` raises. -/
theorem oneDay_contains_fails : ∃ x y z : Time, x.t.Valid ∧ z.t.Valid ∧ oneDay x = .ok y ∧ z.period ⊆ y.period ∧
    contains y (some z) = .error .overflowError := by
  refine ⟨⟨⟨9999, 12, 31, 5, 0, 0, 0⟩, 1⟩, ⟨⟨9999, 12, 31, 0, 0, 0, 0⟩, dayUs⟩, ⟨⟨9999, 12, 31, 5, 0, 0, 0⟩, 1⟩,
    by decide, by decide, by decide, ?_, by decide⟩
  rintro i ⟨h1, h2⟩
  have a1 : Time.start ⟨⟨9999, 12, 31, 0, 0, 0, 0⟩, dayUs⟩ ≤ Time.start ⟨⟨9999, 12, 31, 5, 0, 0, 0⟩, 1⟩ := by decide
  have a2 : Time.stop ⟨⟨9999, 12, 31, 5, 0, 0, 0⟩, 1⟩ ≤ Time.stop ⟨⟨9999, 12, 31, 0, 0, 0, 0⟩, dayUs⟩ := by decide
  exact ⟨by omega, by omega⟩

example : oneDay ⟨⟨2004, 2, 29, 23, 59, 59, 999999⟩, 1⟩ = .ok ⟨⟨2004, 2, 29, 0, 0, 0, 0⟩, dayUs⟩ := by decide

/-! ## C15 -/

/-- The ranges of the fields: years, months, days, hours, minutes, seconds. -/
def fieldRange : Nat → Int × Int
  | 0 => (1, 9999)
  | 1 => (1, 12)
  | 2 => (1, 31)
  | 3 => (0, 23)
  | 4 => (0, 59)
  | _ => (0, 59)

theorem sanitize_length (s : List Int) : (sanitizeStructTime s).length = s.length := by
  unfold sanitizeStructTime; simp; omega

/-- The clamped fields, one by one. -/
theorem sanitize_getElem (s : List Int) (i : Nat) (v : Int) (h : s[i]? = some v) :
    (i < 6 → (sanitizeStructTime s)[i]? = some (max (fieldRange i).1 (min v (fieldRange i).2))) ∧
    (6 ≤ i → (sanitizeStructTime s)[i]? = some v) := by
  unfold sanitizeStructTime
  constructor
  · intro hi
    have hl := (List.getElem?_eq_some_iff.1 h).1
    rw [List.getElem?_append_left (by simp; omega)]
    interval_cases i <;> simp [List.getElem?_zip_eq_some, h, fieldRange, List.getElem?_take, List.zip_cons_cons]
  · intro hi
    have hl := (List.getElem?_eq_some_iff.1 h).1
    rw [List.getElem?_append_right (by simp; omega)]
    simp only [List.length_map, List.length_zip, List.length_take, List.getElem?_drop]
    rw [← h]; congr 1; simp; omega

/-- **C15.**  Each of the first six fields becomes the value of its range closest to what it was (so a field in its
range stays); the rest stays; doing it again changes nothing. -/
theorem sanitize_spec (s : List Int) :
    (sanitizeStructTime s).length = s.length ∧
    (∀ i v, s[i]? = some v → i < 6 → ∃ w, (sanitizeStructTime s)[i]? = some w ∧
      (fieldRange i).1 ≤ w ∧ w ≤ (fieldRange i).2 ∧ ((fieldRange i).1 ≤ v → v ≤ (fieldRange i).2 → w = v) ∧
      ∀ u, (fieldRange i).1 ≤ u → u ≤ (fieldRange i).2 → |w - v| ≤ |u - v|) ∧
    (∀ i, 6 ≤ i → (sanitizeStructTime s)[i]? = s[i]?) ∧
    sanitizeStructTime (sanitizeStructTime s) = sanitizeStructTime s := by
  have hlen := sanitize_length s
  have rng : ∀ i, (fieldRange i).1 ≤ (fieldRange i).2 := by
    intro i; unfold fieldRange; split <;> decide
  refine ⟨hlen, ?_, ?_, ?_⟩
  · intro i v hv hi
    refine ⟨_, (sanitize_getElem s i v hv).1 hi, by omega, by have := rng i; omega, by omega, ?_⟩
    intro u h1 h2
    have := rng i
    rcases abs_cases (max (fieldRange i).1 (min v (fieldRange i).2) - v) with h | h <;>
      rcases abs_cases (u - v) with h' | h' <;> omega
  · intro i hi
    cases h : s[i]? with
    | none => rw [List.getElem?_eq_none_iff] at h ⊢; omega
    | some v => exact (sanitize_getElem s i v h).2 hi
  · apply List.ext_getElem?
    intro i
    cases h : s[i]? with
    | none =>
      have : (sanitizeStructTime s)[i]? = none := by rw [List.getElem?_eq_none_iff] at h ⊢; omega
      rw [this, List.getElem?_eq_none_iff, sanitize_length]
      rwa [List.getElem?_eq_none_iff] at this
    | some v =>
      by_cases hi : i < 6
      · have h1 := (sanitize_getElem s i v h).1 hi
        rw [(sanitize_getElem _ i _ h1).1 hi, h1]
        have := rng i
        congr 1; omega
      · have h1 := (sanitize_getElem s i v h).2 (by omega)
        rw [(sanitize_getElem _ i _ h1).2 (by omega), h1]

/-- The result need not be a date that exists. -/
theorem sanitize_not_a_date : sanitizeStructTime [2005, 2, 99, 25, 61, 61, 0, 0, 0, 0] =
    [2005, 2, 31, 23, 59, 59, 0, 0, 0, 0] ∧ DT.mk? 2005 2 31 23 59 59 0 = .error .valueError := by decide

/-! ## C16 -/

/-- The whole second an instant lies in. -/
def wholeSecond (i : Int) : Int := i / 1000000 * 1000000

theorem fromStructTime_timetuple {t : DT} (ht : t.Valid) (tz : Option Tz) (hz : ∀ z, tz = some z → z.Good) :
    (Representable (wholeSecond (ADT.instant ⟨t, tz⟩)) →
      ∃ y, fromStructTime (timetuple t) tz = .ok y ∧ y.t.Valid ∧ y.start = wholeSecond (ADT.instant ⟨t, tz⟩) ∧
        y.res = 1000000) ∧
    (¬ Representable (wholeSecond (ADT.instant ⟨t, tz⟩)) → fromStructTime (timetuple t) tz = .error .overflowError) := by
  have hv : (⟨t.year, t.month, t.day, t.hour, t.minute, t.second, 0⟩ : DT).Valid := by
    obtain ⟨h1, h2, h3, h4, h5, h6⟩ := ht
    exact ⟨h1, h2, h3, h4, h5, by simp⟩
  have hm := DT.mk?_ok (y := t.year) (m := t.month) (d := t.day) (h := t.hour) (mi := t.minute) (s := t.second) (us := 0)
  rw [if_pos hv] at hm
  have hi : ADT.instant ⟨⟨t.year, t.month, t.day, t.hour, t.minute, t.second, 0⟩, tz⟩ =
      wholeSecond (ADT.instant ⟨t, tz⟩) := by
    obtain ⟨-, -, -, -, -, h6⟩ := ht
    unfold wholeSecond ADT.instant DT.toUs DT.ord
    cases tz <;> simp only <;> omega
  have hf := fromDatetime_instant (a := ⟨⟨t.year, t.month, t.day, t.hour, t.minute, t.second, 0⟩, tz⟩) hv hz
  rw [hi] at hf
  have e : fromStructTime (timetuple t) tz =
      match fromDatetime ⟨⟨t.year, t.month, t.day, t.hour, t.minute, t.second, 0⟩, tz⟩ with
      | .error e => .error e
      | .ok x => .ok { x with res := 1000000 } := by
    unfold fromStructTime timetuple
    simp only [List.take]
    rw [show DT.mk? (t.year) (t.month) (t.day) (t.hour) (t.minute) (t.second) 0 = _ from hm]
    rfl
  rw [e]
  refine ⟨fun h => ?_, fun h => ?_⟩
  · obtain ⟨y, h1, h2, h3, -⟩ := hf.1 h
    rw [h1]
    exact ⟨_, rfl, h2, h3, rfl⟩
  · rw [hf.2 h]

/-- **C16**, for a `Time` finer than a day, or without a zone: the round trip through `struct_time` gives the same
instant, truncated to the second. -/
theorem structTime_roundtrip_partial {x : Time} (hx : x.t.Valid) {tz : Option Tz} (hz : ∀ z, tz = some z → z.Good)
    (hr : tz = none ∨ x.res < dayUs) {s : List Int} (h : asStructTime x tz = .ok s) :
    ∃ y, fromStructTime s tz = .ok y ∧ y.t.Valid ∧ y.start = wholeSecond x.start ∧ y.res = 1000000 := by
  unfold asStructTime at h
  cases ha : asDatetime x tz with
  | error e => rw [ha] at h; cases h
  | ok a =>
    rw [ha] at h
    cases h
    have hs := start_representable hx
    have hrep : Representable (wholeSecond x.start) := by
      unfold Representable wholeSecond maxUs at *; omega
    have key : a.dt.Valid ∧ ADT.instant ⟨a.dt, tz⟩ = x.start := by
      cases tz with
      | none =>
        have : asDatetime x none = .ok ⟨x.t, some utc⟩ := by
          unfold asDatetime
          simp only [Option.getD_none, astimezone_utc hx]
          split <;> rfl
        rw [this] at ha
        cases ha
        exact ⟨hx, by unfold ADT.instant Time.start; simp⟩
      | some z =>
        have hr' : x.res < dayUs := by rcases hr with h | h; cases h; exact h
        have hi := asDatetime_instant hx hr' (hz z rfl)
        by_cases c : Representable (x.start + z.minutes * 60000000)
        · obtain ⟨b, e1, e2, e3, e4⟩ := hi.1 c
          rw [ha] at e1; cases e1
          refine ⟨e3, ?_⟩
          rw [← e4]; unfold ADT.instant; rw [e2]
        · rw [hi.2 c] at ha; cases ha
    have := (fromStructTime_timetuple key.1 tz hz).1
    rw [key.2] at this
    exact this hrep

/-- Beside C16: a shorter tuple means the first moment of what it names, and less than a date is no time at all; what follows
the sixth field is not looked at. -/
theorem fromStructTime_short (s : List Int) (tz : Option Tz) :
    (s.length < 3 → fromStructTime s tz = .error .typeError) ∧
    (3 ≤ s.length → s.length ≤ 6 → fromStructTime s tz = fromStructTime (s ++ List.replicate (6 - s.length) 0) tz) ∧
    (∀ r, 6 ≤ s.length → fromStructTime (s ++ r) tz = fromStructTime s tz) := by
  refine ⟨?_, ?_, ?_⟩
  · rcases s with _ | ⟨a, _ | ⟨b, _ | ⟨c, s⟩⟩⟩ <;> intro h <;> first | rfl | (simp at h; omega)
  · rcases s with _ | ⟨a, _ | ⟨b, _ | ⟨c, _ | ⟨d, _ | ⟨e, _ | ⟨f, _ | ⟨g, s⟩⟩⟩⟩⟩⟩⟩ <;> intro h h' <;>
      first | rfl | (simp at h h'; done) | (simp at h h'; omega)
  · intro r h
    unfold fromStructTime
    rw [List.take_append_of_le_length h]

example : fromStructTime [2005, 2, 3] none = .ok ⟨⟨2005, 2, 3, 0, 0, 0, 0⟩, 1000000⟩ := by decide

/-- When `asStructTime` fails: the local time is not representable. -/
theorem asStructTime_total {x : Time} (hx : x.t.Valid) (hr : x.res < dayUs) {z : Tz} (hz : z.Good) :
    (Representable (x.start + z.minutes * 60000000) → ∃ s, asStructTime x (some z) = .ok s) ∧
    (¬ Representable (x.start + z.minutes * 60000000) → asStructTime x (some z) = .error .overflowError) := by
  have := asDatetime_instant hx hr hz
  unfold asStructTime
  refine ⟨fun h => ?_, fun h => ?_⟩
  · obtain ⟨a, e, -⟩ := this.1 h
    rw [e]; exact ⟨_, rfl⟩
  · rw [this.2 h]

/-- **C16 fails** for a whole day and a zone: the fields are written without the shift and read with it. -/
theorem structTime_roundtrip_fails : asStructTime ⟨⟨2004, 2, 29, 0, 0, 0, 0⟩, dayUs⟩ (some ⟨60⟩) =
      .ok [2004, 2, 29, 0, 0, 0, 6, 60, 0] ∧
    fromStructTime [2004, 2, 29, 0, 0, 0, 6, 60, 0] (some ⟨60⟩) = .ok ⟨⟨2004, 2, 28, 23, 0, 0, 0⟩, 1000000⟩ := by decide

example : asStructTime ⟨⟨2004, 2, 29, 23, 30, 5, 7⟩, 1⟩ (some ⟨60⟩) = .ok [2004, 3, 1, 0, 30, 5, 0, 61, 0] := by decide

end Verif.Extime
