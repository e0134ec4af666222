import Verif.Model.ExtimeFold
import Verif.Props.ExtimeRfc
import Verif.Props.ExtimeZone
/-!
# C126: `Time`s in zones which tell repeated readings of the clocks apart

The specification is a `Place`: how much its clocks are ahead of UTC at each instant, and whether that is summer time.  The
clocks may show a reading twice, and may skip readings.  `Tells z p` says what PEP 495 asks of the zone of such a place:
`fold` tells the second of two equal readings from the first; and of a skipped reading, whether to go on with the clocks
before the skip or to count back with those after it.
-/
namespace Verif.ExtimeFold
open Verif.Py
open Verif.Extime (Time Representable start_representable dtLt_eq truncMinute truncHour wholeSecond)
open Verif.ExtimeZone (checked checked_ok add_eq add_zero fromutc_utc utc_checked Clocks newYork fixed_asDatetime)

/-- The clocks of a place: how much they are ahead of UTC, and how much of that is for summer, at each instant. -/
structure Place where
  ahead : Int → Int
  save : Int → Int

/-- What the clocks show at an instant. -/
def Place.reading (p : Place) (i : Int) : Int := i + p.ahead i

/-- The first instant at which the clocks show `w`, … -/
def Place.First (p : Place) (w i : Int) : Prop := p.reading i = w ∧ ∀ j, p.reading j = w → i ≤ j

/-- … and the last. -/
def Place.Last (p : Place) (w i : Int) : Prop := p.reading i = w ∧ ∀ j, p.reading j = w → j ≤ i

/-- What PEP 495 asks of the zone of a place whose clocks show nothing more than twice. -/
structure Tells (z : Zone) (p : Place) : Prop where
  small : ∀ t f, (-dayUs < z.utcoffset t f ∧ z.utcoffset t f < dayUs) ∧ -dayUs < z.dst t f ∧ z.dst t f < dayUs
  twice : ∀ i j k, i < j → j < k → p.reading i = p.reading j → p.reading j ≠ p.reading k
  fromutc : ∀ t, t.Valid →
    (Representable (p.reading t.toUs) → ∃ f, z.fromutc t = .ok (DT.ofUs (p.reading t.toUs), f) ∧
      (f = true ↔ ∃ j, j < t.toUs ∧ p.reading j = p.reading t.toUs)) ∧
    (¬ Representable (p.reading t.toUs) → z.fromutc t = .error .overflowError)
  first : ∀ t i, t.Valid → p.First t.toUs i → z.utcoffset t false = p.ahead i ∧ z.dst t false = p.save i
  last : ∀ t i, t.Valid → p.Last t.toUs i → z.utcoffset t true = p.ahead i ∧ z.dst t true = p.save i
  skip : ∀ t s, t.Valid → (¬ ∃ i, p.reading i = t.toUs) → p.reading (s - 1) < t.toUs → t.toUs < p.reading s →
    z.utcoffset t false = p.ahead (s - 1) ∧ z.utcoffset t true = p.ahead s

/-- The instant meant by the reading `w` with this `fold`. -/
def Place.Means (p : Place) (w : Int) (f : Bool) (i : Int) : Prop := if f then p.Last w i else p.First w i

/-- The outcome is the instant `i`, or `OverflowError` if that is not in the years 1 to 9999. -/
def Outcome (r : Except PyErr Time) (i res : Int) : Prop :=
  (Representable i → ∃ y, r = .ok y ∧ y.t.Valid ∧ y.start = i ∧ y.res = res) ∧
  (¬ Representable i → r = .error .overflowError)

section
variable {z : Zone} {p : Place}

theorem means_exists (k : Tells z p) {w : Int} (h : ∃ i, p.reading i = w) (f : Bool) : ∃ i, p.Means w f i := by
  obtain ⟨i, hi⟩ := h
  cases f
  · by_cases hc : ∃ j, j < i ∧ p.reading j = w
    · obtain ⟨j, hj, hw⟩ := hc
      refine ⟨j, hw, fun l hl => ?_⟩
      by_contra hn
      exact k.twice l j i (by omega) hj (hl.trans hw.symm) (hw.trans hi.symm)
    · exact ⟨i, hi, fun j hj => by by_contra hn; exact hc ⟨j, by omega, hj⟩⟩
  · by_cases hc : ∃ j, i < j ∧ p.reading j = w
    · obtain ⟨j, hj, hw⟩ := hc
      refine ⟨j, hw, fun l hl => ?_⟩
      by_contra hn
      exact k.twice i j l hj (by omega) (hi.trans hw.symm) (hw.trans hl.symm)
    · exact ⟨i, hi, fun j hj => by by_contra hn; exact hc ⟨j, by omega, hj⟩⟩

/-- The `fold` of PEP 495 singles out the instant. -/
theorem fold_means (k : Tells z p) {i : Int} {f : Bool} (h : f = true ↔ ∃ j, j < i ∧ p.reading j = p.reading i) :
    p.Means (p.reading i) f i := by
  cases f
  · refine ⟨rfl, fun j hj => ?_⟩
    by_contra hn
    exact absurd (h.2 ⟨j, by omega, hj⟩) (by simp)
  · obtain ⟨j, hj, hw⟩ := h.1 rfl
    refine ⟨rfl, fun l hl => ?_⟩
    by_contra hn
    exact k.twice j i l hj (by omega) hw hl.symm

theorem Tells.offset (k : Tells z p) {t : DT} (ht : t.Valid) {f : Bool} {i : Int} (h : p.Means t.toUs f i) :
    z.utcoffset t f = p.ahead i ∧ z.dst t f = p.save i ∧ t.toUs - z.utcoffset t f = i := by
  have : p.reading i = t.toUs ∧ z.utcoffset t f = p.ahead i ∧ z.dst t f = p.save i := by
    cases f
    · exact ⟨h.1, k.first t i ht h⟩
    · exact ⟨h.1, k.last t i ht h⟩
  obtain ⟨h1, h2, h3⟩ := this
  unfold Place.reading at h1
  exact ⟨h2, h3, by omega⟩

theorem fromDatetime_eq (k : Tells z p) {t : DT} (f : Bool) :
    fromDatetime (t, f) (some z) = if Representable (t.toUs - z.utcoffset t f) then
      .ok ⟨DT.ofUs (t.toUs - z.utcoffset t f), 1⟩ else .error .overflowError := by
  unfold fromDatetime astimezone
  simp only
  rw [checked_ok (k.small t f).1]
  simp only
  rw [add_eq, show t.toUs + -z.utcoffset t f = t.toUs - z.utcoffset t f by omega]
  by_cases h : Representable (t.toUs - z.utcoffset t f)
  · rw [if_pos h, if_pos h]
    simp only [fixedOffset, ofPlain]
    rw [fromutc_utc (DT.ofUs_valid h.1 h.2)]
    rfl
  · rw [if_neg h, if_neg h]

theorem outcome_of {r : Except PyErr Time} {i : Int}
    (h : r = if Representable i then .ok ⟨DT.ofUs i, 1⟩ else .error .overflowError) : Outcome r i 1 := by
  refine ⟨fun hr => ?_, fun hr => by rw [h, if_neg hr]⟩
  rw [h, if_pos hr]
  exact ⟨_, rfl, DT.ofUs_valid hr.1 hr.2, DT.toUs_ofUs hr.1, rfl⟩

/-! ## Instants and `datetime`s -/

/-- **C126.**  `asDatetime` gives what the clocks of the place show at that instant, with the `fold` set exactly when they
have shown it before. -/
theorem fold_shown (k : Tells z p) {x : Time} (hx : x.t.Valid) (hr : x.res < dayUs) :
    (Representable (p.reading x.start) → ∃ t f, asDatetime x z = .ok (t, f) ∧ t.Valid ∧ t.toUs = p.reading x.start ∧
      (f = true ↔ ∃ j, j < x.start ∧ p.reading j = p.reading x.start)) ∧
    (¬ Representable (p.reading x.start) → asDatetime x z = .error .overflowError) := by
  have e : asDatetime x z = z.fromutc x.t := by
    unfold asDatetime
    have hn : (!Extime.isTimezoneDependent x) = false := by simp [Extime.isTimezoneDependent, hr]
    rw [hn]
    unfold astimezone
    rw [show checked ((fixedOffset 0 0).utcoffset x.t false) = .ok 0 from rfl]
    simp only [Bool.false_eq_true, if_false]
    rw [show -(0 : Int) = 0 from rfl, add_zero hx]
  obtain ⟨h1, h2⟩ := k.fromutc x.t hx
  rw [e]
  refine ⟨fun h => ?_, h2⟩
  obtain ⟨f, h3, h4⟩ := h1 h
  exact ⟨_, f, h3, DT.ofUs_valid h.1 h.2, DT.toUs_ofUs h.1, h4⟩

theorem asDatetime_means (k : Tells z p) {x : Time} (hx : x.t.Valid) (hr : x.res < dayUs) {t : DT} {f : Bool}
    (h : asDatetime x z = .ok (t, f)) :
    t.Valid ∧ t.toUs = p.reading x.start ∧ (f = true ↔ ∃ j, j < x.start ∧ p.reading j = p.reading x.start) ∧
      p.Means t.toUs f x.start := by
  obtain ⟨h1, h2⟩ := fold_shown k hx hr
  by_cases hc : Representable (p.reading x.start)
  · obtain ⟨t', f', e, v, u, hf⟩ := h1 hc
    rw [h] at e
    cases e
    exact ⟨v, u, hf, u ▸ fold_means k hf⟩
  · rw [h2 hc] at h; cases h

/-- **C126.**  `fromDatetime(t.asDatetime(tz))` is always the same instant, also when the clocks show the same twice. -/
theorem fold_roundtrip (k : Tells z p) {x : Time} (hx : x.t.Valid) (hr : x.res < dayUs) {a : DT × Bool}
    (h : asDatetime x z = .ok a) : fromDatetime a (some z) = .ok ⟨x.t, 1⟩ := by
  obtain ⟨t, f⟩ := a
  obtain ⟨hv, -, -, hm⟩ := asDatetime_means k hx hr h
  rw [fromDatetime_eq k, (k.offset hv hm).2.2, if_pos (start_representable hx)]
  congr 2
  exact DT.ofUs_toUs hx

/-- **C126.**  `fromDatetime` takes a reading the clocks show for the first or the last instant at which they do, as its
`fold` says. -/
theorem fold_taken (k : Tells z p) {t : DT} (ht : t.Valid) (f : Bool) (h : ∃ i, p.reading i = t.toUs) :
    ∃ i, p.Means t.toUs f i ∧ Outcome (fromDatetime (t, f) (some z)) i 1 := by
  obtain ⟨i, hi⟩ := means_exists k h f
  refine ⟨i, hi, outcome_of ?_⟩
  rw [fromDatetime_eq k, (k.offset ht hi).2.2]

/-- **C126.**  A reading skipped at the instant `s` is taken for an instant by counting on from the last microsecond before
the skip if its `fold` is 0, and by counting back from the skip if it is 1. -/
theorem fold_skipped (k : Tells z p) {t : DT} (ht : t.Valid) (h : ¬ ∃ i, p.reading i = t.toUs) {s : Int}
    (h1 : p.reading (s - 1) < t.toUs) (h2 : t.toUs < p.reading s) :
    Outcome (fromDatetime (t, false) (some z)) (s - 1 + (t.toUs - p.reading (s - 1))) 1 ∧
    Outcome (fromDatetime (t, true) (some z)) (s - (p.reading s - t.toUs)) 1 := by
  obtain ⟨e1, e2⟩ := k.skip t s ht h h1 h2
  constructor
  · apply outcome_of
    rw [fromDatetime_eq k, e1, show t.toUs - p.ahead (s - 1) = s - 1 + (t.toUs - p.reading (s - 1)) by
      unfold Place.reading; omega]
  · apply outcome_of
    rw [fromDatetime_eq k, e2, show t.toUs - p.ahead s = s - (p.reading s - t.toUs) by
      unfold Place.reading; omega]

/-- **C126.**  A reading the clocks show comes back from the `Time` it is taken for, with its `fold` if they show it twice
and with `fold` 0 if they show it once. -/
theorem fold_fields (k : Tells z p) {t : DT} (ht : t.Valid) {f : Bool} (hs : ∃ i, p.reading i = t.toUs) {y : Time}
    (h : fromDatetime (t, f) (some z) = .ok y) :
    ∃ f', asDatetime y z = .ok (t, f') ∧
      (f' = true ↔ f = true ∧ ∃ i j, i ≠ j ∧ p.reading i = t.toUs ∧ p.reading j = t.toUs) := by
  obtain ⟨i, hi, ho⟩ := fold_taken k ht f hs
  by_cases hr : Representable i
  · obtain ⟨y', e, v, st, hres⟩ := ho.1 hr
    rw [h] at e
    cases e
    have hri : p.reading i = t.toUs := by cases f <;> exact hi.1
    have hrep : Representable (p.reading y.start) := by rw [st, hri]; exact DT.toUs_range ht
    obtain ⟨t', f', e1, v1, u1, hf1⟩ := (fold_shown k v (by rw [hres]; decide)).1 hrep
    rw [st, hri] at u1 hf1
    have : t' = t := DT.toUs_inj v1 ht u1
    rw [e1, this]
    refine ⟨f', rfl, ?_⟩
    rw [hf1]
    constructor
    · rintro ⟨j, hj, hw⟩
      refine ⟨?_, j, i, by omega, hw, hri⟩
      cases f
      · have := hi.2 j hw; omega
      · rfl
    · rintro ⟨hf, a, b, hab, ha, hb⟩
      subst hf
      have h1 := hi.2 a ha
      have h2 := hi.2 b hb
      by_cases hc : a < i
      · exact ⟨a, hc, ha⟩
      · exact ⟨b, by omega, hb⟩
  · rw [ho.2 hr] at h; cases h

/-! ## Texts -/

/-- **C126.**  Where the clocks are a whole number of minutes ahead of UTC, the texts of RFC 2822 and ISO 8601 are those in
that fixed offset, also when the clocks show the same twice. -/
theorem fold_texts (k : Tells z p) {x : Time} (hx : x.t.Valid) (hr : x.res < dayUs) {a : DT × Bool}
    (h : asDatetime x z = .ok a) {m : Int} (hm : p.ahead x.start = m * 60000000) (b : Bool) :
    asRFC2822 x z b = Extime.asRFC2822 x (some ⟨m⟩) b ∧ ∀ incl, asIso x b z incl = Extime.asIso x b (some ⟨m⟩) incl := by
  obtain ⟨t, f⟩ := a
  obtain ⟨ht, hu, -, hmn⟩ := asDatetime_means k hx hr h
  have ho := (k.offset ht hmn).1
  have hs := (k.small t f).1
  rw [ho, hm] at hs
  have hm' : -1440 < m ∧ m < 1440 := by unfold dayUs at hs; omega
  have hf := fixed_asDatetime hx hr hm' ht (by rw [hu, ← hm]; rfl)
  have hc : checked (z.utcoffset t f) = .ok (m * 60000000) := by rw [ho, hm]; exact checked_ok hs
  have hg : (⟨m⟩ : Extime.Tz).offset = .ok (m * 60000000) := if_pos hm'
  constructor
  · unfold asRFC2822 Extime.asRFC2822 Extime.rfcOffset
    rw [h, hf]
    simp only [hc, hg]
  · intro incl
    unfold asIso Extime.asIso
    have hn : (!Extime.isTimezoneDependent x) = false := by simp [Extime.isTimezoneDependent, hr]
    rw [h, hn]
    simp only [Bool.false_eq_true, if_false]
    rw [hf]
    unfold Extime.timezoneText
    cases incl
    · simp only [Bool.false_eq_true, if_false]
    · simp only [hc, if_true]

/-- **C126, partial.**  So the text of RFC 2822 is read back as the same instant to the second, if the year printed is at
least 100 and the clocks are a whole number of minutes ahead. -/
theorem fold_rfc_partial (k : Tells z p) {x : Time} (hx : x.t.Valid) (hr : x.res < dayUs) {t : DT} {f : Bool}
    (h : asDatetime x z = .ok (t, f)) (hy : 100 ≤ t.year) {m : Int} (hm : p.ahead x.start = m * 60000000) (b : Bool) :
    ∃ s y, asRFC2822 x z b = .ok s ∧ Extime.fromRFC2822 s = .ok y ∧ y.t.Valid ∧ y.start = x.start / 1000000 * 1000000 ∧
      y.res = 1000000 := by
  obtain ⟨ht, hu, -, hmn⟩ := asDatetime_means k hx hr h
  have hs := (k.small t f).1
  rw [(k.offset ht hmn).1, hm] at hs
  have hm' : -1440 < m ∧ m < 1440 := by unfold dayUs at hs; omega
  have hf := fixed_asDatetime hx hr hm' ht (by rw [hu, ← hm]; rfl)
  rw [(fold_texts k hx hr h hm b).1]
  obtain ⟨s, y, e1, e2, e3, e4, e5⟩ := Extime.rfc_roundtrip_partial hx (tz := some ⟨m⟩) (by rintro _ ⟨⟩; exact hm')
    (.inr hr) b hf hy
  refine ⟨s, y, e1, e2, e3, ?_, e5⟩
  rw [e4]
  unfold wholeSecond
  omega

/-- **C126, partial.**  The text of ISO 8601 which names its offset is read back as an equal `Time`, if the clocks are a
whole number of minutes ahead of UTC or a whole number of hours behind it. -/
theorem fold_iso_partial (D : Extime.Digits) (k : Tells z p) {x : Time} (hx : x.t.Valid) (hr : x.res ≤ 1) {a : DT × Bool}
    (h : asDatetime x z = .ok a) {m : Int} (hm : p.ahead x.start = m * 60000000) (h0 : 0 ≤ m ∨ 60 ∣ m) (b : Bool) :
    ∃ s y, asIso x b z true = .ok s ∧ Extime.parseIso D s none = .ok y ∧ Extime.eq y (some x) = true := by
  obtain ⟨t, f⟩ := a
  have hd : x.res < dayUs := by unfold dayUs; omega
  obtain ⟨ht, hu, -, hmn⟩ := asDatetime_means k hx hd h
  have hs := (k.small t f).1
  rw [(k.offset ht hmn).1, hm] at hs
  have hm' : -1440 < m ∧ m < 1440 := by unfold dayUs at hs; omega
  rw [(fold_texts k hx hd h hm b).2]
  refine Extime.iso_zone_partial D hx hr (z := ⟨m⟩) hm' ?_ h0 b none
  have : p.reading x.start = x.start + m * 60000000 := by unfold Place.reading; rw [hm]
  rw [← this, ← hu]
  exact DT.toUs_range ht

/-! ## Readings without `fold` -/

/-- The zone as texts and tuples see it: without `fold`. -/
def plain (z : Zone) : ExtimeZone.Zone := ⟨fun t => z.utcoffset t false, fun t => z.dst t false⟩

theorem fromDatetime_plain (z : Zone) (t : DT) : fromDatetime (t, false) (some z) = ExtimeZone.fromDatetime t (some (plain z)) := by
  unfold fromDatetime ExtimeZone.fromDatetime astimezone ExtimeZone.astimezone
  simp only [plain]
  cases checked (z.utcoffset t false) with
  | error e => rfl
  | ok o =>
    simp only
    cases t.add (-o) with
    | error e => rfl
    | ok u =>
      simp only [fixedOffset, ofPlain]
      cases ExtimeZone.fromutc (ExtimeZone.fixedOffset 0 0) u <;> rfl

theorem parseIso_plain (D : Extime.Digits) (s : List Nat) (z : Zone) : parseIso D s z = ExtimeZone.parseIso D s (plain z) := by
  unfold parseIso ExtimeZone.parseIso
  cases Extime.matchIso D s with
  | none => rfl
  | some g =>
    simp only
    have : ∀ d, fromDatetime (d, false) (if g.hour ≠ none then some (calculateTimezone D g z) else none) =
        ExtimeZone.fromDatetime d (if g.hour ≠ none then some (ExtimeZone.calculateTimezone D g (plain z)) else none) := by
      intro d
      by_cases hg : g.hour ≠ none
      · rw [if_pos hg, if_pos hg]
        unfold calculateTimezone ExtimeZone.calculateTimezone
        by_cases hz : g.zulu = true
        · rw [if_pos hz, if_pos hz]; exact fromDatetime_plain _ _
        · rw [if_neg hz, if_neg hz]
          rcases g.tzhour with _ | ⟨neg, h⟩ <;> exact fromDatetime_plain _ _
      · rw [if_neg hg, if_neg hg]; rfl
    cases (Extime.coerceGroups D g).inRange
    · rfl
    · simp only [Bool.not_true, Bool.false_eq_true, if_false]
      cases Extime.calculateDtime g (Extime.coerceGroups D g) with
      | error e => rfl
      | ok d => simp only; rw [this d]; rfl

/-- **C126, partial.**  Printed in the zone but without saying so, and read with the zone given, a `Time` of the finest
resolution comes out as the first instant at which the clocks show the same.  So it is the same unless they have shown it
before. -/
theorem fold_iso_argument_partial (D : Extime.Digits) (k : Tells z p) {x : Time} (hx : x.t.Valid) (hr : x.res ≤ 1)
    {a : DT × Bool} (h : asDatetime x z = .ok a) (b : Bool) : ∃ s, asIso x b z false = .ok s ∧
    ∃ i, p.First (p.reading x.start) i ∧ (Representable i → ∃ y, parseIso D s z = .ok y ∧ y.t.Valid ∧ y.start = i) ∧
      (¬ Representable i → parseIso D s z = .error .overflowError) ∧
      ((∀ j, p.reading j = p.reading x.start → x.start ≤ j) → i = x.start) := by
  obtain ⟨t, f⟩ := a
  have hd : x.res < dayUs := by unfold dayUs; omega
  obtain ⟨ht, hs, -, -⟩ := asDatetime_means k hx hd h
  have hu : Extime.asDatetime ⟨t, x.res⟩ (if x.res < dayUs then none else none) = .ok ⟨t, some Extime.utc⟩ := by
    rw [ite_self]; exact Extime.asDatetime_utc (x := ⟨t, x.res⟩) ht
  have ht' : asIso x b z false = Extime.asIso ⟨t, x.res⟩ b none false := by
    unfold asIso Extime.asIso
    have hn : (!Extime.isTimezoneDependent ⟨t, x.res⟩) = false := by simp [Extime.isTimezoneDependent, hd]
    rw [h, hn]
    simp only [Bool.false_eq_true, if_false]
    rw [Extime.asDatetime_utc (x := ⟨t, x.res⟩) ht]
    rfl
  have hpr := Extime.asIso_render D (x := ⟨t, x.res⟩) (b := b) (incl := false) (tz := none) (by intro z h; cases h)
    (a := ⟨t, some Extime.utc⟩) hu ht
  rw [if_pos (by simp only; unfold dayUs; omega)] at hpr
  obtain ⟨s, y0, p1, p2, -, p4⟩ := Extime.iso_roundtrip D (x := ⟨t, x.res⟩) ht hr b false
  rw [hpr] at p1
  refine ⟨s, by rw [ht', hpr, p1], ?_⟩
  injection p1 with p1
  have hwf := Extime.restOf_wf D x.res ht b (Extime.zoneOf_wf D b (tz := none) (by intro z h; cases h) false)
  have key := ExtimeZone.zone_iso_unstated D (Extime.isoOf x.res t b (Extime.zoneOf b none false)) hwf false
    (fd := .ymd b (padZero 2 t.month) b (padZero 2 t.day))
    (c := if t.us = 0 then .hms (padZero 2 t.hour) b (padZero 2 t.minute) b (padZero 2 t.second) else
      .frac (padZero 2 t.hour) b (padZero 2 t.minute) b (padZero 2 t.second) false (Extime.rstrip0 (padZero 6 t.us)))
    (by unfold Extime.isoOf Extime.restOf Extime.zoneOf; simp [hr]) (plain z) y0
  rw [show Extime.endOf false = [] from rfl, List.append_nil] at key
  simp only at p1
  rw [p1] at key
  rw [parseIso_plain, key p2, p4]
  simp only
  rw [← fromDatetime_plain]
  obtain ⟨i, hi, ho⟩ := fold_taken k ht false ⟨x.start, hs.symm⟩
  refine ⟨i, hs ▸ hi, fun hrep => ?_, fun hrep => ?_, fun hl => ?_⟩
  · obtain ⟨y, e, v, st, -⟩ := ho.1 hrep
    rw [e]
    exact ⟨_, rfl, v, st⟩
  · rw [ho.2 hrep]
  · have h1 := hl i (hs ▸ hi.1)
    have h2 := hi.2 x.start hs.symm
    omega

/-- The clocks change, and are ahead of UTC, by multiples of `g`. -/
def Aligned (p : Place) (g : Int) : Prop := ∀ i, p.ahead i % g = 0 ∧ p.ahead i = p.ahead (i / g * g)

theorem aligned_floor {g : Int} (hg : 0 < g) (ha : Aligned p g) (i : Int) :
    p.reading (i / g * g) = p.reading i / g * g := by
  obtain ⟨h1, h2⟩ := ha i
  obtain ⟨q, hq⟩ := Int.dvd_of_emod_eq_zero h1
  unfold Place.reading
  rw [← h2, hq, Int.add_mul_ediv_left _ _ (by omega), Int.add_mul, Int.mul_comm q g]

theorem aligned_up {g : Int} (hg : 0 < g) (ha : Aligned p g) {w j : Int} (h : p.reading j = w / g * g) :
    p.reading (j + w % g) = w ∧ (j + w % g) / g * g = j := by
  obtain ⟨h1, -⟩ := ha j
  have hw := Int.emod_add_mul_ediv w g
  have hn := Int.emod_nonneg w (by omega : g ≠ 0)
  have hl := Int.emod_lt_of_pos w hg
  have hj : j % g = 0 := by
    have : (j + p.ahead j) % g = 0 := by
      rw [show j + p.ahead j = w / g * g from h, Int.mul_emod_left]
    rw [Int.add_emod, h1, Int.add_zero, Int.emod_emod_of_dvd _ (Int.dvd_refl g)] at this
    exact this
  obtain ⟨q, rfl⟩ := Int.dvd_of_emod_eq_zero hj
  have hf : (g * q + w % g) / g * g = g * q := by
    rw [Int.mul_add_ediv_left _ _ (by omega), Int.ediv_eq_zero_of_lt hn hl, Int.add_zero, Int.mul_comm]
  refine ⟨?_, hf⟩
  obtain ⟨-, h2⟩ := ha (g * q + w % g)
  rw [hf] at h2
  unfold Place.reading at h ⊢
  rw [h2]
  rw [Int.mul_comm] at h
  rw [Int.mul_comm (w / g)] at h
  rw [Int.mul_comm] at h
  omega

theorem floor_mono {g a b : Int} (hg : 0 < g) (h : a ≤ b) : a / g * g ≤ b / g * g :=
  Int.mul_le_mul_of_nonneg_right (Int.ediv_le_ediv hg h) (by omega)

theorem means_floor {g : Int} (hg : 0 < g) (ha : Aligned p g) {w i : Int} {f : Bool} (h : p.Means w f i) :
    p.Means (w / g * g) f (i / g * g) := by
  cases f
  · refine ⟨by rw [aligned_floor hg ha, h.1], fun j hj => ?_⟩
    obtain ⟨h1, h2⟩ := aligned_up hg ha hj
    have := floor_mono hg (h.2 _ h1)
    omega
  · refine ⟨by rw [aligned_floor hg ha, h.1], fun j hj => ?_⟩
    obtain ⟨h1, h2⟩ := aligned_up hg ha hj
    have := floor_mono hg (h.2 _ h1)
    omega

/-- **C126, partial.**  The `struct_time` of a `Time` says rightly whether it is summer, and is read back as the first
instant at which the clocks show the same, truncated to the second: the same unless they have shown it before. -/
theorem fold_struct_partial (k : Tells z p) (ha : Aligned p 1000000) {x : Time} (hx : x.t.Valid) (hr : x.res < dayUs)
    {s : List Int} (h : asStructTime x z = .ok s) :
    s[8]? = some (if p.save x.start ≠ 0 then 1 else 0) ∧
    ∃ i, p.First (p.reading x.start) i ∧ Outcome (fromStructTime s z) (i / 1000000 * 1000000) 1000000 ∧
      ((∀ j, p.reading j = p.reading x.start → x.start ≤ j) → i = x.start) := by
  unfold asStructTime at h
  cases hd : asDatetime x z with
  | error e => rw [hd] at h; cases h
  | ok a =>
    obtain ⟨t, f⟩ := a
    rw [hd] at h
    obtain ⟨ht, hu, -, hm⟩ := asDatetime_means k hx hr hd
    simp only [checked_ok (k.small t f).2] at h
    cases h
    refine ⟨?_, ?_⟩
    · rw [(k.offset ht hm).2.1]
      rfl
    · have hv : (⟨t.year, t.month, t.day, t.hour, t.minute, t.second, 0⟩ : DT).Valid := by
        obtain ⟨h1, h2, h3, h4, h5, h6⟩ := ht
        exact ⟨h1, h2, h3, h4, h5, by simp⟩
      have hmk := DT.mk?_ok (y := t.year) (m := t.month) (d := t.day) (h := t.hour) (mi := t.minute) (s := t.second) (us := 0)
      rw [if_pos hv] at hmk
      have hi : (⟨t.year, t.month, t.day, t.hour, t.minute, t.second, 0⟩ : DT).toUs = t.toUs / 1000000 * 1000000 := by
        obtain ⟨-, -, -, -, -, h6⟩ := ht
        unfold DT.toUs DT.ord
        simp only
        omega
      obtain ⟨i, him⟩ := means_exists k ⟨x.start, hu.symm⟩ false
      have hfl := means_floor (by decide) ha him
      rw [← hi] at hfl
      have e := fromDatetime_eq k (t := ⟨t.year, t.month, t.day, t.hour, t.minute, t.second, 0⟩) false
      rw [(k.offset hv hfl).2.2] at e
      have hf : fromStructTime [t.year, t.month, t.day, t.hour, t.minute, t.second, t.weekday,
          (beforeMonth (isLeap t.year) t.month + t.day : Nat), if z.dst t f ≠ 0 then 1 else 0] z =
          if Representable (i / 1000000 * 1000000) then .ok ⟨DT.ofUs (i / 1000000 * 1000000), 1000000⟩
          else .error .overflowError := by
        unfold fromStructTime
        simp only [List.take]
        rw [show DT.mk? (t.year) (t.month) (t.day) (t.hour) (t.minute) (t.second) 0 = _ from hmk]
        simp only
        rw [e]
        by_cases hq : Representable (i / 1000000 * 1000000)
        · rw [if_pos hq, if_pos hq]
        · rw [if_neg hq, if_neg hq]
      refine ⟨i, hu ▸ him, ⟨fun hq => ?_, fun hq => ?_⟩, fun hl => ?_⟩
      · rw [hf, if_pos hq]
        exact ⟨_, rfl, DT.ofUs_valid hq.1 hq.2, DT.toUs_ofUs hq.1, rfl⟩
      · rw [hf, if_neg hq]
      · have h1 := hl i (hu ▸ him.1)
        have h2 := him.2 x.start hu.symm
        omega

/-! ## `fromHumanly` -/

open Verif.Extime (Digits SaysTime Framed Half hourMeant attempt human_time_eq lowerS hourOf wAm wPm wNoon
  wMidnight Letters)

/-- `r` is the outcome of asking for the next time the clocks show `tod` microseconds after midnight, from the reading
`lo` with the `fold` `f` on: some reading `T` of the 24 hours from `lo`, taken with the same `fold` on the same date and
with 0 on the next. -/
def NextAt (p : Place) (r : Except PyErr Time) (lo : Int) (f : Bool) (tod T : Int) : Prop :=
  lo ≤ T ∧ T < lo + dayUs ∧ T % dayUs = tod ∧ (¬ Representable T → r = .error .overflowError) ∧
  (∀ i, Representable T → p.Means T (f && decide (T / dayUs = lo / dayUs)) i → Outcome r i 60000000) ∧
  (∀ s, Representable T → (¬ ∃ i, p.reading i = T) → p.reading (s - 1) < T → T < p.reading s →
    Outcome r (if f && decide (T / dayUs = lo / dayUs) then s - (p.reading s - T) else s - 1 + (T - p.reading (s - 1)))
      60000000)

theorem nextAt_spec (k : Tells z p) {n : DT} (hn : n.Valid) (hs : n.second = 0) (hu : n.us = 0) (f : Bool)
    {H M : Nat} (hH : H < 24) (hM : M < 60) :
    (∃ T, NextAt p (nextAt (n, f) z H M) n.toUs f ((H * 60 + M : Nat) * 60000000) T) ∧
      nextAt (n, f) z H M ≠ .error .valueError := by
  have hv : (⟨n.year, n.month, n.day, H, M, 0, 0⟩ : DT).Valid := ⟨hn.1, hn.2.1, hH, hM, by simp, by simp⟩
  have hm := DT.mk?_ok (y := n.year) (m := n.month) (d := n.day) (h := H) (mi := M) (s := 0) (us := 0)
  rw [if_pos hv] at hm
  have hnu : n.toUs = n.toUs / dayUs * dayUs + (n.hour * 60 + n.minute : Nat) * 60000000 := by
    obtain ⟨-, -, h3, h4, h5, h6⟩ := hn
    unfold DT.toUs dayUs
    rw [hs, hu]
    omega
  have htu : (⟨n.year, n.month, n.day, H, M, 0, 0⟩ : DT).toUs = n.toUs / dayUs * dayUs + (H * 60 + M : Nat) * 60000000 := by
    obtain ⟨-, -, h3, h4, h5, h6⟩ := hn
    have : (⟨n.year, n.month, n.day, H, M, 0, 0⟩ : DT).ord = n.ord := rfl
    unfold DT.toUs dayUs
    simp only
    rw [this, hs, hu]
    omega
  have up : ∀ {r : Except PyErr Time} {i : Int}, Outcome r i 1 → Outcome (match r with
        | .error e => .error e
        | .ok x => .ok { x with res := 60000000 }) i 60000000 := by
    rintro r i ⟨o1, o2⟩
    refine ⟨fun h => ?_, fun h => by rw [o2 h]⟩
    obtain ⟨y, rfl, v, st, -⟩ := o1 h
    exact ⟨_, rfl, v, st, rfl⟩
  have key : ∀ (t : DT), t.Valid → ∀ (f : Bool),
      (∀ i, p.Means t.toUs f i → Outcome (match fromDatetime (t, f) (some z) with
        | .error e => .error e
        | .ok x => .ok { x with res := 60000000 }) i 60000000) ∧
      (∀ s, (¬ ∃ i, p.reading i = t.toUs) → p.reading (s - 1) < t.toUs → t.toUs < p.reading s →
        Outcome (match fromDatetime (t, f) (some z) with
        | .error e => .error e
        | .ok x => .ok { x with res := 60000000 })
          (if f then s - (p.reading s - t.toUs) else s - 1 + (t.toUs - p.reading (s - 1))) 60000000) := by
    intro t ht f
    refine ⟨fun i hi => up ?_, fun s h1 h2 h3 => up ?_⟩
    · apply outcome_of
      rw [fromDatetime_eq k, (k.offset ht hi).2.2]
    · have := fold_skipped k ht h1 h2 h3
      cases f
      · exact this.1
      · exact this.2
  have nov : ∀ (t : DT) (f : Bool), (match fromDatetime (t, f) (some z) with
        | .error e => (.error e : Except PyErr Time)
        | .ok x => .ok { x with res := 60000000 }) ≠ .error .valueError := by
    intro t f
    rw [fromDatetime_eq k]
    split
    · rename_i e h
      split at h
      · cases h
      · cases h; simp
    · simp
  have hbound : ((H * 60 + M : Nat) : Int) * 60000000 < dayUs ∧ ((n.hour * 60 + n.minute : Nat) : Int) * 60000000 < dayUs := by
    obtain ⟨-, -, h3, h4, h5, h6⟩ := hn
    unfold dayUs; omega
  have hmod : ∀ q : Int, (q * dayUs + ((H * 60 + M : Nat) : Int) * 60000000) % dayUs = ((H * 60 + M : Nat) : Int) * 60000000 := by
    intro q
    rw [Int.add_comm, Int.add_mul_emod_self_right]
    exact Int.emod_eq_of_lt (by omega) hbound.1
  have hdiv : ∀ q : Int, (q * dayUs + ((H * 60 + M : Nat) : Int) * 60000000) / dayUs = q := by
    intro q
    rw [Int.add_comm, Int.add_mul_ediv_right _ _ (by decide), Int.ediv_eq_zero_of_lt (by omega) hbound.1, Int.zero_add]
  unfold nextAt
  simp only
  rw [hs, hu]
  rw [show DT.mk? n.year n.month n.day H M (0 : Nat) (0 : Nat) = _ from hm]
  simp only
  rw [dtLt_eq hv hn]
  by_cases hc : (⟨n.year, n.month, n.day, H, M, 0, 0⟩ : DT).toUs < n.toUs
  · rw [decide_eq_true hc, if_pos rfl, add_eq]
    have hT : (⟨n.year, n.month, n.day, H, M, 0, 0⟩ : DT).toUs + dayUs =
        (n.toUs / dayUs + 1) * dayUs + ((H * 60 + M : Nat) : Int) * 60000000 := by
      rw [htu, Int.add_mul]; omega
    have hne : ¬ ((⟨n.year, n.month, n.day, H, M, 0, 0⟩ : DT).toUs + dayUs) / dayUs = n.toUs / dayUs := by
      rw [hT, hdiv]; omega
    constructor
    · refine ⟨(⟨n.year, n.month, n.day, H, M, 0, 0⟩ : DT).toUs + dayUs, by omega, by omega, by rw [hT]; exact hmod _,
        fun h => by rw [if_neg h], fun i hr hi => ?_, fun s hr h1 h2 h3 => ?_⟩
      · rw [decide_eq_false hne, Bool.and_false] at hi
        rw [if_pos hr]
        refine (key _ (DT.ofUs_valid hr.1 hr.2) false).1 i ?_
        rw [DT.toUs_ofUs hr.1]
        exact hi
      · rw [decide_eq_false hne, Bool.and_false]
        rw [if_pos hr]
        have := (key _ (DT.ofUs_valid hr.1 hr.2) false).2 s
        rw [DT.toUs_ofUs hr.1] at this
        exact this h1 h2 h3
    · by_cases hr : Representable ((⟨n.year, n.month, n.day, H, M, 0, 0⟩ : DT).toUs + dayUs)
      · rw [if_pos hr]
        exact nov _ _
      · rw [if_neg hr]; simp
  · rw [decide_eq_false hc]
    simp only [Bool.false_eq_true, if_false]
    refine ⟨⟨(⟨n.year, n.month, n.day, H, M, 0, 0⟩ : DT).toUs, by omega, by omega, by rw [htu]; exact hmod _,
      fun h => absurd (DT.toUs_range hv) h, fun i hr hi => ?_, fun s hr h1 h2 h3 => ?_⟩, nov _ _⟩
    · rw [htu, hdiv, decide_eq_true rfl, Bool.and_true, ← htu] at hi
      exact (key _ hv f).1 i hi
    · have he : (⟨n.year, n.month, n.day, H, M, 0, 0⟩ : DT).toUs / dayUs = n.toUs / dayUs := by rw [htu, hdiv]
      rw [decide_eq_true he, Bool.and_true]
      exact (key _ hv f).2 s h1 h2 h3

theorem attempt_ok {r next : Except PyErr Time} (h : r ≠ .error .valueError) : attempt (some r) next = r := by
  unfold attempt
  cases r with
  | ok y => rfl
  | error e => cases e <;> first | rfl | exact absurd rfl h

theorem human_time_fold (D : Digits) (hD : ∀ c, D.is c = true → Extime.isSpace c = false) {body text hs ms : List Nat}
    {half : Half} (h : SaysTime D body hs ms half) (hf : Framed body text) (z : Zone) (now : Time) :
    ∃ g, lowerS g = half.word ∧
      fromHumanly D text z now = attempt (some (fromTime D (hs, ms, g) z now)) (.error .valueError) := by
  obtain ⟨g, hg1, hg2⟩ := Extime.matchTime_says D h
  refine ⟨g, hg2, ?_⟩
  have hc : 58 ∈ body := by obtain ⟨r, rfl, -⟩ := h.text; simp
  unfold fromHumanly
  simp only
  rw [Extime.strip_time D hD h hf, Extime.matchWeekday_colon hc, hg1]
  rw [Extime.icWord_odd (w := Extime.wToday) (by decide) hc Extime.ic_colon,
    Extime.icWord_odd (w := Extime.wTomorrow) (by decide) hc Extime.ic_colon,
    Extime.icWord_odd (w := Extime.wYesterday) (by decide) hc Extime.ic_colon,
    Extime.icWord_odd (w := wNoon) (by decide) hc Extime.ic_colon,
    Extime.icWord_odd (w := wMidnight) (by decide) hc Extime.ic_colon,
    Extime.icWord_odd (w := Extime.wNow) (by decide) hc Extime.ic_colon]
  rfl

theorem human_noon_fold (D : Digits) {body text v : List Nat} (hv : v = wNoon ∨ v = wMidnight) (hs : body.map asciiLower = v)
    (hf : Framed body text) (z : Zone) (now : Time) :
    fromHumanly D text z now = attempt (some (fromNoonOrMidnight body z now)) (.error .valueError) := by
  have hl : Letters v ∧ v ≠ [] ∧ v ∉ Extime.weekdays := by rcases hv with rfl | rfl <;> decide
  unfold fromHumanly
  simp only
  rw [Extime.strip_word hf hs hl.1 hl.2.1, Extime.matchWeekday_word hs hl.1 hl.2.2,
    Extime.matchTime_colon (Extime.word_colon hs hl.1)]
  rw [Extime.icWord_lower (w := Extime.wToday) (by decide) hs hl.1, Extime.icWord_lower (w := Extime.wTomorrow) (by decide) hs hl.1,
    Extime.icWord_lower (w := Extime.wYesterday) (by decide) hs hl.1, Extime.icWord_lower (w := wNoon) (by decide) hs hl.1,
    Extime.icWord_lower (w := wMidnight) (by decide) hs hl.1, Extime.icWord_lower (w := Extime.wNow) (by decide) hs hl.1]
  rcases hv with rfl | rfl <;> rfl

/-- When the clocks go back, what they then show has been shown before, and what they have shown will be shown again. -/
def Orderly (p : Place) : Prop := ∀ i j, i < j → p.reading j < p.reading i →
  (∃ k, k < i ∧ p.reading k = p.reading j) ∧ ∃ k, j < k ∧ p.reading k = p.reading i

/-- **C126, partial.**  `h:mm` (but `12:mm pm`) names a reading `T` of the clocks in the 24 hours from the minute of `now`;
if the clocks show it twice, the result is the first showing, unless `now` is itself shown for the second time and `T` has
the same date: then it is the last.  In orderly clocks which change on whole minutes it is not before the minute of `now`,
unless `now` is shown for the second time and `T` has another date. -/
theorem fold_time_partial (D : Digits) (hD : ∀ c, D.is c = true → Extime.isSpace c = false) (k : Tells z p) {now : Time}
    (hn : now.t.Valid) (hnr : now.res < dayUs) {t : DT} {f : Bool} (ha : asDatetime now z = .ok (t, f))
    {body text hs ms : List Nat} {half : Half} (h : SaysTime D body hs ms half) (hf : Framed body text) {H : Nat}
    (hH : hourMeant (D.int hs) half = some H) (hM : D.int ms < 60) (h12 : ¬ (half = .pm ∧ D.int hs = 12)) :
    ∃ T, NextAt p (fromHumanly D text z now) (p.reading now.start / 60000000 * 60000000) f
        ((H * 60 + D.int ms : Nat) * 60000000) T ∧
      (Orderly p → Aligned p 60000000 → (∃ i, p.reading i = T) → (f = true → T / dayUs = p.reading now.start / dayUs) →
        ∀ y, fromHumanly D text z now = .ok y → now.start / 60000000 * 60000000 ≤ y.start) := by
  obtain ⟨g, hg, e⟩ := human_time_fold D hD h hf z now
  obtain ⟨hv, hu, hfold, hmn⟩ := asDatetime_means k hn hnr ha
  have hho := ExtimeZone.hourOf_meant hH h12
  obtain ⟨t1, t2⟩ := truncMinute hv
  have key : (∃ T, NextAt p (fromTime D (hs, ms, g) z now) (p.reading now.start / 60000000 * 60000000) f
      ((H * 60 + D.int ms : Nat) * 60000000) T) ∧ fromTime D (hs, ms, g) z now ≠ .error .valueError := by
    unfold fromTime
    simp only
    rw [hg, hho.1]
    simp only
    rw [ha]
    simp only
    rw [← hu, ← t2]
    exact nextAt_spec k t1 rfl rfl f hho.2 hM
  obtain ⟨⟨T, key⟩, hne⟩ := key
  rw [e, attempt_ok hne]
  refine ⟨T, key, fun ho hal hi hd y hy => ?_⟩
  obtain ⟨k1, k2, -, k4, k5, -⟩ := key
  have hn0 := means_floor (by decide) hal hmn
  rw [hu] at hn0
  have hT : Representable T := by
    by_contra hc
    rw [k4 hc] at hy; cases hy
  have hday : p.reading now.start / 60000000 * 60000000 / dayUs = p.reading now.start / dayUs := by
    unfold dayUs; omega
  have hff : (f && decide (T / dayUs = p.reading now.start / 60000000 * 60000000 / dayUs)) = f := by
    rw [hday]
    cases f
    · rfl
    · rw [decide_eq_true (hd rfl)]; rfl
  rw [hff] at k5
  obtain ⟨i, hi⟩ := means_exists k hi f
  have hoi := k5 i hT hi
  have hyi : y.start = i := by
    by_cases hr : Representable i
    · obtain ⟨y', e', -, st, -⟩ := hoi.1 hr
      rw [hy] at e'
      cases e'
      exact st
    · rw [hoi.2 hr] at hy; cases hy
  rw [hyi]
  by_contra hlt
  have hlt : i < now.start / 60000000 * 60000000 := by omega
  cases f
  · have hri := hi.1
    have hrn := hn0.1
    by_cases hTe : T = p.reading now.start / 60000000 * 60000000
    · have := hn0.2 i (hri.trans hTe); omega
    · obtain ⟨⟨l, hl1, hl2⟩, -⟩ := ho i _ hlt (by rw [hri, hrn]; omega)
      have := hn0.2 l (hl2.trans hrn); omega
  · have hri := hi.1
    have hrn := hn0.1
    by_cases hTe : T = p.reading now.start / 60000000 * 60000000
    · have := hi.2 _ (hrn.trans hTe.symm); omega
    · obtain ⟨-, l, hl1, hl2⟩ := ho i _ hlt (by rw [hri, hrn]; omega)
      have := hi.2 l (hl2.trans hri); omega

/-- **C126, partial.**  Likewise `noon` and `midnight`, from the hour of `now`. -/
theorem fold_noon_partial (D : Digits) (k : Tells z p) {now : Time} (hn : now.t.Valid) (hnr : now.res < dayUs) {t : DT}
    {f : Bool} (ha : asDatetime now z = .ok (t, f)) {body text v : List Nat} (hv : v = wNoon ∨ v = wMidnight)
    (hs : body.map asciiLower = v) (hf : Framed body text) :
    ∃ T, NextAt p (fromHumanly D text z now) (p.reading now.start / 3600000000 * 3600000000) f
        (if v = wNoon then 43200000000 else 0) T := by
  obtain ⟨hva, hu, hfold, hmn⟩ := asDatetime_means k hn hnr ha
  have hl : Letters v := by rcases hv with rfl | rfl <;> decide
  obtain ⟨t1, t2⟩ := truncHour hva
  have key : (∃ T, NextAt p (fromNoonOrMidnight body z now) (p.reading now.start / 3600000000 * 3600000000) f
      (if v = wNoon then 43200000000 else 0) T) ∧ fromNoonOrMidnight body z now ≠ .error .valueError := by
    unfold fromNoonOrMidnight
    rw [Extime.lowerS_lower hs hl, ha]
    simp only
    rw [← hu, ← t2]
    rcases hv with rfl | rfl
    · rw [if_pos rfl, if_pos rfl]
      exact nextAt_spec k t1 rfl rfl f (H := 12) (M := 0) (by omega) (by omega)
    · rw [if_neg (by decide), if_pos rfl, if_neg (by decide)]
      exact nextAt_spec k t1 rfl rfl f (H := 0) (M := 0) (by omega) (by omega)
  rw [human_noon_fold D hv hs hf, attempt_ok key.2]
  exact key.1
end

/-! ## Places -/

/-- The place of clocks with summers (`Props/ExtimeZone`), … -/
def place (c : Clocks) : Place where
  ahead i := c.std + if c.summer (i + c.std) then c.save else 0
  save i := if c.summer (i + c.std) then c.save else 0

/-- … and its zone. -/
def zone (c : Clocks) : Zone where
  dst t f := if c.summer (if f then t.toUs else t.toUs - c.save) then c.save else 0
  utcoffset t f := c.std + if c.summer (if f then t.toUs else t.toUs - c.save) then c.save else 0
  fromutc t :=
    let w := t.toUs + c.std
    let r := w + if c.summer w then c.save else 0
    if 0 ≤ r ∧ r < maxUs then .ok (DT.ofUs r, !c.summer w && c.summer (w - c.save)) else .error .overflowError

theorem reading_place (c : Clocks) (w i : Int) : (place c).reading i = w ↔
    (c.summer (w - c.save) = true ∧ i = w - c.std - c.save) ∨ (c.summer w = false ∧ i = w - c.std) := by
  unfold Place.reading place
  simp only
  cases hs : c.summer (i + c.std)
  · simp only [Bool.false_eq_true, if_false]
    constructor
    · intro h
      right
      rw [show i + c.std = w by omega] at hs
      exact ⟨hs, by omega⟩
    · rintro (⟨h, rfl⟩ | ⟨h, rfl⟩)
      · rw [show w - c.std - c.save + c.std = w - c.save by omega, h] at hs; cases hs
      · omega
  · simp only [if_true]
    constructor
    · intro h
      left
      rw [show i + c.std = w - c.save by omega] at hs
      exact ⟨hs, by omega⟩
    · rintro (⟨h, rfl⟩ | ⟨h, rfl⟩)
      · omega
      · rw [show w - c.std + c.std = w by omega, h] at hs; cases hs

/-- The zone of any such clocks is as PEP 495 asks. -/
theorem zone_tells (c : Clocks) (h1 : 0 < c.save)
    (h2 : c.save < dayUs ∧ -dayUs < c.std ∧ c.std < dayUs ∧ c.std + c.save < dayUs) : Tells (zone c) (place c) := by
  refine ⟨fun t f => ?_, fun i j k hij hjk e e' => ?_, fun t ht => ?_, fun t i ht hi => ?_, fun t i ht hi => ?_,
    fun t s ht hn ha hb => ?_⟩
  · unfold zone
    simp only
    generalize c.summer (if f = true then t.toUs else t.toUs - c.save) = b
    cases b <;> simp <;> omega
  · have a := (reading_place c _ i).1 rfl
    have b := (reading_place c _ j).1 e.symm
    have d := (reading_place c _ k).1 (e.trans e').symm
    omega
  · have hr : (place c).reading t.toUs = t.toUs + c.std + if c.summer (t.toUs + c.std) then c.save else 0 := by
      unfold Place.reading place; simp only; omega
    have hz : (zone c).fromutc t = if Representable ((place c).reading t.toUs) then
        .ok (DT.ofUs ((place c).reading t.toUs), !c.summer (t.toUs + c.std) && c.summer (t.toUs + c.std - c.save))
        else .error .overflowError := by rw [hr]; rfl
    rw [hz]
    refine ⟨fun h => ?_, fun h => if_neg h⟩
    rw [if_pos h]
    refine ⟨_, rfl, ?_⟩
    rw [Bool.and_eq_true, Bool.not_eq_true']
    constructor
    · rintro ⟨ha, hb⟩
      refine ⟨t.toUs - c.save, by omega, (reading_place c _ _).2 (.inl ?_)⟩
      rw [hr, ha]
      simp only [Bool.false_eq_true, if_false, Int.add_zero]
      exact ⟨hb, by omega⟩
    · rintro ⟨j, hj, e⟩
      rcases (reading_place c _ j).1 e with ⟨a, b⟩ | ⟨a, b⟩
      · rw [hr] at a b
        cases hs : c.summer (t.toUs + c.std)
        · rw [hs] at a b
          simp only [Bool.false_eq_true, if_false, Int.add_zero] at a
          exact ⟨rfl, a⟩
        · rw [hs] at b; simp at b; omega
      · rw [hr] at b
        split at b <;> omega
  · have hm : c.summer (i + c.std) = c.summer (t.toUs - c.save) := by
      rcases (reading_place c _ i).1 hi.1 with ⟨a, b⟩ | ⟨a, b⟩
      · rw [show i + c.std = t.toUs - c.save by omega]
      · rw [show i + c.std = t.toUs by omega, a]
        cases hs : c.summer (t.toUs - c.save)
        · rfl
        · have := hi.2 _ ((reading_place c _ _).2 (.inl ⟨hs, rfl⟩)); omega
    unfold zone place
    simp only [Bool.false_eq_true, if_false, hm, and_self]
  · have hm : c.summer (i + c.std) = c.summer t.toUs := by
      rcases (reading_place c _ i).1 hi.1 with ⟨a, b⟩ | ⟨a, b⟩
      · rw [show i + c.std = t.toUs - c.save by omega, a]
        cases hs : c.summer t.toUs
        · have := hi.2 _ ((reading_place c _ _).2 (.inr ⟨hs, rfl⟩)); omega
        · rfl
      · rw [show i + c.std = t.toUs by omega]
    unfold zone place
    simp only [if_true, hm, and_self]
  · have hs1 : c.summer t.toUs = true := by
      cases hs : c.summer t.toUs
      · exact absurd ⟨_, (reading_place c _ _).2 (.inr ⟨hs, rfl⟩)⟩ hn
      · rfl
    have hs2 : c.summer (t.toUs - c.save) = false := by
      cases hs : c.summer (t.toUs - c.save)
      · rfl
      · exact absurd ⟨_, (reading_place c _ _).2 (.inl ⟨hs, rfl⟩)⟩ hn
    unfold Place.reading place at ha hb
    simp only at ha hb
    have e1 : c.summer (s - 1 + c.std) = false := by
      cases hs : c.summer (s - 1 + c.std)
      · rfl
      · rw [hs] at ha; simp only [if_true] at ha; split at hb <;> omega
    have e2 : c.summer (s + c.std) = true := by
      cases hs : c.summer (s + c.std)
      · rw [hs] at hb; rw [e1] at ha; simp only [Bool.false_eq_true, if_false] at ha hb; omega
      · rfl
    unfold zone place
    simp only [Bool.false_eq_true, if_false, if_true, hs1, hs2, e1, e2, and_self]

/-- The clocks of New York in 2005, whose zone tells half past one in summer time from half past one in winter time. -/
theorem newYork_tells : Tells (zone newYork) (place newYork) := zone_tells _ (by decide) (by decide)

example : asDatetime ⟨⟨2005, 10, 30, 5, 30, 0, 0⟩, 1⟩ (zone newYork) = .ok (⟨2005, 10, 30, 1, 30, 0, 0⟩, false) ∧
    asDatetime ⟨⟨2005, 10, 30, 6, 30, 0, 0⟩, 1⟩ (zone newYork) = .ok (⟨2005, 10, 30, 1, 30, 0, 0⟩, true) ∧
    fromDatetime (⟨2005, 10, 30, 1, 30, 0, 0⟩, false) (some (zone newYork)) = .ok ⟨⟨2005, 10, 30, 5, 30, 0, 0⟩, 1⟩ ∧
    fromDatetime (⟨2005, 10, 30, 1, 30, 0, 0⟩, true) (some (zone newYork)) = .ok ⟨⟨2005, 10, 30, 6, 30, 0, 0⟩, 1⟩ := by
  decide +kernel

/-- Half past two of 3 April, which is skipped, is half past three by the clocks after the skip with `fold` 0, and half
past one by those before it with `fold` 1. -/
example : fromDatetime (⟨2005, 4, 3, 2, 30, 0, 0⟩, false) (some (zone newYork)) = .ok ⟨⟨2005, 4, 3, 7, 30, 0, 0⟩, 1⟩ ∧
    fromDatetime (⟨2005, 4, 3, 2, 30, 0, 0⟩, true) (some (zone newYork)) = .ok ⟨⟨2005, 4, 3, 6, 30, 0, 0⟩, 1⟩ ∧
    asDatetime ⟨⟨2005, 4, 3, 7, 30, 0, 0⟩, 1⟩ (zone newYork) = .ok (⟨2005, 4, 3, 3, 30, 0, 0⟩, false) := by
  decide +kernel

example : asIso ⟨⟨2005, 10, 30, 5, 30, 0, 0⟩, 1⟩ true (zone newYork) true = .ok ("2005-10-30T01:30:00-04:00".toList.map Char.toNat) ∧
    asIso ⟨⟨2005, 10, 30, 6, 30, 0, 0⟩, 1⟩ true (zone newYork) true = .ok ("2005-10-30T01:30:00-05:00".toList.map Char.toNat) ∧
    asRFC2822 ⟨⟨2005, 10, 30, 5, 30, 0, 0⟩, 1⟩ (zone newYork) true = .ok ("Sun, 30 Oct 2005 01:30:00 -0400".toList.map Char.toNat) := by
  decide +kernel

example : Orderly (place newYork) ∧ Aligned (place newYork) 60000000 ∧ Aligned (place newYork) 1000000 := by
  have e1 : DT.toUs ⟨2005, 4, 3, 2, 0, 0, 0⟩ = 63248090400000000 := by decide
  have e2 : DT.toUs ⟨2005, 10, 30, 1, 0, 0, 0⟩ = 63266230800000000 := by decide
  have hs : ∀ w, newYork.summer w = true ↔ 63248090400000000 ≤ w ∧ w < 63266230800000000 := by
    intro w
    simp only [newYork, e1, e2, Bool.and_eq_true, decide_eq_true_eq]
  have hstd : newYork.std = -18000000000 := rfl
  have hsave : newYork.save = 3600000000 := rfl
  have hr : ∀ i, (place newYork).ahead i =
      if 63248108400000000 ≤ i ∧ i < 63266248800000000 then -14400000000 else -18000000000 := by
    intro i
    unfold place
    simp only [hs, hstd, hsave]
    split <;> split <;> omega
  refine ⟨fun i j hij h => ?_, fun i => ?_, fun i => ?_⟩
  · unfold Place.reading at *
    rw [hr, hr] at h
    split at h <;> split at h <;> try omega
    refine ⟨⟨j - 3600000000, by omega, ?_⟩, i + 3600000000, by omega, ?_⟩
    · rw [hr, hr]; repeat' split
      all_goals omega
    · rw [hr, hr]; repeat' split
      all_goals omega
  · rw [hr, hr]; split <;> split <;> omega
  · rw [hr, hr]; split <;> split <;> omega

/-! ## What `fold` does not help -/

/-- C126 as stated is false of tuples and of texts without zone: half past six in the morning (UTC) of 30 October 2005 is
half past one in New York for the second time, and is read as half past five. -/
theorem fold_struct_fails :
    asStructTime ⟨⟨2005, 10, 30, 6, 30, 0, 0⟩, 1⟩ (zone newYork) = .ok [2005, 10, 30, 1, 30, 0, 6, 303, 0] ∧
    fromStructTime [2005, 10, 30, 1, 30, 0, 6, 303, 0] (zone newYork) = .ok ⟨⟨2005, 10, 30, 5, 30, 0, 0⟩, 1000000⟩ ∧
    asIso ⟨⟨2005, 10, 30, 6, 30, 0, 0⟩, 1⟩ true (zone newYork) false = .ok ("2005-10-30T01:30:00".toList.map Char.toNat) ∧
    parseIso Extime.asciiDigits ("2005-10-30T01:30:00".toList.map Char.toNat) (zone newYork) =
      .ok ⟨⟨2005, 10, 30, 5, 30, 0, 0⟩, 1000000⟩ := by
  decide +kernel

/-- The clocks of New York before 1883, four hours, 56 minutes and two seconds behind. -/
def oldNewYork : Place := ⟨fun _ => -17762000000, fun _ => 0⟩

/-- Their zone. -/
def oldZone : Zone := ofPlain ⟨fun _ => -17762000000, fun _ => 0⟩

theorem oldNewYork_tells : Tells oldZone oldNewYork := by
  refine ⟨fun t f => ?_, fun i j k hij hjk e e' => ?_, fun t ht => ?_, fun t i ht hi => ⟨rfl, rfl⟩, fun t i ht hi => ⟨rfl, rfl⟩,
    fun t s ht hn ha hb => ⟨rfl, rfl⟩⟩
  · unfold oldZone ofPlain dayUs; simp
  · unfold Place.reading oldNewYork at e; simp only at e; omega
  · have hz : oldZone.fromutc t = if Representable (oldNewYork.reading t.toUs) then
        .ok (DT.ofUs (oldNewYork.reading t.toUs), false) else .error .overflowError := by
      unfold oldZone ofPlain ExtimeZone.fromutc
      simp only
      rw [checked_ok (by decide), checked_ok (by decide)]
      simp only
      rw [if_pos (by decide), show (-17762000000 : Int) - 0 = -17762000000 from rfl, add_eq]
      by_cases h : Representable (oldNewYork.reading t.toUs)
      · have h' : Representable (t.toUs + -17762000000) := h
        rw [if_pos h, if_pos h']
        simp only
        rw [add_zero (DT.ofUs_valid h'.1 h'.2)]
        rfl
      · have h' : ¬ Representable (t.toUs + -17762000000) := h
        rw [if_neg h, if_neg h']
    rw [hz]
    refine ⟨fun h => ?_, fun h => if_neg h⟩
    rw [if_pos h]
    refine ⟨_, rfl, ?_⟩
    constructor
    · intro h; cases h
    · rintro ⟨j, hj, e⟩
      unfold Place.reading oldNewYork at e
      simp only at e
      omega

/-- Nor of texts in zones with seconds: noon of 1 January 1880 is read back two seconds early. -/
theorem fold_rfc_fails :
    asRFC2822 ⟨⟨1880, 1, 1, 12, 0, 0, 0⟩, 1⟩ oldZone true = .ok ("Thu, 1 Jan 1880 07:03:58 -0456".toList.map Char.toNat) ∧
    Extime.fromRFC2822 ("Thu, 1 Jan 1880 07:03:58 -0456".toList.map Char.toNat) =
      .ok ⟨⟨1880, 1, 1, 11, 59, 58, 0⟩, 1000000⟩ := by
  decide +kernel

/-- The clocks of St. John's in 2005: three and a half hours behind, and from 3 April to 30 October one hour less; they go
back from one minute past midnight to one minute past eleven in the evening. -/
def stJohns : Clocks where
  std := -12600000000
  save := 3600000000
  summer w := decide (DT.toUs ⟨2005, 4, 3, 0, 1, 0, 0⟩ ≤ w) && decide (w < DT.toUs ⟨2005, 10, 29, 23, 1, 0, 0⟩)

theorem stJohns_tells : Tells (zone stJohns) (place stJohns) := zone_tells _ (by decide) (by decide)

/-- `fromHumanly` does not always name the next time: in New York, at a quarter to two in summer time of 30 October 2005,
`1:30` is the next day, although the clocks show it again three quarters of an hour later; in St. John's, at half past
eleven (winter time) of 29 October, `0:00` is half an hour ago, although the clocks show it again half an hour later. -/
theorem fold_time_fails :
    fromHumanly Extime.asciiDigits ("1:30".toList.map Char.toNat) (zone newYork) ⟨⟨2005, 10, 30, 5, 45, 0, 0⟩, 1⟩ =
      .ok ⟨⟨2005, 10, 31, 6, 30, 0, 0⟩, 60000000⟩ ∧
    (place newYork).reading (DT.toUs ⟨2005, 10, 30, 6, 30, 0, 0⟩) = DT.toUs ⟨2005, 10, 30, 1, 30, 0, 0⟩ ∧
    fromHumanly Extime.asciiDigits ("0:00".toList.map Char.toNat) (zone stJohns) ⟨⟨2005, 10, 30, 3, 0, 0, 0⟩, 1⟩ =
      .ok ⟨⟨2005, 10, 30, 2, 30, 0, 0⟩, 60000000⟩ ∧
    (place stJohns).reading (DT.toUs ⟨2005, 10, 30, 3, 30, 0, 0⟩) = DT.toUs ⟨2005, 10, 30, 0, 0, 0, 0⟩ := by
  decide +kernel

/-- At half past one in winter time, `1:45` is a quarter of an hour later, and at noon `1:45 pm` is in the afternoon. -/
example : fromHumanly Extime.asciiDigits ("1:45".toList.map Char.toNat) (zone newYork) ⟨⟨2005, 10, 30, 6, 30, 0, 0⟩, 1⟩ =
      .ok ⟨⟨2005, 10, 30, 6, 45, 0, 0⟩, 60000000⟩ ∧
    fromHumanly Extime.asciiDigits ("1:45 pm".toList.map Char.toNat) (zone newYork) ⟨⟨2005, 10, 30, 17, 0, 0, 0⟩, 1⟩ =
      .ok ⟨⟨2005, 10, 30, 18, 45, 0, 0⟩, 60000000⟩ ∧
    fromHumanly Extime.asciiDigits ("noon".toList.map Char.toNat) (zone newYork) ⟨⟨2005, 10, 30, 5, 30, 0, 0⟩, 1⟩ =
      .ok ⟨⟨2005, 10, 30, 17, 0, 0, 0⟩, 60000000⟩ := by
  decide +kernel

/-! ## Zones without `fold` -/

theorem asDatetime_ofPlain (x : Time) (z : ExtimeZone.Zone) : asDatetime x (ofPlain z) =
    match ExtimeZone.asDatetime x (some z) with
    | .error e => .error e
    | .ok t => .ok (t, false) := by
  unfold asDatetime ExtimeZone.asDatetime
  cases Extime.isTimezoneDependent x
  · rfl
  · unfold astimezone ExtimeZone.astimezone
    simp only [Bool.not_true, Bool.false_eq_true, if_false, Option.getD_some]
    rw [show checked ((fixedOffset 0 0).utcoffset x.t false) = checked ((ExtimeZone.fixedOffset 0 0).utcoffset x.t) from rfl]
    cases checked ((ExtimeZone.fixedOffset 0 0).utcoffset x.t) with
    | error e => rfl
    | ok o =>
      simp only
      cases x.t.add (-o) <;> rfl

theorem nextAt_ofPlain (n : DT) (z : ExtimeZone.Zone) (h m : Int) :
    nextAt (n, false) (ofPlain z) h m = ExtimeZone.nextAt n z h m := by
  unfold nextAt ExtimeZone.nextAt
  simp only
  cases DT.mk? n.year n.month n.day h m n.second n.us with
  | error e => rfl
  | ok d =>
    simp only
    cases Extime.dtLt d n
    · simp only [Bool.false_eq_true, if_false]
      rw [fromDatetime_plain]
      rfl
    · simp only [if_true]
      cases d.add dayUs with
      | error e => rfl
      | ok u => simp only; rw [fromDatetime_plain]; rfl

/-- **C126.**  Zones which ignore `fold` and do not override `fromutc` behave as in C119: this model says the same of them. -/
theorem fold_plain (D : Extime.Digits) (z : ExtimeZone.Zone) (x : Time) (t : DT) (f b incl : Bool) (s : List Nat) (l : List Int) :
    fromDatetime (t, f) (some (ofPlain z)) = ExtimeZone.fromDatetime t (some z) ∧
    (∀ u g, asDatetime x (ofPlain z) = .ok (u, g) ↔ ExtimeZone.asDatetime x (some z) = .ok u ∧ g = false) ∧
    asStructTime x (ofPlain z) = ExtimeZone.asStructTime x (some z) ∧
    fromStructTime l (ofPlain z) = ExtimeZone.fromStructTime l (some z) ∧
    asRFC2822 x (ofPlain z) b = ExtimeZone.asRFC2822 x z b ∧
    asIso x b (ofPlain z) incl = ExtimeZone.asIso x b z incl ∧
    parseIso D s (ofPlain z) = ExtimeZone.parseIso D s z ∧
    fromHumanly D s (ofPlain z) x = ExtimeZone.fromHumanly D s z x := by
  refine ⟨?_, fun u g => ?_, ?_, ?_, ?_, ?_, parseIso_plain D s (ofPlain z), ?_⟩
  · exact fromDatetime_plain (ofPlain z) t
  · rw [asDatetime_ofPlain]
    cases ExtimeZone.asDatetime x (some z) with
    | error e => simp
    | ok v =>
      simp only [Except.ok.injEq, Prod.mk.injEq]
      constructor
      · rintro ⟨h1, h2⟩; exact ⟨h1, h2.symm⟩
      · rintro ⟨h1, h2⟩; exact ⟨h1, h2.symm⟩
  · unfold asStructTime ExtimeZone.asStructTime
    rw [asDatetime_ofPlain]
    cases ExtimeZone.asDatetime x (some z) <;> rfl
  · unfold fromStructTime ExtimeZone.fromStructTime
    have : ∀ d, fromDatetime (d, false) (some (ofPlain z)) = ExtimeZone.fromDatetime d (some z) := fun d =>
      fromDatetime_plain (ofPlain z) d
    simp only [this]
    rfl
  · unfold asRFC2822 ExtimeZone.asRFC2822
    rw [asDatetime_ofPlain]
    cases ExtimeZone.asDatetime x (some z) <;> rfl
  · unfold asIso ExtimeZone.asIso
    rw [asDatetime_ofPlain]
    cases ExtimeZone.asDatetime x (some z) <;> rfl
  · have e1 : ∀ g, fromTime D g (ofPlain z) x = ExtimeZone.fromTime D g z x := by
      intro g
      unfold fromTime ExtimeZone.fromTime
      cases Extime.hourOf (D.int g.1) (Extime.lowerS g.2.2) with
      | error e => rfl
      | ok h =>
        simp only
        rw [asDatetime_ofPlain]
        cases ExtimeZone.asDatetime x (some z) with
        | error e => rfl
        | ok u => exact nextAt_ofPlain _ _ _ _
    have e2 : ∀ v, fromNoonOrMidnight v (ofPlain z) x = ExtimeZone.fromNoonOrMidnight v z x := by
      intro v
      unfold fromNoonOrMidnight ExtimeZone.fromNoonOrMidnight
      rw [asDatetime_ofPlain]
      cases ExtimeZone.asDatetime x (some z) with
      | error e => rfl
      | ok u => simp only [nextAt_ofPlain]
    unfold fromHumanly ExtimeZone.fromHumanly
    simp only [e1, e2]

end Verif.ExtimeFold
