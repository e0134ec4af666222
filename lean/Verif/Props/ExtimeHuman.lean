import Verif.Lemmas.ExtimeHuman
/-!
# C19, C20: `fromHumanly`

`Framed body text`: the text is the body, with whitespace around it.
-/
namespace Verif.Extime
open Verif.Py

def Framed (body text : List Nat) : Prop :=
  ∃ a b, text = a ++ body ++ b ∧ (∀ c ∈ a, isSpace c = true) ∧ (∀ c ∈ b, isSpace c = true)

theorem strip_word {body text v : List Nat} (hf : Framed body text) (h : body.map asciiLower = v) (hv : Letters v)
    (hne : v ≠ []) : strip text = body := by
  obtain ⟨a, b, rfl, ha, hb⟩ := hf
  have hs : ∀ c ∈ body, isSpace c = false :=
    fun c hc => letter_not_space rfl (hv _ (by rw [← h]; exact List.mem_map_of_mem hc))
  exact strip_framed ha hb (fun c hc => hs c (List.mem_of_mem_head? hc)) (fun c hc => hs c (List.mem_of_getLast? hc))
    (by rintro rfl; exact hne h.symm)

theorem strip_day {body text v : List Nat} (hf : Framed body text) (hv : v ∈ weekdays) (h : SaysDay body v) :
    strip text = body := by
  have hl := weekdays_letters v hv
  have hne : v ≠ [] := by rintro rfl; exact absurd hv (by decide)
  rcases h with h | ⟨p, ws, b', rfl, hp, -, -, hb⟩
  · exact strip_word hf h hl hne
  · obtain ⟨a, b, rfl, ha, hb2⟩ := hf
    have hbs : ∀ c ∈ b', isSpace c = false :=
      fun c hc => letter_not_space rfl (hl _ (by rw [← hb]; exact List.mem_map_of_mem hc))
    have hps : ∀ c ∈ p, isSpace c = false := by
      intro c hc
      rcases hp with hp | hp
      · exact letter_not_space (q := asciiLower c) rfl ((by decide : Letters wNext) _ (by rw [← hp]; exact List.mem_map_of_mem hc))
      · exact letter_not_space (q := asciiLower c) rfl ((by decide : Letters wThis) _ (by rw [← hp]; exact List.mem_map_of_mem hc))
    have hpne : p ≠ [] := by rintro rfl; rcases hp with hp | hp <;> cases hp
    have hbne : b' ≠ [] := by rintro rfl; exact hne hb.symm
    apply strip_framed ha hb2
    · intro c hc
      cases p with
      | nil => exact absurd rfl hpne
      | cons d p => simp at hc; subst hc; exact hps d (by simp)
    · intro c hc
      rw [List.getLast?_append_of_ne_nil _ hbne] at hc
      exact hbs c (List.mem_of_getLast? hc)
    · simp [hpne]

theorem add_eq (t : DT) (d : Int) :
    t.add d = if Representable (t.toUs + d) then .ok (DT.ofUs (t.toUs + d)) else .error .overflowError := rfl

theorem weekdays_mem : ∀ w, w < 7 → weekdays.getD w [] ∈ weekdays ∧ weekdays.idxOf (weekdays.getD w []) = w := by decide

theorem fromWeekday_spec {now : Time} (hn : now.t.Valid) {g : List Nat} {w : Nat} (hw : w < 7)
    (hg : lowerS g = weekdays.getD w []) :
    ∃ d : Int, now.start / dayUs < d ∧ d ≤ now.start / dayUs + 7 ∧ d % 7 = w ∧
      fromWeekday g now = if Representable (d * dayUs) then .ok ⟨DT.ofUs (d * dayUs), dayUs⟩ else .error .overflowError := by
  obtain ⟨hmem, hidx⟩ := weekdays_mem w hw
  obtain ⟨m1, m2, m3, m4, m5⟩ := midnight_toUs hn
  refine ⟨now.start / dayUs + (if ((w : Int) - now.t.weekday) % 7 = 0 then 7 else ((w : Int) - now.t.weekday) % 7), ?_, ?_, ?_, ?_⟩
  · split <;> omega
  · split <;> omega
  · unfold Time.start; split <;> omega
  · have hk : (now.start / dayUs + (if ((w : Int) - now.t.weekday) % 7 = 0 then 7 else ((w : Int) - now.t.weekday) % 7)) % 7
        = w := by unfold Time.start; split <;> omega
    unfold fromWeekday
    simp only
    rw [hg, if_neg (by simpa using hmem), asDatetime_utc hn, hidx]
    simp only
    rw [m3]
    generalize (if ((w : Int) - now.t.weekday) % 7 = 0 then (7 : Int) else ((w : Int) - now.t.weekday) % 7) = k at hk ⊢
    rw [add_eq, m2]
    have e : now.t.toUs / dayUs * dayUs + k * dayUs = (now.start / dayUs + k) * dayUs := by unfold Time.start; rw [Int.add_mul]
    rw [e]
    by_cases hr : Representable ((now.start / dayUs + k) * dayUs)
    · rw [if_pos hr, if_pos hr]
      have hv := DT.ofUs_valid hr.1 hr.2
      simp only
      rw [fromDatetime_utc hv rfl]
      simp only
      rw [asDatetime_utc (x := ⟨DT.ofUs ((now.start / dayUs + k) * dayUs), 1⟩) hv]
      simp only
      rw [if_pos]
      obtain ⟨-, -, -, w4, -⟩ := midnight_toUs hv
      rw [DT.toUs_ofUs hr.1, Int.mul_ediv_cancel _ (by decide), hk] at w4
      exact_mod_cast w4
    · rw [if_neg hr, if_neg hr]

variable (D : Digits)

/-- **C19**, weekdays (day 0 is 1 January of the year 1, a Monday): a day name, alone or after `next` or `this`,
yields the first such day after the UTC day of `now`; `OverflowError` if that is beyond the year 9999. -/
theorem human_weekday {now : Time} (hn : now.t.Valid) (tz : Option Tz) {body text : List Nat} {w : Nat} (hw : w < 7)
    (hs : SaysDay body (weekdays.getD w [])) (hf : Framed body text) :
    ∃ d : Int, now.start / dayUs < d ∧ d ≤ now.start / dayUs + 7 ∧ d % 7 = w ∧
      (Representable (d * dayUs) → ∃ y, fromHumanly D text tz now = .ok y ∧ y.t.Valid ∧ y.start = d * dayUs ∧
        y.res = dayUs) ∧
      (¬ Representable (d * dayUs) → fromHumanly D text tz now = .error .overflowError) := by
  obtain ⟨hmem, -⟩ := weekdays_mem w hw
  obtain ⟨g, hg1, hg2⟩ := matchWeekday_says hmem hs
  obtain ⟨d, h1, h2, h3, h4⟩ := fromWeekday_spec hn hw hg2
  refine ⟨d, h1, h2, h3, fun hr => ?_, fun hr => ?_⟩
  · rw [if_pos hr] at h4
    refine ⟨⟨DT.ofUs (d * dayUs), dayUs⟩, ?_, DT.ofUs_valid hr.1 hr.2, DT.toUs_ofUs hr.1, rfl⟩
    unfold fromHumanly
    simp only
    rw [strip_day hf hmem hs, hg1, Option.map_some, h4]
    rfl
  · rw [if_neg hr] at h4
    unfold fromHumanly
    simp only
    rw [strip_day hf hmem hs, hg1, Option.map_some, h4]
    rfl

/-- ` next  FRIDAY` -/
example : SaysDay [110, 69, 120, 116, 32, 9, 70, 82, 73, 68, 65, 89] (weekdays.getD 4 []) ∧
    Framed [110, 69, 120, 116, 32, 9, 70, 82, 73, 68, 65, 89] [32, 110, 69, 120, 116, 32, 9, 70, 82, 73, 68, 65, 89] :=
  ⟨Or.inr ⟨[110, 69, 120, 116], [32, 9], [70, 82, 73, 68, 65, 89], rfl, by decide, by decide, by decide, by decide⟩,
    [32], [], rfl, by decide, by decide⟩

/-- How many days from today. -/
def relative : List (List Nat × Int) := [(wToday, 0), (wTomorrow, 1), (wYesterday, -1)]

/-- **C19**, `today`, `tomorrow` and `yesterday`: the UTC day of `now`, shifted by 0, 1 and -1. -/
theorem human_relative {now : Time} (hn : now.t.Valid) (tz : Option Tz) {body text v : List Nat} {k : Int}
    (hk : (v, k) ∈ relative) (hs : body.map asciiLower = v) (hf : Framed body text) :
    (Representable ((now.start / dayUs + k) * dayUs) → ∃ y, fromHumanly D text tz now = .ok y ∧ y.t.Valid ∧
        y.start = (now.start / dayUs + k) * dayUs ∧ y.res = dayUs) ∧
    (¬ Representable ((now.start / dayUs + k) * dayUs) → fromHumanly D text tz now = .error .overflowError) := by
  have hl : Letters v ∧ v ≠ [] ∧ v ∉ weekdays := by
    have : ∀ p ∈ relative, Letters p.1 ∧ p.1 ≠ [] ∧ p.1 ∉ weekdays := by decide
    exact this _ hk
  obtain ⟨m1, m2, -, -, -⟩ := midnight_toUs hn
  have hm : (icWord wToday body || icWord wTomorrow body || icWord wYesterday body) = true := by
    rw [icWord_lower (w := wToday) (by decide) hs hl.1, icWord_lower (w := wTomorrow) (by decide) hs hl.1,
      icWord_lower (w := wYesterday) (by decide) hs hl.1]
    have : ∀ p ∈ relative, (wToday == p.1 || wTomorrow == p.1 || wYesterday == p.1) = true := by decide
    exact this _ hk
  have e0 : fromTodayOrTomorrow body now =
      if Representable ((now.start / dayUs + k) * dayUs) then .ok ⟨DT.ofUs ((now.start / dayUs + k) * dayUs), dayUs⟩
      else .error .overflowError := by
    have hmv : (if v = wTomorrow then DT.add { now.t with hour := 0, minute := 0, second := 0, us := 0 } dayUs
        else if v = wYesterday then DT.add { now.t with hour := 0, minute := 0, second := 0, us := 0 } (-dayUs)
        else if v = wToday then .ok { now.t with hour := 0, minute := 0, second := 0, us := 0 }
        else .error .assertionError) =
        if Representable ((now.start / dayUs + k) * dayUs) then .ok (DT.ofUs ((now.start / dayUs + k) * dayUs))
        else .error .overflowError := by
      have hc : (v = wToday ∧ k = 0) ∨ (v = wTomorrow ∧ k = 1) ∨ (v = wYesterday ∧ k = -1) := by
        simpa [relative] using hk
      rcases hc with ⟨rfl, rfl⟩ | ⟨rfl, rfl⟩ | ⟨rfl, rfl⟩
      · rw [if_neg (by decide), if_neg (by decide), if_pos rfl]
        have e : (now.start / dayUs + 0) * dayUs =
          ({ now.t with hour := 0, minute := 0, second := 0, us := 0 } : DT).toUs := by rw [m2]; unfold Time.start; simp
        have hr : Representable _ := DT.toUs_range m1
        rw [e, if_pos hr]
        congr 1
        exact DT.toUs_inj m1 (DT.ofUs_valid hr.1 hr.2) (DT.toUs_ofUs hr.1).symm
      · rw [if_pos rfl, add_eq, m2]
        have e : now.t.toUs / dayUs * dayUs + dayUs = (now.start / dayUs + 1) * dayUs := by
          unfold Time.start; rw [Int.add_mul]; omega
        rw [e]
      · rw [if_neg (by decide), if_pos rfl, add_eq, m2]
        have e : now.t.toUs / dayUs * dayUs + -dayUs = (now.start / dayUs + -1) * dayUs := by
          unfold Time.start; rw [Int.add_mul]; omega
        rw [e]
    unfold fromTodayOrTomorrow
    rw [asDatetime_utc hn, lowerS_lower hs hl.1]
    simp only
    rw [hmv]
    by_cases hr : Representable ((now.start / dayUs + k) * dayUs)
    · rw [if_pos hr, if_pos hr]
      simp only
      rw [fromDatetime_utc (DT.ofUs_valid hr.1 hr.2) rfl]
    · rw [if_neg hr, if_neg hr]
  have e1 : fromHumanly D text tz now = attempt (some (if Representable ((now.start / dayUs + k) * dayUs) then
      .ok ⟨DT.ofUs ((now.start / dayUs + k) * dayUs), dayUs⟩ else .error .overflowError)) (
      attempt ((matchTime D body).map fun g => fromTime D g (tz.getD utc) now) <|
      attempt (if icWord wNoon body || icWord wMidnight body then some (fromNoonOrMidnight body (tz.getD utc) now) else none) <|
      attempt (if icWord wNow body then some (add now 0) else none) <| .error .valueError) := by
    unfold fromHumanly
    simp only
    rw [strip_word hf hs hl.1 hl.2.1, matchWeekday_word hs hl.1 hl.2.2, if_pos hm, e0]
    rfl
  rw [e1]
  refine ⟨fun hr => ?_, fun hr => ?_⟩
  · rw [if_pos hr]
    exact ⟨⟨DT.ofUs ((now.start / dayUs + k) * dayUs), dayUs⟩, rfl, DT.ofUs_valid hr.1 hr.2, DT.toUs_ofUs hr.1, rfl⟩
  · rw [if_neg hr]; rfl

example : (wYesterday, -1) ∈ relative ∧ [89, 69, 83, 116, 101, 114, 100, 97, 121].map asciiLower = wYesterday := by decide

/-! ## C20 -/

/-- The time on the wall in the zone `z`; a `Time` of a day or more is not shifted. -/
def wall (now : Time) (z : Tz) : Int := now.start + if now.res < dayUs then z.minutes * 60000000 else 0

theorem asDatetime_wall {now : Time} (hn : now.t.Valid) {z : Tz} (hz : z.Good) :
    (Representable (wall now z) → ∃ a, asDatetime now (some z) = .ok a ∧ a.dt.Valid ∧ a.dt.toUs = wall now z) ∧
    (¬ Representable (wall now z) → asDatetime now (some z) = .error .overflowError) := by
  unfold wall
  by_cases h : now.res < dayUs
  · simp only [if_pos h]
    refine ⟨fun hr => ?_, (asDatetime_instant hn h hz).2⟩
    obtain ⟨a, h1, h2, h3, h4⟩ := (asDatetime_instant hn h hz).1 hr
    refine ⟨a, h1, h3, ?_⟩
    unfold ADT.instant at h4
    rw [h2] at h4
    simp only at h4
    omega
  · simp only [if_neg h]
    have hs := start_representable hn
    refine ⟨fun _ => ⟨_, (asDatetime_coarse (by omega) z).1, hn, by unfold Time.start; simp⟩, fun hr => ?_⟩
    rw [Int.add_zero] at hr
    exact absurd hs hr

/-- `r` is the outcome of asking for the next wall-clock time `tod` (microseconds after midnight), not before `lo`. -/
def NextAt (r : Except PyErr Time) (lo tod : Int) (z : Tz) : Prop :=
  ∃ T, lo ≤ T ∧ T < lo + dayUs ∧ T % dayUs = tod ∧
    (Representable T ∧ Representable (T - z.minutes * 60000000) →
      ∃ y, r = .ok y ∧ y.t.Valid ∧ y.start = T - z.minutes * 60000000 ∧ y.res = 60000000) ∧
    (¬ (Representable T ∧ Representable (T - z.minutes * 60000000)) → r = .error .overflowError)

theorem nextAt_spec {n : DT} (hn : n.Valid) (hs : n.second = 0) (hu : n.us = 0) {z : Tz} (hz : z.Good) {H M : Nat}
    (hH : H < 24) (hM : M < 60) : NextAt (nextAt n z H M) n.toUs ((H * 60 + M : Nat) * 60000000) z := by
  have hv : (⟨n.year, n.month, n.day, H, M, 0, 0⟩ : DT).Valid := ⟨hn.1, hn.2.1, hH, hM, by simp, by simp⟩
  have hm := DT.mk?_ok (y := n.year) (m := n.month) (d := n.day) (h := H) (mi := M) (s := 0) (us := 0)
  rw [if_pos hv] at hm
  have hnu : n.toUs = n.toUs / dayUs * dayUs + (n.hour * 60 + n.minute : Nat) * 60000000 := by
    obtain ⟨-, -, h3, h4, h5, h6⟩ := hn
    unfold DT.toUs dayUs
    rw [hs, hu]
    omega
  have htu : (⟨n.year, n.month, n.day, H, M, 0, 0⟩ : DT).toUs = n.toUs / dayUs * dayUs + (H * 60 + M : Nat) * 60000000 := by
    obtain ⟨-, -, h3, h4, h5, h6⟩ := hn
    have : (⟨n.year, n.month, n.day, H, M, 0, 0⟩ : DT).ord = n.ord := rfl
    unfold DT.toUs dayUs
    simp only
    rw [this, hs, hu]
    omega
  have hrn : Representable n.toUs := DT.toUs_range hn
  have hrt : Representable (⟨n.year, n.month, n.day, H, M, 0, 0⟩ : DT).toUs := DT.toUs_range hv
  have key : ∀ (t : DT), t.Valid → ∀ (r : Except PyErr Time),
      (r = match fromDatetime ⟨t, some z⟩ with
        | .error e => .error e
        | .ok x => .ok { x with res := 60000000 }) →
      (Representable t.toUs ∧ Representable (t.toUs - z.minutes * 60000000) →
        ∃ y, r = .ok y ∧ y.t.Valid ∧ y.start = t.toUs - z.minutes * 60000000 ∧ y.res = 60000000) ∧
      (¬ (Representable t.toUs ∧ Representable (t.toUs - z.minutes * 60000000)) → r = .error .overflowError) := by
    intro t ht r hr
    have hf := fromDatetime_instant (a := ⟨t, some z⟩) ht (by rintro w ⟨⟩; exact hz)
    have hi : ADT.instant ⟨t, some z⟩ = t.toUs - z.minutes * 60000000 := rfl
    rw [hi] at hf
    refine ⟨fun h => ?_, fun h => ?_⟩
    · obtain ⟨y, e, v, st, -⟩ := hf.1 h.2
      rw [hr, e]
      exact ⟨⟨y.t, 60000000⟩, rfl, v, st, rfl⟩
    · have : Representable t.toUs := DT.toUs_range ht
      rw [hr, hf.2 (fun h' => h ⟨this, h'⟩)]
  have hbound : ((H * 60 + M : Nat) : Int) * 60000000 < dayUs ∧ ((n.hour * 60 + n.minute : Nat) : Int) * 60000000 < dayUs := by
    obtain ⟨-, -, h3, h4, h5, h6⟩ := hn
    unfold dayUs; omega
  have hmod : ∀ q : Int, (q * dayUs + ((H * 60 + M : Nat) : Int) * 60000000) % dayUs = ((H * 60 + M : Nat) : Int) * 60000000 := by
    intro q
    rw [Int.add_comm, Int.add_mul_emod_self_right]
    exact Int.emod_eq_of_lt (by omega) hbound.1
  unfold nextAt
  rw [hs, hu]
  rw [show DT.mk? n.year n.month n.day H M (0 : Nat) (0 : Nat) = _ from hm]
  simp only
  rw [dtLt_eq hv hn]
  by_cases hc : (⟨n.year, n.month, n.day, H, M, 0, 0⟩ : DT).toUs < n.toUs
  · rw [decide_eq_true hc, if_pos rfl, add_eq]
    refine ⟨(⟨n.year, n.month, n.day, H, M, 0, 0⟩ : DT).toUs + dayUs, ?_, ?_, ?_, ?_⟩
    · omega
    · omega
    · rw [htu]
      rw [show n.toUs / dayUs * dayUs + ((H * 60 + M : Nat) : Int) * 60000000 + dayUs =
        (n.toUs / dayUs + 1) * dayUs + ((H * 60 + M : Nat) : Int) * 60000000 by rw [Int.add_mul]; omega]
      exact hmod _
    · by_cases hr : Representable ((⟨n.year, n.month, n.day, H, M, 0, 0⟩ : DT).toUs + dayUs)
      · rw [if_pos hr]
        have := key _ (DT.ofUs_valid hr.1 hr.2) _ rfl
        rw [DT.toUs_ofUs hr.1] at this
        exact this
      · rw [if_neg hr]
        exact ⟨fun h => absurd h.1 hr, fun _ => rfl⟩
  · rw [decide_eq_false hc]
    simp only [Bool.false_eq_true, if_false]
    refine ⟨(⟨n.year, n.month, n.day, H, M, 0, 0⟩ : DT).toUs, by omega, ?_, ?_, ?_⟩
    · omega
    · rw [htu]; exact hmod _
    · exact key _ hv _ rfl

/-- What may follow the minutes: nothing, or `am` or `pm`, perhaps after whitespace. -/
inductive Half where
  | none | am | pm

def Half.word : Half → List Nat
  | .none => []
  | .am => wAm
  | .pm => wPm

def Half.Written (h : Half) (r : List Nat) : Prop :=
  match h with
  | .none => r = []
  | h => ∃ ws ap, r = ws ++ ap ∧ (∀ c ∈ ws, isSpace c = true) ∧ ap.map asciiLower = h.word

/-- The hour meant: `12 am` is 0, `12 pm` is 12. -/
def hourMeant (h : Nat) : Half → Option Nat
  | .none => if h < 24 then some h else none
  | .am => if 1 ≤ h ∧ h ≤ 12 then some (h % 12) else none
  | .pm => if 1 ≤ h ∧ h ≤ 12 then some (h % 12 + 12) else none

/-- `h:mm`, with one or two digits for the hour. -/
structure SaysTime (body hs ms : List Nat) (half : Half) : Prop where
  text : ∃ r, body = hs ++ 58 :: (ms ++ r) ∧ half.Written r
  hour : ∀ c ∈ hs, D.is c = true
  minute : ∀ c ∈ ms, D.is c = true
  hsl : hs.length = 1 ∨ hs.length = 2
  msl : ms.length = 2

theorem half_letters (h : Half) : Letters h.word := by cases h <;> decide

theorem matchAmPm_written {h : Half} {r : List Nat} (hw : h.Written r) :
    ∃ g, matchAmPm r = some g ∧ lowerS g = h.word := by
  unfold matchAmPm
  have key : ∀ {ws ap w : List Nat}, w = wAm ∨ w = wPm → (∀ c ∈ ws, isSpace c = true) → ap.map asciiLower = w →
      ∃ g, (if ws ++ ap = [] then some [] else if icWord wAm ((ws ++ ap).dropWhile isSpace) ||
        icWord wPm ((ws ++ ap).dropWhile isSpace) then some ((ws ++ ap).dropWhile isSpace) else none) = some g ∧
        lowerS g = w := by
    intro ws ap w hw h1 h2
    have hl : Letters w := by rcases hw with rfl | rfl <;> decide
    have hne : ap ≠ [] := by rintro rfl; rcases hw with rfl | rfl <;> cases h2
    have hd : (ws ++ ap).dropWhile isSpace = ap := by
      apply (takeWhile_append_of h1 _).2
      right
      cases ap with
      | nil => exact absurd rfl hne
      | cons c r => exact ⟨c, r, rfl, letter_not_space rfl (hl _ (by rw [← h2]; simp))⟩
    rw [if_neg (by simp [hne]), hd, icWord_lower (w := wAm) (by decide) h2 hl, icWord_lower (w := wPm) (by decide) h2 hl,
      if_pos (by rcases hw with rfl | rfl <;> decide)]
    exact ⟨ap, rfl, lowerS_lower h2 hl⟩
  cases h with
  | none =>
    have : r = [] := hw
    subst this
    exact ⟨[], rfl, rfl⟩
  | am => obtain ⟨ws, ap, rfl, h1, h2⟩ := hw; exact key (Or.inl rfl) h1 h2
  | pm => obtain ⟨ws, ap, rfl, h1, h2⟩ := hw; exact key (Or.inr rfl) h1 h2

theorem digit_not_colon {c : Nat} (h : D.is c = true) : c ≠ 58 := by
  rintro rfl
  unfold Digits.is at h
  rw [D.ascii 58 (by omega)] at h
  simp at h

theorem matchTime_says {body hs ms : List Nat} {half : Half} (h : SaysTime D body hs ms half) :
    ∃ g, matchTime D body = some (hs, ms, g) ∧ lowerS g = half.word := by
  obtain ⟨⟨r, rfl, hw⟩, hh, hm, hhl, hml⟩ := h
  obtain ⟨g, hg1, hg2⟩ := matchAmPm_written hw
  refine ⟨g, ?_, hg2⟩
  match ms, hml, hm with
  | [m1, m2], _, hm =>
    have d1 := hm m1 (by simp)
    have d2 := hm m2 (by simp)
    rcases hhl with hhl | hhl
    · match hs, hhl, hh with
      | [a], _, hh =>
        have da := hh a (by simp)
        simp [matchTime, da, d1, d2, hg1]
    · match hs, hhl, hh with
      | [a, b], _, hh =>
        have da := hh a (by simp)
        have db := hh b (by simp)
        have hb := digit_not_colon D db
        unfold matchTime
        split
        · rename_i heq
          simp only [List.cons_append, List.cons.injEq] at heq
          exact absurd heq.2.1 hb
        · rename_i heq
          simp only [List.cons_append, List.nil_append, List.cons.injEq] at heq
          obtain ⟨rfl, rfl, -, rfl, rfl, rfl⟩ := heq
          simp [da, db, d1, d2, hg1]
        · rename_i h1 h2
          exact absurd rfl (h2 a b m1 m2 r)

theorem strip_time (hD : ∀ c, D.is c = true → isSpace c = false) {body text hs ms : List Nat} {half : Half}
    (h : SaysTime D body hs ms half) (hf : Framed body text) : strip text = body := by
  obtain ⟨⟨r, rfl, hw⟩, hh, hm, hhl, hml⟩ := h
  obtain ⟨a, b, rfl, ha, hb⟩ := hf
  have hsne : hs ≠ [] := by rintro rfl; simp at hhl
  have hmne : ms ≠ [] := by rintro rfl; simp at hml
  apply strip_framed ha hb
  · intro c hc
    cases hs with
    | nil => exact absurd rfl hsne
    | cons d hs => simp at hc; subst hc; exact hD d (hh d (by simp))
  · intro c hc
    rw [List.getLast?_append_of_ne_nil _ (by simp), List.getLast?_cons,
      List.getLast?_append] at hc
    simp only [Option.some.injEq] at hc
    have hlast : ∀ c, r.getLast? = some c → isSpace c = false := by
      intro c hc
      have key : ∀ {w : List Nat}, w = wAm ∨ w = wPm → (∃ ws ap, r = ws ++ ap ∧ (∀ c ∈ ws, isSpace c = true) ∧
          ap.map asciiLower = w) → isSpace c = false := by
        rintro w hw' ⟨ws, ap, rfl, h1, h2⟩
        have hl : Letters w := by rcases hw' with rfl | rfl <;> decide
        have hne : ap ≠ [] := by rintro rfl; rcases hw' with rfl | rfl <;> cases h2
        rw [List.getLast?_append_of_ne_nil _ hne] at hc
        exact letter_not_space rfl (hl _ (by rw [← h2]; exact List.mem_map_of_mem (List.mem_of_getLast? hc)))
      cases half with
      | none =>
        have : r = [] := hw
        subst this; cases hc
      | am => exact key (Or.inl rfl) hw
      | pm => exact key (Or.inr rfl) hw
    cases hr : r.getLast? with
    | some d =>
      rw [hr] at hc
      simp at hc
      subst hc
      exact hlast _ hr
    | none =>
      rw [hr] at hc
      cases hm2 : ms.getLast? with
      | none => exact absurd (List.getLast?_eq_none_iff.1 hm2) hmne
      | some d =>
        rw [hm2] at hc
        simp at hc
        subst hc
        exact hD _ (hm _ (List.mem_of_getLast? hm2))
  · simp

theorem attempt_nextAt {r next : Except PyErr Time} {lo tod : Int} {z : Tz} (h : NextAt r lo tod z) :
    attempt (some r) next = r := by
  obtain ⟨T, -, -, -, h1, h2⟩ := h
  by_cases hc : Representable T ∧ Representable (T - z.minutes * 60000000)
  · obtain ⟨y, e, -⟩ := h1 hc
    rw [e]; rfl
  · rw [h2 hc]; rfl

/-- The text reaches `_fromTime`. -/
theorem human_time_eq (hD : ∀ c, D.is c = true → isSpace c = false) {body text hs ms : List Nat} {half : Half}
    (h : SaysTime D body hs ms half) (hf : Framed body text) (tz : Option Tz) (now : Time) :
    ∃ g, lowerS g = half.word ∧
      fromHumanly D text tz now = attempt (some (fromTime D (hs, ms, g) (tz.getD utc) now)) (.error .valueError) := by
  obtain ⟨g, hg1, hg2⟩ := matchTime_says D h
  refine ⟨g, hg2, ?_⟩
  have hc : 58 ∈ body := by obtain ⟨r, rfl, -⟩ := h.text; simp
  unfold fromHumanly
  simp only
  rw [strip_time D hD h hf, matchWeekday_colon hc, hg1]
  rw [icWord_odd (w := wToday) (by decide) hc ic_colon, icWord_odd (w := wTomorrow) (by decide) hc ic_colon,
    icWord_odd (w := wYesterday) (by decide) hc ic_colon, icWord_odd (w := wNoon) (by decide) hc ic_colon,
    icWord_odd (w := wMidnight) (by decide) hc ic_colon, icWord_odd (w := wNow) (by decide) hc ic_colon]
  rfl

theorem truncMinute {t : DT} (ht : t.Valid) : ({ t with second := 0, us := 0 } : DT).Valid ∧
    ({ t with second := 0, us := 0 } : DT).toUs = t.toUs / 60000000 * 60000000 := by
  obtain ⟨h1, h2, h3, h4, h5, h6⟩ := ht
  refine ⟨⟨h1, h2, h3, h4, by simp, by simp⟩, ?_⟩
  have : ({ t with second := 0, us := 0 } : DT).ord = t.ord := rfl
  unfold DT.toUs
  simp only
  rw [this]
  push_cast
  omega

theorem truncHour {t : DT} (ht : t.Valid) : ({ t with minute := 0, second := 0, us := 0 } : DT).Valid ∧
    ({ t with minute := 0, second := 0, us := 0 } : DT).toUs = t.toUs / 3600000000 * 3600000000 := by
  obtain ⟨h1, h2, h3, h4, h5, h6⟩ := ht
  refine ⟨⟨h1, h2, h3, by simp, by simp, by simp⟩, ?_⟩
  have : ({ t with minute := 0, second := 0, us := 0 } : DT).ord = t.ord := rfl
  unfold DT.toUs
  simp only
  rw [this]
  push_cast
  omega

/-- **C20, partial**: `h:mm`, in 24 hours or with `am` or `pm`, yields the next instant at which the clock on the wall
shows that time, not earlier than the minute of `now`.  Missing: `12:mm pm`. -/
theorem human_time_partial (hD : ∀ c, D.is c = true → isSpace c = false) {now : Time} (hn : now.t.Valid)
    {tz : Option Tz} (hz : (tz.getD utc).Good) (hr : Representable (wall now (tz.getD utc)))
    {body text hs ms : List Nat} {half : Half} (h : SaysTime D body hs ms half) (hf : Framed body text) {H : Nat}
    (hH : hourMeant (D.int hs) half = some H) (hM : D.int ms < 60) (h12 : ¬ (half = .pm ∧ D.int hs = 12)) :
    NextAt (fromHumanly D text tz now) (wall now (tz.getD utc) / 60000000 * 60000000)
      ((H * 60 + D.int ms : Nat) * 60000000) (tz.getD utc) := by
  obtain ⟨g, hg, e⟩ := human_time_eq D hD h hf tz now
  obtain ⟨a, ha, hv, hu⟩ := (asDatetime_wall hn hz).1 hr
  have hho : hourOf (D.int hs) half.word = .ok (H : Int) ∧ H < 24 := by
    generalize D.int hs = k at *
    cases half with
    | none =>
      unfold hourMeant at hH
      simp only at hH
      split at hH <;> cases hH
      refine ⟨?_, by assumption⟩
      unfold hourOf Half.word
      simp only [ne_eq, not_true_eq_false, if_false]
      rw [if_neg (by omega)]
    | am =>
      unfold hourMeant at hH
      simp only at hH
      split at hH <;> cases hH
      refine ⟨?_, by omega⟩
      unfold hourOf Half.word
      rw [if_pos (by decide), if_neg (by omega)]
      simp only [and_true, show ¬ wAm = wPm by decide, if_false]
      by_cases h' : k = 12
      · subst h'; rfl
      · rw [if_neg (by omega), if_neg (by omega)]; congr 1; omega
    | pm =>
      unfold hourMeant at hH
      simp only at hH
      split at hH <;> cases hH
      have h' : k ≠ 12 := fun e => h12 ⟨rfl, e⟩
      refine ⟨?_, by omega⟩
      unfold hourOf Half.word
      rw [if_pos (by decide), if_neg (by omega)]
      simp only [show ¬ wPm = wAm by decide, and_false, if_false, if_true]
      rw [if_neg (by omega)]; congr 1; omega
  have key : NextAt (fromTime D (hs, ms, g) (tz.getD utc) now) (wall now (tz.getD utc) / 60000000 * 60000000)
      ((H * 60 + D.int ms : Nat) * 60000000) (tz.getD utc) := by
    unfold fromTime
    simp only
    rw [hg, hho.1]
    simp only
    rw [ha]
    simp only
    obtain ⟨t1, t2⟩ := truncMinute hv
    rw [← hu, ← t2]
    exact nextAt_spec t1 rfl rfl hz hho.2 hM
  rw [e, attempt_nextAt key]
  exact key

/-- `12:05 PM`, with spaces around it; `9:30` -/
example : SaysTime asciiDigits [49, 50, 58, 48, 53, 32, 80, 77] [49, 50] [48, 53] .pm ∧
    SaysTime asciiDigits [57, 58, 51, 48] [57] [51, 48] .none ∧ hourMeant 12 .pm = some 12 ∧ hourMeant 12 .am = some 0 ∧
    asciiDigits.int [51, 48] = 30 :=
  ⟨⟨⟨[32, 80, 77], rfl, [32], [80, 77], rfl, by decide, by decide⟩, by decide, by decide, by decide, by decide⟩,
    ⟨⟨[], rfl, rfl⟩, by decide, by decide, by decide, by decide⟩, rfl, rfl, by decide⟩

/-- C20 as stated is false: `12:mm pm` is refused, whatever `now` and the zone… -/
theorem human_time_fails (hD : ∀ c, D.is c = true → isSpace c = false) {body text hs ms : List Nat}
    (h : SaysTime D body hs ms .pm) (hf : Framed body text) (h12 : D.int hs = 12) (tz : Option Tz) (now : Time) :
    fromHumanly D text tz now = .error .valueError := by
  obtain ⟨g, hg, e⟩ := human_time_eq D hD h hf tz now
  rw [e]
  have : fromTime D (hs, ms, g) (tz.getD utc) now = .error .valueError := by
    unfold fromTime
    simp only
    rw [hg, h12]
    rfl
  rw [this]; rfl

/-- An hour that is out of range is refused. -/
theorem human_time_refused (hD : ∀ c, D.is c = true → isSpace c = false) {body text hs ms : List Nat} {half : Half}
    (h : SaysTime D body hs ms half) (hf : Framed body text) (hH : hourMeant (D.int hs) half = none) (tz : Option Tz)
    (now : Time) : fromHumanly D text tz now = .error .valueError := by
  obtain ⟨g, hg, e⟩ := human_time_eq D hD h hf tz now
  rw [e]
  have : fromTime D (hs, ms, g) (tz.getD utc) now = .error .valueError := by
    unfold fromTime
    simp only
    rw [hg]
    generalize D.int hs = k at *
    have : hourOf (k : Int) half.word = .error .valueError := by
      unfold hourOf
      cases half with
      | none =>
        unfold hourMeant at hH
        simp only at hH
        split at hH <;> cases hH
        rw [if_neg (by decide), if_pos (by omega)]
      | am =>
        unfold hourMeant at hH
        simp only at hH
        split at hH <;> cases hH
        rw [if_pos (by decide), if_pos (by omega)]
      | pm =>
        unfold hourMeant at hH
        simp only at hH
        split at hH <;> cases hH
        rw [if_pos (by decide), if_pos (by omega)]
    rw [this]
  rw [this]; rfl

/-- The words `noon` and `midnight` reach `_fromNoonOrMidnight`. -/
theorem human_noon_eq {body text v : List Nat} (hv : v = wNoon ∨ v = wMidnight) (hs : body.map asciiLower = v)
    (hf : Framed body text) (tz : Option Tz) (now : Time) :
    fromHumanly D text tz now = attempt (some (fromNoonOrMidnight body (tz.getD utc) now)) (.error .valueError) := by
  have hl : Letters v ∧ v ≠ [] ∧ v ∉ weekdays := by rcases hv with rfl | rfl <;> decide
  unfold fromHumanly
  simp only
  rw [strip_word hf hs hl.1 hl.2.1, matchWeekday_word hs hl.1 hl.2.2, matchTime_colon (word_colon hs hl.1)]
  rw [icWord_lower (w := wToday) (by decide) hs hl.1, icWord_lower (w := wTomorrow) (by decide) hs hl.1,
    icWord_lower (w := wYesterday) (by decide) hs hl.1, icWord_lower (w := wNoon) (by decide) hs hl.1,
    icWord_lower (w := wMidnight) (by decide) hs hl.1, icWord_lower (w := wNow) (by decide) hs hl.1]
  rcases hv with rfl | rfl <;> rfl

/-- `noon` and `midnight`: the next one, not earlier than the *hour* of `now`. -/
theorem human_noon {now : Time} (hn : now.t.Valid) {tz : Option Tz} (hz : (tz.getD utc).Good)
    (hr : Representable (wall now (tz.getD utc))) {body text v : List Nat} (hv : v = wNoon ∨ v = wMidnight)
    (hs : body.map asciiLower = v) (hf : Framed body text) :
    NextAt (fromHumanly D text tz now) (wall now (tz.getD utc) / 3600000000 * 3600000000)
      (if v = wNoon then 43200000000 else 0) (tz.getD utc) := by
  obtain ⟨a, ha, hva, hu⟩ := (asDatetime_wall hn hz).1 hr
  have hl : Letters v := by rcases hv with rfl | rfl <;> decide
  obtain ⟨t1, t2⟩ := truncHour hva
  have key : NextAt (fromNoonOrMidnight body (tz.getD utc) now) (wall now (tz.getD utc) / 3600000000 * 3600000000)
      (if v = wNoon then 43200000000 else 0) (tz.getD utc) := by
    unfold fromNoonOrMidnight
    rw [lowerS_lower hs hl, ha]
    simp only
    rw [← hu, ← t2]
    rcases hv with rfl | rfl
    · rw [if_pos rfl, if_pos rfl]
      exact nextAt_spec t1 rfl rfl hz (H := 12) (M := 0) (by omega) (by omega)
    · rw [if_neg (by decide), if_pos rfl, if_neg (by decide)]
      exact nextAt_spec t1 rfl rfl hz (H := 0) (M := 0) (by omega) (by omega)
  rw [human_noon_eq D hv hs hf, attempt_nextAt key]
  exact key

/-- **C20, partial**: `noon` and `midnight` yield the next one, not earlier than the minute of `now`, provided `now`
is not within the hour after it (but may be in its first minute). -/
theorem human_noon_partial {now : Time} (hn : now.t.Valid) {tz : Option Tz} (hz : (tz.getD utc).Good)
    (hr : Representable (wall now (tz.getD utc))) {body text v : List Nat} (hv : v = wNoon ∨ v = wMidnight)
    (hs : body.map asciiLower = v) (hf : Framed body text) {tod : Int}
    (ht : tod = if v = wNoon then 43200000000 else 0)
    (hnow : wall now (tz.getD utc) % dayUs < tod + 60000000 ∨ tod + 3600000000 ≤ wall now (tz.getD utc) % dayUs) :
    NextAt (fromHumanly D text tz now) (wall now (tz.getD utc) / 60000000 * 60000000) tod (tz.getD utc) := by
  obtain ⟨T, h1, h2, h3, h4⟩ := human_noon D hn hz hr hv hs hf
  rw [← ht] at h3
  have htod : tod = 43200000000 ∨ tod = 0 := by subst ht; split <;> simp
  generalize wall now (tz.getD utc) = W at *
  refine ⟨T, ?_, ?_, h3, h4⟩
  · unfold dayUs at *; omega
  · unfold dayUs at *; omega

/-- …and `noon` said at half past twelve is half an hour ago. -/
theorem human_noon_fails : ∃ now y : Time, now.t.Valid ∧ now.res = 1 ∧ fromHumanly asciiDigits wNoon none now = .ok y ∧
    y.start = now.start - 30 * 60000000 :=
  ⟨⟨⟨2004, 2, 29, 12, 30, 0, 0⟩, 1⟩, ⟨⟨2004, 2, 29, 12, 0, 0, 0⟩, 60000000⟩, by decide, rfl, by decide, by decide⟩

/-- `now` is the instant itself. -/
theorem human_now {now : Time} (hn : now.t.Valid) (tz : Option Tz) {body text : List Nat}
    (hs : body.map asciiLower = wNow) (hf : Framed body text) :
    ∃ y, fromHumanly D text tz now = .ok y ∧ y.t.Valid ∧ y.start = now.start ∧ y.res = 1 := by
  have hl : Letters wNow ∧ wNow ≠ [] ∧ wNow ∉ weekdays := by decide
  have hst := start_representable hn
  obtain ⟨y, hy⟩ := (add_total now 0).1 (by rw [Int.add_zero]; exact hst)
  obtain ⟨h1, h2, h3⟩ := add_spec.1 hy
  refine ⟨y, ?_, h1, by omega, h3⟩
  unfold fromHumanly
  simp only
  rw [strip_word hf hs hl.1 hl.2.1, matchWeekday_word hs hl.1 hl.2.2, matchTime_colon (word_colon hs hl.1)]
  rw [icWord_lower (w := wToday) (by decide) hs hl.1, icWord_lower (w := wTomorrow) (by decide) hs hl.1,
    icWord_lower (w := wYesterday) (by decide) hs hl.1, icWord_lower (w := wNoon) (by decide) hs hl.1,
    icWord_lower (w := wMidnight) (by decide) hs hl.1, icWord_lower (w := wNow) (by decide) hs hl.1, hy]
  rfl

/-- Nothing else is accepted: what `fromHumanly` takes is, ignoring case, one of these forms. -/
theorem human_accepts {text : List Nat} {tz : Option Tz} {now y : Time} (h : fromHumanly D text tz now = .ok y) :
    (∃ w ∈ weekdays ++ [wToday, wTomorrow, wYesterday, wNoon, wMidnight, wNow], icWord w (strip text) = true) ∨
    (∃ p ws b, strip text = p ++ ws ++ b ∧ (icWord wNext p = true ∨ icWord wThis p = true) ∧ ws ≠ [] ∧
      (∀ c ∈ ws, isSpace c = true) ∧ ∃ w ∈ weekdays, icWord w b = true) ∨
    (∃ g, matchTime D (strip text) = some g) := by
  unfold fromHumanly at h
  simp only at h
  generalize strip text = s at *
  by_cases h1 : matchWeekday s = none
  · rw [h1] at h
    simp only [Option.map_none, attempt] at h
    by_cases h2 : (icWord wToday s || icWord wTomorrow s || icWord wYesterday s) = true
    · left
      simp only [Bool.or_eq_true] at h2
      rcases h2 with (h2 | h2) | h2
      · exact ⟨_, by simp, h2⟩
      · exact ⟨wTomorrow, by simp, h2⟩
      · exact ⟨wYesterday, by simp, h2⟩
    · simp only [if_neg h2] at h
      by_cases h3 : matchTime D s = none
      · simp only [h3, Option.map_none] at h
        by_cases h4 : (icWord wNoon s || icWord wMidnight s) = true
        · left
          simp only [Bool.or_eq_true] at h4
          rcases h4 with h4 | h4
          · exact ⟨wNoon, by simp, h4⟩
          · exact ⟨wMidnight, by simp, h4⟩
        · simp only [if_neg h4] at h
          by_cases h5 : icWord wNow s = true
          · exact Or.inl ⟨wNow, by simp, h5⟩
          · simp only [if_neg h5] at h
            cases h
      · exact Or.inr (Or.inr (Option.ne_none_iff_exists'.1 h3))
  · obtain ⟨g, hg⟩ := Option.ne_none_iff_exists'.1 h1
    unfold matchWeekday at hg
    split at hg
    · rename_i ha
      obtain ⟨w, hw, e⟩ := List.any_eq_true.1 ha
      exact Or.inl ⟨w, by simp [hw], e⟩
    · split at hg
      · rename_i hp
        dsimp only at hg
        split at hg
        · rename_i hq
          simp only [Bool.and_eq_true, decide_eq_true_eq, Bool.or_eq_true] at hq hp
          obtain ⟨w, hw, e⟩ := List.any_eq_true.1 hq.2
          refine Or.inr (Or.inl ⟨s.take 4, (s.drop 4).takeWhile isSpace, (s.drop 4).dropWhile isSpace, ?_, hp,
            List.length_pos_iff.1 hq.1, ?_, w, hw, e⟩)
          · rw [List.append_assoc, List.takeWhile_append_dropWhile, List.take_append_drop]
          · have := List.all_takeWhile (p := isSpace) (l := s.drop 4)
            rw [List.all_eq_true] at this
            exact this
        · cases hg
      · cases hg

/-- `yeſterday` matches the pattern, but its lower-case form is not `yesterday`. -/
example : ∀ now : Time, now.t.Valid →
    fromHumanly asciiDigits [121, 101, 0x17f, 116, 101, 114, 100, 97, 121] none now = .error .assertionError := by
  intro now hn
  have e1 : matchWeekday (strip [121, 101, 0x17f, 116, 101, 114, 100, 97, 121]) = none := by decide
  have e2 : strip [121, 101, 0x17f, 116, 101, 114, 100, 97, 121] = [121, 101, 0x17f, 116, 101, 114, 100, 97, 121] := by decide
  unfold fromHumanly
  simp only
  rw [e1, e2]
  unfold fromTodayOrTomorrow
  rw [asDatetime_utc hn]
  rfl

end Verif.Extime
