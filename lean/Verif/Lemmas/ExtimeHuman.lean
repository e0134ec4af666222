import Verif.Model.ExtimeHuman
import Verif.Props.ExtimeIso
/-! Lemmas about `fromHumanly`: matching words, and the arithmetic of days and times of day. -/
namespace Verif.Extime
open Verif.Py

/-- A word in lower-case ASCII letters. -/
def Letters (w : List Nat) : Prop := ∀ p ∈ w, 97 ≤ p ∧ p ≤ 122

instance (w : List Nat) : Decidable (Letters w) := by unfold Letters; infer_instance

theorem asciiLower_letter {c q : Nat} (h : asciiLower c = q) (hq : 97 ≤ q ∧ q ≤ 122) : c = q ∨ c + 32 = q := by
  unfold asciiLower at h
  split at h <;> omega

theorem ic_lower {p c q : Nat} (hp : 97 ≤ p ∧ p ≤ 122) (h : asciiLower c = q) (hq : 97 ≤ q ∧ q ≤ 122) :
    ic p c = (p == q) := by
  have := asciiLower_letter h hq
  unfold asciiLower at h
  rw [Bool.eq_iff_iff]
  unfold ic
  simp only [Bool.or_eq_true, Bool.and_eq_true, beq_iff_eq]
  split at h <;> omega

/-- Ignoring case, a string that is `v` in lower case matches `v` and no other word. -/
theorem icWord_lower {w s v : List Nat} (hw : Letters w) (h : s.map asciiLower = v) (hv : Letters v) :
    icWord w s = (w == v) := by
  subst h
  induction w generalizing s with
  | nil => cases s <;> rfl
  | cons p w ih =>
    cases s with
    | nil => rfl
    | cons c s =>
      rw [icWord, ic_lower (hw p (by simp)) rfl (hv _ (by simp)),
        ih (fun x hx => hw x (List.mem_cons_of_mem _ hx)) (fun x hx => hv x (List.mem_cons_of_mem _ hx))]
      rfl

theorem lowerS_lower {s v : List Nat} (h : s.map asciiLower = v) (hv : Letters v) : lowerS s = v := by
  subst h
  induction s with
  | nil => rfl
  | cons c s ih =>
    have hc := asciiLower_letter (c := c) rfl (hv _ (by simp))
    have h1 := hv (asciiLower c) (by simp)
    unfold lowerS at *
    rw [List.flatMap_cons, ih (fun x hx => hv x (List.mem_cons_of_mem _ hx))]
    unfold lowerC
    rw [if_neg (by omega), if_neg (by omega)]
    rfl

theorem icWord_length {w s : List Nat} (h : icWord w s = true) : w.length = s.length := by
  induction w generalizing s with
  | nil => cases s with
    | nil => rfl
    | cons => simp [icWord] at h
  | cons p w ih => cases s with
    | nil => simp [icWord] at h
    | cons c s =>
      simp only [icWord, Bool.and_eq_true] at h
      rw [List.length_cons, List.length_cons, ih h.2]

/-- Characters no letter matches: digits, punctuation and whitespace. -/
theorem icWord_odd {w s : List Nat} (hw : Letters w) {c : Nat} (hc : c ∈ s)
    (h : ∀ p, 97 ≤ p ∧ p ≤ 122 → ic p c = false) : icWord w s = false := by
  induction w generalizing s with
  | nil => cases s with
    | nil => cases hc
    | cons => rfl
  | cons p w ih => cases s with
    | nil => cases hc
    | cons d s =>
      rw [icWord]
      rcases List.mem_cons.1 hc with rfl | hc
      · rw [h p (hw p (by simp))]; rfl
      · rw [ih (fun x hx => hw x (List.mem_cons_of_mem _ hx)) hc, Bool.and_false]

theorem ic_colon (p : Nat) (hp : 97 ≤ p ∧ p ≤ 122) : ic p 58 = false := by
  rw [Bool.eq_false_iff]
  unfold ic
  simp only [ne_eq, Bool.or_eq_true, Bool.and_eq_true, beq_iff_eq]
  omega

theorem ic_space {c : Nat} (hc : isSpace c = true) (p : Nat) (hp : 97 ≤ p ∧ p ≤ 122) : ic p c = false := by
  rw [Bool.eq_false_iff]
  unfold isSpace at hc
  unfold ic
  simp only [ne_eq, Bool.or_eq_true, Bool.and_eq_true, beq_iff_eq, decide_eq_true_eq] at hc ⊢
  omega

theorem weekdays_letters : ∀ w ∈ weekdays, Letters w := by decide

theorem letter_not_space {c q : Nat} (h : asciiLower c = q) (hq : 97 ≤ q ∧ q ≤ 122) : isSpace c = false := by
  have := asciiLower_letter h hq
  rw [Bool.eq_false_iff]
  unfold isSpace
  simp only [ne_eq, Bool.or_eq_true, Bool.and_eq_true, beq_iff_eq, decide_eq_true_eq]
  omega

theorem weekdays_any {s : List Nat} {v : List Nat} (h : s.map asciiLower = v) (hv : Letters v) :
    weekdays.any (icWord · s) = decide (v ∈ weekdays) := by
  rw [Bool.eq_iff_iff, List.any_eq_true]
  simp only [decide_eq_true_eq]
  constructor
  · rintro ⟨w, hw, e⟩
    rw [icWord_lower (weekdays_letters w hw) h hv, beq_iff_eq] at e
    exact e ▸ hw
  · intro hm
    exact ⟨v, hm, by rw [icWord_lower hv h hv]; simp⟩

theorem weekdays_odd {s : List Nat} {c : Nat} (hc : c ∈ s) (h : ∀ p, 97 ≤ p ∧ p ≤ 122 → ic p c = false) :
    weekdays.any (icWord · s) = false := by
  rw [Bool.eq_false_iff]
  intro ha
  obtain ⟨w, hw, e⟩ := List.any_eq_true.1 ha
  rw [icWord_odd (weekdays_letters w hw) hc h] at e
  cases e

theorem takeWhile_append_of {p : Nat → Bool} {a b : List Nat} (ha : ∀ c ∈ a, p c = true)
    (hb : b = [] ∨ ∃ c r, b = c :: r ∧ p c = false) :
    (a ++ b).takeWhile p = a ∧ (a ++ b).dropWhile p = b := by
  induction a with
  | nil =>
    rcases hb with rfl | ⟨c, r, rfl, h⟩
    · exact ⟨rfl, rfl⟩
    · simp [h]
  | cons c a ih =>
    have := ih (fun x hx => ha x (List.mem_cons_of_mem _ hx))
    have hc := ha c (by simp)
    simp [hc, this.1, this.2]

/-- `s` is the day name `v`, perhaps after `next` or `this`, in any case. -/
def SaysDay (s v : List Nat) : Prop :=
  s.map asciiLower = v ∨ ∃ p ws b, s = p ++ ws ++ b ∧ (p.map asciiLower = wNext ∨ p.map asciiLower = wThis) ∧
    ws ≠ [] ∧ (∀ c ∈ ws, isSpace c = true) ∧ b.map asciiLower = v

theorem matchWeekday_says {s v : List Nat} (hv : v ∈ weekdays) (h : SaysDay s v) :
    ∃ g, matchWeekday s = some g ∧ lowerS g = v := by
  have hl := weekdays_letters v hv
  rcases h with h | ⟨p, ws, b, rfl, hp, hne, hws, hb⟩
  · refine ⟨s, ?_, lowerS_lower h hl⟩
    unfold matchWeekday
    rw [weekdays_any h hl, if_pos (by simpa using hv)]
  · refine ⟨b, ?_, lowerS_lower hb hl⟩
    have hp4 : p.length = 4 := by
      rcases hp with hp | hp <;> simpa [wNext, wThis] using congrArg List.length hp
    have hbne : ∃ c r, b = c :: r ∧ isSpace c = false := by
      cases b with
      | nil =>
        have : v = [] := hb.symm
        subst this
        exact absurd hv (by decide)
      | cons c r => exact ⟨c, r, rfl, letter_not_space rfl (hl _ (by rw [← hb]; simp))⟩
    obtain ⟨w0, hw0⟩ := List.exists_mem_of_ne_nil _ hne
    unfold matchWeekday
    rw [weekdays_odd (c := w0) (by simp [hw0]) (ic_space (hws w0 hw0))]
    simp only [Bool.false_eq_true, if_false]
    have ht : (p ++ ws ++ b).take 4 = p := by rw [List.append_assoc, ← hp4, List.take_left']; rfl
    have hdr : (p ++ ws ++ b).drop 4 = ws ++ b := by rw [List.append_assoc, ← hp4, List.drop_left']; rfl
    rw [ht, hdr]
    have hm : (icWord wNext p || icWord wThis p) = true := by
      rcases hp with hp | hp
      · rw [icWord_lower (by decide) hp (by decide)]; rfl
      · rw [icWord_lower (w := wThis) (by decide) hp (by decide)]; simp
    obtain ⟨e1, e2⟩ := takeWhile_append_of hws (Or.inr hbne)
    rw [if_pos hm, e1, e2, weekdays_any hb hl, if_pos]
    have : 0 < ws.length := List.length_pos_iff.2 hne
    simp [hv, this]

theorem matchWeekday_colon {s : List Nat} (h : 58 ∈ s) : matchWeekday s = none := by
  unfold matchWeekday
  rw [weekdays_odd h ic_colon]
  simp only [Bool.false_eq_true, if_false]
  split
  · rename_i hm
    have h4 : 58 ∉ s.take 4 := by
      intro hc
      rw [icWord_odd (by decide) hc ic_colon, icWord_odd (by decide) hc ic_colon] at hm
      cases hm
    have hd : 58 ∈ s.drop 4 := by
      rw [← List.take_append_drop 4 s] at h
      rcases List.mem_append.1 h with h | h
      · exact absurd h h4
      · exact h
    have hdw : 58 ∈ (s.drop 4).dropWhile isSpace := by
      rw [← List.takeWhile_append_dropWhile (p := isSpace) (l := s.drop 4)] at hd
      rcases List.mem_append.1 hd with h | h
      · have := List.all_takeWhile (p := isSpace) (l := s.drop 4)
        rw [List.all_eq_true] at this
        exact absurd (this _ h) (by decide)
      · exact h
    rw [weekdays_odd hdw ic_colon]
    simp
  · rfl

theorem matchWeekday_word {s v : List Nat} (h : s.map asciiLower = v) (hv : Letters v) (hn : v ∉ weekdays) :
    matchWeekday s = none := by
  unfold matchWeekday
  rw [weekdays_any h hv, if_neg (by simpa using hn)]
  split
  · have : (s.drop 4).takeWhile isSpace = [] := by
      cases hs : s.drop 4 with
      | nil => rfl
      | cons c r =>
        have hc : c ∈ s := List.mem_of_mem_drop (by rw [hs]; simp)
        have : isSpace c = false := letter_not_space rfl (hv _ (by rw [← h]; exact List.mem_map_of_mem hc))
        simp [this]
    simp [this]
  · rfl

theorem matchTime_colon {D : Digits} {s : List Nat} (h : 58 ∉ s) : matchTime D s = none := by
  unfold matchTime
  split
  · exact absurd (by simp) h
  · exact absurd (by simp) h
  · rfl

theorem word_colon {s v : List Nat} (h : s.map asciiLower = v) (hv : Letters v) : 58 ∉ s := by
  intro hm
  have := hv (asciiLower 58) (by rw [← h]; exact List.mem_map_of_mem hm)
  exact absurd this (by decide)

/-- Surrounding whitespace is dropped. -/
theorem strip_framed {a b body : List Nat} (ha : ∀ c ∈ a, isSpace c = true) (hb : ∀ c ∈ b, isSpace c = true)
    (h1 : ∀ c, body.head? = some c → isSpace c = false) (h2 : ∀ c, body.getLast? = some c → isSpace c = false)
    (hne : body ≠ []) : strip (a ++ body ++ b) = body := by
  unfold strip
  have e1 : (a ++ body ++ b).dropWhile isSpace = body ++ b := by
    rw [List.append_assoc]
    apply (takeWhile_append_of ha _).2
    right
    cases body with
    | nil => exact absurd rfl hne
    | cons c r => exact ⟨c, r ++ b, rfl, h1 c rfl⟩
  have e2 : (body ++ b).reverse.dropWhile isSpace = body.reverse := by
    rw [List.reverse_append]
    apply (takeWhile_append_of (fun c hc => hb c (List.mem_reverse.1 hc)) _).2
    right
    cases hr : body.reverse with
    | nil => exact absurd (List.reverse_eq_nil_iff.1 hr) hne
    | cons c r =>
      refine ⟨c, r, rfl, h2 c ?_⟩
      rw [List.getLast?_eq_head?_reverse, hr]; rfl
  rw [e1, e2, List.reverse_reverse]

theorem fromDatetime_utc {t : DT} (ht : t.Valid) {tz : Option Tz} (h : tz = some utc) :
    fromDatetime ⟨t, tz⟩ = .ok ⟨t, 1⟩ := by
  subst h
  unfold fromDatetime
  simp only [astimezone_utc ht]
  rfl

theorem asDatetime_utc {x : Time} (hx : x.t.Valid) : asDatetime x none = .ok ⟨x.t, some utc⟩ := by
  unfold asDatetime
  simp only [Option.getD_none, astimezone_utc hx]
  split <;> rfl

/-- Midnight of a day. -/
theorem midnight_toUs {t : DT} (ht : t.Valid) :
    ({ t with hour := 0, minute := 0, second := 0, us := 0 } : DT).Valid ∧
    ({ t with hour := 0, minute := 0, second := 0, us := 0 } : DT).toUs = t.toUs / dayUs * dayUs ∧
    ({ t with hour := 0, minute := 0, second := 0, us := 0 } : DT).weekday = t.weekday ∧
    (t.weekday : Int) = t.toUs / dayUs % 7 ∧ t.weekday < 7 := by
  have hord : (1 : Int) ≤ t.ord := by
    unfold DT.ord ymd2ord
    have := ht.1.2.2.2.1
    omega
  obtain ⟨h1, h2, h3, h4, h5, h6⟩ := ht
  refine ⟨⟨h1, h2, by simp, by simp, by simp, by simp⟩, ?_, rfl, ?_, Nat.mod_lt _ (by omega)⟩
  · unfold DT.toUs DT.ord dayUs; simp only; unfold DT.ord at hord; push_cast; omega
  · have e : t.toUs / dayUs = t.ord - 1 := by unfold DT.toUs dayUs; omega
    rw [e]
    unfold DT.weekday
    omega

end Verif.Extime
