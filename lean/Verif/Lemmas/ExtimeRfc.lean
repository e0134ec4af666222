import Verif.Model.ExtimeRfc
import Verif.Lemmas.ExtimeIsoPrint
import Verif.Lemmas.Str
/-!
# RFC 2822 dates: a specification of the text, and how it is parsed
-/
namespace Verif.Extime
open Verif.Py

/-- Tokens separated by runs of whitespace; there may be whitespace before and after. -/
inductive Spaced : List (List Nat) → List Nat → Prop
  | nil {w : List Nat} : (∀ c ∈ w, isAsciiSpace c = true) → Spaced [] w
  | cons {w tok s : List Nat} {toks : List (List Nat)} : (∀ c ∈ w, isAsciiSpace c = true) → tok ≠ [] →
      (∀ c ∈ tok, isAsciiSpace c = false) → (s = [] ∨ ∃ c r, s = c :: r ∧ isAsciiSpace c = true) → Spaced toks s →
      Spaced (tok :: toks) (w ++ tok ++ s)

theorem splitWs_tok {tok : List Nat} (h : ∀ c ∈ tok, isAsciiSpace c = false) (cur s : List Nat) :
    splitWs cur (tok ++ s) = splitWs (cur ++ tok) s := by
  induction tok generalizing cur with
  | nil => simp
  | cons c tok ih =>
    rw [List.cons_append, splitWs, h c (by simp)]
    simp only [Bool.false_eq_true, if_false]
    rw [ih (fun x hx => h x (List.mem_cons_of_mem _ hx))]
    simp

theorem splitWs_ws {w : List Nat} (h : ∀ c ∈ w, isAsciiSpace c = true) (s : List Nat) :
    splitWs [] (w ++ s) = splitWs [] s := by
  induction w with
  | nil => rfl
  | cons c w ih =>
    rw [List.cons_append, splitWs, h c (by simp)]
    simp only [if_true]
    exact ih (fun x hx => h x (List.mem_cons_of_mem _ hx))

theorem splitWs_spaced {toks : List (List Nat)} {s : List Nat} (h : Spaced toks s) : splitWs [] s = toks := by
  induction h with
  | nil hw =>
    have := splitWs_ws hw []
    rw [List.append_nil] at this
    rw [this]; rfl
  | @cons w tok s toks hw hne ht hs _ ih =>
    rw [List.append_assoc, splitWs_ws hw, splitWs_tok ht, List.nil_append]
    rcases hs with rfl | ⟨c, r, rfl, hc⟩
    · rw [splitWs] at ih ⊢
      rw [if_neg hne]
      simp at ih
      rw [← ih]
    · rw [splitWs, hc] at ih ⊢
      simp only [if_true, if_neg hne] at ih ⊢
      rw [ih]

/-- The written form of a date: numerals, names, and a zone in hours and minutes. -/
structure RfcText where
  dayName : Option (List Nat)
  dd : List Nat
  mon : List Nat
  yy : List Nat
  hh : List Nat
  mi : List Nat
  ss : Option (List Nat)
  neg : Bool
  zh : List Nat
  zm : List Nat

/-- A non-empty numeral in ASCII digits. -/
def Numeral (s : List Nat) : Prop := s ≠ [] ∧ ∀ c ∈ s, isDigit c = true

def RfcText.clock (r : RfcText) : List (List Nat) :=
  match r.ss with
  | none => [r.hh, r.mi]
  | some ss => [r.hh, r.mi, ss]

/-- The tokens: `Mon,` (perhaps), `2`, `Jan`, `2006`, `15:04:05`, `-0700`. -/
def RfcText.tokens (r : RfcText) : List (List Nat) :=
  (match r.dayName with | none => [] | some n => [n ++ [44]]) ++
  [r.dd, r.mon, r.yy, joinSep [58] r.clock, (if r.neg then 45 else 43) :: (r.zh ++ r.zm)]

structure RfcText.OK (r : RfcText) : Prop where
  dd : Numeral r.dd
  mon : ∃ n ∈ monthNames, r.mon.map asciiLower = n
  yy : Numeral r.yy
  hh : Numeral r.hh
  mi : Numeral r.mi
  ss : ∀ s, r.ss = some s → Numeral s
  zh : ∀ c ∈ r.zh, isDigit c = true
  zm : ∀ c ∈ r.zm, isDigit c = true
  zml : r.zm.length = 2

/-- The zone, in minutes east. -/
def RfcText.minutes (r : RfcText) : Int :=
  let m : Int := digitsVal r.zh * 60 + digitsVal r.zm
  if r.neg then -m else m

/-- The number of the month, from 1: names 12 to 23 are the long forms of 0 to 11. -/
def RfcText.month (r : RfcText) : Nat := monthNames.idxOf (r.mon.map asciiLower) % 12 + 1

def RfcText.second (r : RfcText) : Nat := digitsVal (r.ss.getD [48])

theorem strFind_absent {s : List Nat} {c : Nat} (h : c ∉ s) : strFind s [c] none none = -1 := by
  unfold strFind adjustIndices
  simp only
  generalize candidates _ _ _ = k
  generalize Int.toNat _ = i
  induction k generalizing i with
  | zero => rfl
  | succ k ih =>
    rw [scanUp]
    have : matchAt s [c] i = false := by
      cases hm : matchAt s [c] i with
      | false => rfl
      | true =>
        exfalso
        unfold matchAt at hm
        simp only [beq_iff_eq, List.length_cons, List.length_nil] at hm
        apply h
        have : c ∈ (s.drop i).take (0 + 1) := by rw [hm]; simp
        exact List.mem_of_mem_drop (List.mem_of_mem_take this)
    rw [this]
    simp only [Bool.false_eq_true, if_false]
    exact ih _

theorem numeral_notin {s : List Nat} (h : ∀ c ∈ s, isDigit c = true) {c : Nat} (hc : isDigit c = false) : c ∉ s := by
  intro hm; rw [h c hm] at hc; cases hc

theorem dropComma_numeral {s : List Nat} (h : 44 ∉ s) : dropComma s = s := by
  unfold dropComma
  rw [if_neg]
  intro e
  exact h (List.mem_of_getLast? e)

theorem intDigits_numeral {s : List Nat} (h : Numeral s) : intDigits false 0 s = some (digitsVal s) := by
  rw [intDigits_digits s h.2 false 0 (Or.inr h.1)]; rfl

theorem asciiInt_numeral {s : List Nat} (h : Numeral s) : asciiInt s = some (digitsVal s : Int) := by
  unfold asciiInt
  rw [cStrip_of_no_space _ (fun c hc => isDigit_not_cspace (h.2 c hc))]
  have hk := intDigits_numeral h
  obtain ⟨hne, hd⟩ := h
  cases s with
  | nil => exact absurd rfl hne
  | cons c r =>
    have hc := hd c (by simp)
    split
    · rename_i heq; cases heq; exact absurd hc (by decide)
    · rename_i heq; cases heq; exact absurd hc (by decide)
    · rw [hk]; rfl

theorem asciiInt_signed {s : List Nat} (neg : Bool) (h : Numeral s) :
    asciiInt ((if neg then 45 else 43) :: s) = some (if neg then -(digitsVal s : Int) else digitsVal s) := by
  unfold asciiInt
  rw [cStrip_of_no_space]
  · cases neg
    · simp only [Bool.false_eq_true, if_false]
      rw [intDigits_numeral h]; rfl
    · simp only [if_true]
      rw [intDigits_numeral h]; rfl
  · intro c hc
    rcases List.mem_cons.1 hc with rfl | hc
    · cases neg <;> decide
    · exact isDigit_not_cspace (h.2 c hc)

theorem map_upper_numeral {s : List Nat} (h : ∀ c ∈ s, isDigit c = true) : s.map asciiUpper = s := by
  conv => rhs; rw [← List.map_id s]
  apply List.map_congr_left
  intro c hc
  have := h c hc
  unfold isDigit at this
  simp at this
  unfold asciiUpper
  rw [if_neg (by omega)]; rfl

theorem map_lower_numeral {s : List Nat} (h : ∀ c ∈ s, isDigit c = true) : s.map asciiLower = s := by
  conv => rhs; rw [← List.map_id s]
  apply List.map_congr_left
  intro c hc
  have := h c hc
  unfold isDigit at this
  simp at this
  unfold asciiLower
  rw [if_neg (by omega)]; rfl

theorem takeWhile_all {p : Nat → Bool} {s : List Nat} (h : ∀ c ∈ s, p c = true) : s.takeWhile p = s := by
  induction s with
  | nil => rfl
  | cons c s ih => rw [List.takeWhile_cons, h c (by simp), if_pos rfl, ih (fun x hx => h x (List.mem_cons_of_mem _ hx))]

theorem infix_single {c : Nat} {s : List Nat} (h : c ∉ s) : ¬ [c] <:+: s := by
  intro hi
  exact h (hi.subset (by simp))

theorem digitsVal_append (s t : List Nat) : digitsVal (s ++ t) = digitsVal s * 10 ^ t.length + digitsVal t := by
  unfold digitsVal
  rw [List.map_append, ofDigits_append, List.length_map]

theorem digitsVal_lt {s : List Nat} (h : ∀ c ∈ s, isDigit c = true) : digitsVal s < 10 ^ s.length := by
  induction s using List.reverseRecOn with
  | nil => decide
  | append_singleton s c ih =>
    have hc := h c (by simp)
    have := ih (fun x hx => h x (List.mem_append_left _ hx))
    rw [digitsVal_append]
    have h1 : digitsVal [c] = c - 48 := by unfold digitsVal ofDigits; simp
    unfold isDigit at hc
    simp at hc
    rw [h1, List.length_append, List.length_singleton, pow_succ]
    omega

theorem splitTime_clock {r : RfcText} (h : r.OK) :
    splitTime (dropComma (joinSep [58] r.clock)) = some (r.hh, r.mi, r.ss.getD [48]) := by
  have hn : ∀ p ∈ r.clock, ∀ c ∈ p, isDigit c = true := by
    intro p hp
    unfold RfcText.clock at hp
    cases hs : r.ss with
    | none =>
      rw [hs] at hp
      simp only [List.mem_cons, List.not_mem_nil, or_false] at hp
      rcases hp with rfl | rfl
      exacts [h.hh.2, h.mi.2]
    | some s =>
      rw [hs] at hp
      simp only [List.mem_cons, List.not_mem_nil, or_false] at hp
      rcases hp with rfl | rfl | rfl
      exacts [h.hh.2, h.mi.2, (h.ss _ hs).2]
  have hj := splitSep_joinSep [58] (by simp) (by decide) r.clock
    (by unfold RfcText.clock; cases r.ss <;> simp)
    (fun p hp => infix_single (numeral_notin (hn p hp) (by decide)))
  have hcomma : 44 ∉ joinSep [58] r.clock := by
    unfold RfcText.clock at hn ⊢
    cases hs : r.ss with
    | none =>
      rw [hs] at hn
      simp only [joinSep, List.mem_append, not_or]
      exact ⟨⟨numeral_notin (hn _ (by simp)) (by decide), by decide⟩, numeral_notin (hn _ (by simp)) (by decide)⟩
    | some s =>
      rw [hs] at hn
      simp only [joinSep, List.mem_append, not_or]
      exact ⟨⟨numeral_notin (hn _ (by simp)) (by decide), by decide⟩,
        ⟨numeral_notin (hn _ (by simp)) (by decide), by decide⟩, numeral_notin (hn _ (by simp)) (by decide)⟩
  rw [dropComma_numeral hcomma]
  unfold splitTime
  rw [hj]
  unfold RfcText.clock
  cases r.ss <;> rfl

theorem zoneSeconds_zone {r : RfcText} (h : r.OK) :
    zoneSeconds ((if r.neg then 45 else 43) :: (r.zh ++ r.zm)) = r.minutes * 60 := by
  have hd : ∀ c ∈ r.zh ++ r.zm, isDigit c = true := by
    intro c hc
    rcases List.mem_append.1 hc with hc | hc
    exacts [h.zh c hc, h.zm c hc]
  have hne : r.zh ++ r.zm ≠ [] := by
    intro e
    have := congrArg List.length e
    simp [h.zml] at this
  have hup : ((if r.neg then 45 else 43) :: (r.zh ++ r.zm)).map asciiUpper =
      (if r.neg then 45 else 43) :: (r.zh ++ r.zm) := by
    rw [List.map_cons, map_upper_numeral hd]
    cases r.neg <;> rfl
  have hf : zoneNames.find? (fun p => p.1 == (if r.neg then 45 else 43) :: (r.zh ++ r.zm)) = none := by
    rw [List.find?_eq_none]
    intro p hp
    have : ∀ p ∈ zoneNames, p.1.head? ≠ some 45 ∧ p.1.head? ≠ some 43 := by decide
    have := this p hp
    intro e
    rw [beq_iff_eq] at e
    rw [e] at this
    cases hr : r.neg <;> simp [hr] at this
  have hz : zoneNumber ((if r.neg then 45 else 43) :: (r.zh ++ r.zm)) =
      if r.neg then -(digitsVal (r.zh ++ r.zm) : Int) else digitsVal (r.zh ++ r.zm) := by
    unfold zoneNumber
    rw [hup, hf]
    simp only
    rw [asciiInt_signed _ ⟨hne, hd⟩]; rfl
  have hv := digitsVal_append r.zh r.zm
  have hlt := digitsVal_lt h.zm
  rw [h.zml] at hv hlt
  unfold zoneSeconds RfcText.minutes
  simp only
  rw [hz, hv]
  cases r.neg
  · simp only [Bool.false_eq_true, if_false]
    rw [if_neg (by omega)]
    push_cast; omega
  · simp only [if_true]
    push_cast
    split <;> omega

theorem month_number {n : List Nat} (h : n ∈ monthNames) :
    (if monthNames.idxOf n + 1 > 12 then monthNames.idxOf n + 1 - 12 else monthNames.idxOf n + 1) =
      monthNames.idxOf n % 12 + 1 := by
  have := List.idxOf_lt_length_of_mem h
  have hl : monthNames.length = 24 := rfl
  split <;> omega

/-- Whatever is written for the zone. -/
theorem parseParts_zone {r : RfcText} (h : r.OK) (z : List Nat) :
    parseParts r.dd r.mon r.yy (joinSep [58] r.clock) z =
      some [fullYear (digitsVal r.yy), r.month, digitsVal r.dd, digitsVal r.hh, digitsVal r.mi, r.second, 0, 1, -1,
        zoneSeconds z] := by
  obtain ⟨n, hn, hm⟩ := h.mon
  have hmon : r.mon ≠ [] := by
    intro e
    rw [e] at hm
    subst hm
    exact absurd hn (by decide)
  have hss : Numeral (r.ss.getD [48]) := by
    cases hs : r.ss with
    | none => exact ⟨by simp, by simp; decide⟩
    | some s => exact h.ss s hs
  unfold parseParts
  rw [if_neg (by simp [h.dd.1, hmon, h.yy.1])]
  have hnn : (r.mon.map asciiLower ∉ monthNames) = False := by rw [hm]; simp [hn]
  simp only [hnn, if_false]
  rw [strFind_absent (numeral_notin h.yy.2 (by decide))]
  simp only [show ¬ ((-1 : Int) > 0) by decide, if_false]
  rw [dropComma_numeral (numeral_notin h.yy.2 (by decide)), dropComma_numeral (numeral_notin h.dd.2 (by decide)),
    splitTime_clock h]
  have hyy := h.yy
  have e1 := asciiInt_numeral h.yy
  have e2 := asciiInt_numeral h.dd
  have e3 := asciiInt_numeral h.hh
  have e4 := asciiInt_numeral h.mi
  have e5 := asciiInt_numeral hss
  generalize r.yy = yy at *
  cases yy with
  | nil => exact absurd rfl hyy.1
  | cons c yy =>
    have hc := hyy.2 c (by simp)
    simp only [hc, Bool.not_true, Bool.false_eq_true, if_false]
    rw [e1, e2, e3, e4, e5]
    simp only
    rw [hm, month_number hn]
    unfold RfcText.month RfcText.second
    rw [hm]

theorem parseParts_tokens {r : RfcText} (h : r.OK) :
    parseParts r.dd r.mon r.yy (joinSep [58] r.clock) ((if r.neg then 45 else 43) :: (r.zh ++ r.zm)) =
      some [fullYear (digitsVal r.yy), r.month, digitsVal r.dd, digitsVal r.hh, digitsVal r.mi, r.second, 0, 1, -1,
        r.minutes * 60] := by
  rw [parseParts_zone h, zoneSeconds_zone h]

theorem parsedateTz_spec {r : RfcText} (h : r.OK) {s : List Nat} (hs : Spaced r.tokens s) :
    parsedateTz s = some [fullYear (digitsVal r.yy), r.month, digitsVal r.dd, digitsVal r.hh, digitsVal r.mi, r.second,
      0, 1, -1, r.minutes * 60] := by
  unfold parsedateTz
  rw [splitWs_spaced hs]
  unfold RfcText.tokens
  cases hd : r.dayName with
  | none =>
    have h1 : r.dd.getLast? ≠ some 44 := fun e => numeral_notin h.dd.2 (by decide) (List.mem_of_getLast? e)
    have h2 : r.dd.map asciiLower ∉ dayNames := by
      rw [map_lower_numeral h.dd.2]
      intro hm
      have : ∀ n ∈ dayNames, ∃ c ∈ n, isDigit c = false := by decide
      obtain ⟨c, hc, hf⟩ := this _ hm
      rw [h.dd.2 c hc] at hf; cases hf
    have h3 : (r.dd.reverse.takeWhile (· ≠ 44)).reverse = r.dd := by
      rw [takeWhile_all, List.reverse_reverse]
      intro c hc
      have := h.dd.2 c (List.mem_reverse.1 hc)
      simp only [ne_eq, decide_not, Bool.not_eq_eq_eq_not, Bool.not_true, decide_eq_false_iff_not]
      rintro rfl
      exact absurd this (by decide)
    simp only [List.nil_append, skipDayName]
    rw [if_neg (by simp [h1, h2]), h3]
    simp only [splitRfc850, splitZone]
    exact parseParts_tokens h
  | some n =>
    have h1 : (n ++ [44]).getLast? = some 44 := by simp
    simp only [List.singleton_append, skipDayName, h1, true_or, if_true, splitRfc850, splitZone]
    exact parseParts_tokens h

end Verif.Extime
