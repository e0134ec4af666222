import Verif.Model.Caseless
import Verif.Lemmas.Str
import Mathlib.Tactic.ByContra
/-!
# C46, C47 — `Caseless`

Specification: two code points are the same letter when they are equal or the upper- and lower-case forms
of one ASCII letter; strings are compared, and occurrences defined, pointwise by that relation.
-/
namespace Verif.Caseless
open Verif.Py

/-- Same character up to ASCII case. -/
def SameLetter (a b : Nat) : Prop :=
  a = b ∨ (65 ≤ a ∧ a ≤ 90 ∧ b = a + 32) ∨ (65 ≤ b ∧ b ≤ 90 ∧ a = b + 32)

/-- Case variants of one text. -/
def CaseVariant (s t : Str) : Prop := s.length = t.length ∧
  ∀ (i : Nat) (x y : Nat), s[i]? = some x → t[i]? = some y → SameLetter x y

/-- `sub` occurs, up to case, in `s` at position `i`. -/
def OccursAt (s sub : Str) (i : Nat) : Prop :=
  ∀ (j : Nat) (y : Nat), sub[j]? = some y → ∃ x, s[i + j]? = some x ∧ SameLetter x y

/-- The window `[a, b)` denoted by optional bounds: negative bounds count from the end, `stop` is cut to
the length. -/
def windowStart (n : Nat) : Option Int → Int
  | none => 0
  | some x => if x < 0 then max 0 (n + x) else x
def windowStop (n : Nat) : Option Int → Int
  | none => n
  | some x => if x < 0 then max 0 (n + x) else min n x

/-- An occurrence inside the window. -/
def OccursIn (s sub : Str) (start stop : Option Int) (i : Nat) : Prop :=
  OccursAt s sub i ∧ windowStart s.length start ≤ i ∧ (i + sub.length : Int) ≤ windowStop s.length stop

theorem lowerCp_eq_iff (a b : Nat) : lowerCp a = lowerCp b ↔ SameLetter a b := by
  unfold lowerCp SameLetter
  split <;> split <;> omega

theorem lower_eq_iff (s t : Str) : lower s = lower t ↔ CaseVariant s t := by
  unfold lower CaseVariant
  constructor
  · intro h
    refine ⟨by simpa using congrArg List.length h, ?_⟩
    intro i x y hx hy
    have := congrArg (fun l => l[i]?) h
    simp only [List.getElem?_map, hx, hy, Option.map_some, Option.some.injEq] at this
    exact (lowerCp_eq_iff x y).1 this
  · rintro ⟨hl, h⟩
    apply List.ext_getElem?
    intro i
    simp only [List.getElem?_map]
    by_cases hi : i < s.length
    · have h1 : s[i]? = some s[i] := List.getElem?_eq_getElem hi
      have h2 : t[i]? = some t[i] := List.getElem?_eq_getElem (by omega)
      rw [h1, h2]
      simp only [Option.map_some, Option.some.injEq]
      exact (lowerCp_eq_iff _ _).2 (h i _ _ h1 h2)
    · rw [List.getElem?_eq_none_iff.2 (by omega), List.getElem?_eq_none_iff.2 (by omega)]

theorem lower_length (s : Str) : (lower s).length = s.length := by simp [lower]

theorem matchAt_lower_iff (s sub : Str) (i : Nat) :
    matchAt (lower s) (lower sub) i = true ↔ OccursAt s sub i := by
  rw [matchAt_iff]
  unfold OccursAt
  simp only [lower_length]
  constructor
  · intro h j y hy
    have hj : j < sub.length := by
      by_contra hge
      rw [List.getElem?_eq_none_iff.2 (by omega)] at hy; cases hy
    have := h j hj
    simp only [lower, List.getElem?_map, hy, Option.map_some] at this
    cases hs : s[i + j]? with
    | none => rw [hs] at this; cases this
    | some x =>
      rw [hs] at this
      simp only [Option.map_some, Option.some.injEq] at this
      exact ⟨x, rfl, (lowerCp_eq_iff x y).1 this⟩
  · intro h j hj
    obtain ⟨x, hx, hxy⟩ := h j _ (List.getElem?_eq_getElem hj)
    simp only [lower, List.getElem?_map, hx, List.getElem?_eq_getElem hj, Option.map_some,
      Option.some.injEq]
    exact (lowerCp_eq_iff _ _).2 hxy

theorem matchAt_lower_false_iff (s sub : Str) (i : Nat) :
    matchAt (lower s) (lower sub) i = false ↔ ¬ OccursAt s sub i := by
  rw [← matchAt_lower_iff]; simp

theorem adjust_window (n m : Nat) (start stop : Option Int) (p : Nat) :
    ((adjustIndices n start stop).1 ≤ p ∧ p + m ≤ (adjustIndices n start stop).2) ↔
      (windowStart n start ≤ p ∧ (p + m : Int) ≤ windowStop n stop) := by
  unfold adjustIndices windowStart windowStop
  cases start <;> cases stop <;> simp only <;> (repeat' split) <;> omega

/-! ## C46 -/

/-- **C46.** `==` is exactly "case variants of each other". -/
theorem caseless_eq_iff (a b : Str) : eq a b = true ↔ CaseVariant a b := by
  simp [eq, lower_eq_iff]

/-- **C46.** `!=` is the negation of `==`. -/
theorem caseless_ne_iff (a b : Str) : ne a b = true ↔ ¬ CaseVariant a b := by
  simp [ne, lower_eq_iff]

/-- **C46.** Being case variants is an equivalence, hence so is `==`. -/
theorem caseless_eq_equivalence :
    (∀ a, eq a a = true) ∧ (∀ a b, eq a b = true → eq b a = true) ∧
    (∀ a b c, eq a b = true → eq b c = true → eq a c = true) := by
  refine ⟨fun a => by simp [eq], fun a b h => ?_, fun a b c h1 h2 => ?_⟩
  · simp only [eq, beq_iff_eq] at *; exact h.symm
  · simp only [eq, beq_iff_eq] at *; exact h1.trans h2

/-- **C46.** Equal values hash equally, whatever the string hash. -/
theorem caseless_hash (h : Str → Int) (a b : Str) (e : eq a b = true) : hash h a = hash h b := by
  simp only [eq, beq_iff_eq] at e
  simp [hash, e]

/-- **C46.** Different (non-variant) values are hashed by the hash of different strings: with an injective
string hash, equal hashes mean equal values. -/
theorem caseless_hash_faithful (h : Str → Int) (hinj : ∀ x y, h x = h y → x = y) (a b : Str)
    (e : hash h a = hash h b) : CaseVariant a b := (lower_eq_iff a b).1 (hinj _ _ e)

/-- The lower-case form of a letter (specification side). -/
def IsLowerOf (x y : Nat) : Prop := SameLetter x y ∧ ¬ (65 ≤ x ∧ x ≤ 90)

theorem isLowerOf_iff (x y : Nat) : IsLowerOf x y ↔ x = lowerCp y := by
  unfold IsLowerOf SameLetter lowerCp
  split <;> omega

/-- `a` precedes `b`: at the first position where they differ up to case, `a` ends or its lower-cased
letter has the smaller code point. -/
def Precedes (a b : Str) : Prop :=
  ∃ p q : Str, CaseVariant p q ∧
    ((∃ c r, a = p ∧ b = q ++ c :: r) ∨
     (∃ x y a' b' lx ly, a = p ++ x :: a' ∧ b = q ++ y :: b' ∧ IsLowerOf lx x ∧ IsLowerOf ly y ∧ lx < ly))

theorem lower_append (s t : Str) : lower (s ++ t) = lower s ++ lower t := by simp [lower]

theorem lower_eq_append {s u v : Str} (h : lower s = u ++ v) :
    ∃ s₁ s₂, s = s₁ ++ s₂ ∧ lower s₁ = u ∧ lower s₂ = v := by
  unfold lower at *
  exact List.map_eq_append_iff.1 h

theorem lower_eq_cons {s v : Str} {c : Nat} (h : lower s = c :: v) :
    ∃ x s', s = x :: s' ∧ lowerCp x = c ∧ lower s' = v := by
  unfold lower at *
  obtain ⟨x, s', h1, h2, h3⟩ := List.map_eq_cons_iff.1 h
  exact ⟨x, s', h1, h2, h3⟩

/-- **C46.** `<` is lexicographic order up to case. -/
theorem caseless_lt_iff (a b : Str) : lt a b = true ↔ Precedes a b := by
  unfold lt
  rw [beq_iff_eq, strCmp_lt_iff]
  constructor
  · rintro (⟨c, r, h⟩ | ⟨p, x, y, s', t', h3, h4, h5⟩)
    · obtain ⟨q, b₂, rfl, hq, hb⟩ := lower_eq_append h
      obtain ⟨c', r', rfl, -, -⟩ := lower_eq_cons hb
      exact ⟨a, q, (lower_eq_iff _ _).1 hq.symm, Or.inl ⟨c', r', rfl, rfl⟩⟩
    · obtain ⟨p₁, a₂, rfl, hp₁, ha₂⟩ := lower_eq_append h3
      obtain ⟨x', a', rfl, hx, -⟩ := lower_eq_cons ha₂
      obtain ⟨p₂, b₂, rfl, hp₂, hb₂⟩ := lower_eq_append h4
      obtain ⟨y', b', rfl, hy, -⟩ := lower_eq_cons hb₂
      refine ⟨p₁, p₂, (lower_eq_iff _ _).1 (hp₁.trans hp₂.symm), Or.inr
        ⟨x', y', a', b', x, y, rfl, rfl, ?_, ?_, h5⟩⟩
      · rw [isLowerOf_iff]; exact hx.symm
      · rw [isLowerOf_iff]; exact hy.symm
  · rintro ⟨p, q, hpq, ⟨c, r, rfl, rfl⟩ | ⟨x, y, a', b', lx, ly, rfl, rfl, hx, hy, hlt⟩⟩
    · left
      refine ⟨lowerCp c, lower r, ?_⟩
      rw [lower_append, (lower_eq_iff _ _).2 hpq]; rfl
    · right
      rw [isLowerOf_iff] at hx hy
      subst hx hy
      refine ⟨lower p, lowerCp x, lowerCp y, lower a', lower b', ?_, ?_, hlt⟩
      · rw [lower_append]; rfl
      · rw [lower_append, (lower_eq_iff _ _).2 hpq]; rfl

/-- **C46.** `>`, `<=` and `>=` are the converse and the reflexive closures of `<`. -/
theorem caseless_order_derived (a b : Str) :
    (gt a b = true ↔ Precedes b a) ∧
    (le a b = true ↔ Precedes a b ∨ CaseVariant a b) ∧
    (ge a b = true ↔ Precedes b a ∨ CaseVariant a b) := by
  have h1 := caseless_lt_iff a b
  have h2 := caseless_lt_iff b a
  have h3 := lower_eq_iff a b
  have h4 := strCmp_eq_iff (lower a) (lower b)
  have h5 := strCmp_swap (lower a) (lower b)
  unfold lt at h1 h2
  unfold gt le ge
  rw [← h1, ← h2, ← h3, ← h4, ← h5]
  cases strCmp (lower a) (lower b) <;> simp [Ordering.swap]

/-- **C46.** `<` is a strict order, total up to case: exactly one of `<`, `==`, `>` holds. -/
theorem caseless_trichotomy (a b : Str) :
    (lt a b = true ∧ eq a b = false ∧ gt a b = false) ∨
    (lt a b = false ∧ eq a b = true ∧ gt a b = false) ∨
    (lt a b = false ∧ eq a b = false ∧ gt a b = true) := by
  have h4 := strCmp_eq_iff (lower a) (lower b)
  have heq : eq a b = (strCmp (lower a) (lower b) == .eq) := by
    unfold eq
    by_cases h : lower a = lower b
    · rw [h4.2 h]; simp [h]
    · have : strCmp (lower a) (lower b) ≠ .eq := fun e => h (h4.1 e)
      simp only [beq_eq_false_iff_ne.2 h, beq_eq_false_iff_ne.2 this]
  rw [heq]
  unfold lt gt
  cases strCmp (lower a) (lower b) <;> simp

/-- **C46.** `<` is transitive. -/
theorem caseless_lt_trans (a b c : Str) (h1 : lt a b = true) (h2 : lt b c = true) : lt a c = true := by
  unfold lt at *
  rw [beq_iff_eq] at *
  exact strCmp_lt_trans h1 h2

/-- **C46, C47.** Every operation gives the same result on case variants of its arguments. -/
theorem caseless_case_blind (a a' b b' : Str) (ha : CaseVariant a a') (hb : CaseVariant b b')
    (h : Str → Int) (start stop : Option Int) :
    eq a b = eq a' b' ∧ ne a b = ne a' b' ∧ lt a b = lt a' b' ∧ le a b = le a' b' ∧ gt a b = gt a' b' ∧
    ge a b = ge a' b' ∧ hash h a = hash h a' ∧ contains a b = contains a' b' ∧
    count a b start stop = count a' b' start stop ∧ find a b start stop = find a' b' start stop ∧
    rfind a b start stop = rfind a' b' start stop ∧ index a b start stop = index a' b' start stop ∧
    rindex a b start stop = rindex a' b' start stop ∧
    startswith a (.one b) start stop = startswith a' (.one b') start stop ∧
    endswith a (.one b) start stop = endswith a' (.one b') start stop := by
  have h1 := (lower_eq_iff _ _).2 ha
  have h2 := (lower_eq_iff _ _).2 hb
  simp only [eq, ne, lt, le, gt, ge, hash, contains, count, find, rfind, index, rindex, startswith,
    endswith, h1, h2, and_self]

/-! ## C47 -/

/-- **C47.** `find` returns the least position in the window at which the substring occurs up to case,
and −1 when there is none. -/
theorem caseless_find (s sub : Str) (start stop : Option Int) :
    (find s sub start stop = -1 ∧ ∀ p, ¬ OccursIn s sub start stop p) ∨
    (∃ p : Nat, find s sub start stop = p ∧ OccursIn s sub start stop p ∧
      ∀ q, OccursIn s sub start stop q → p ≤ q) := by
  unfold find strFind
  simp only [lower_length]
  have hw := adjust_window s.length sub.length start stop
  generalize hab : adjustIndices s.length start stop = ab at hw ⊢
  obtain ⟨a, b⟩ := ab
  simp only at hw ⊢
  have hc := candidates_iff sub.length a b
  unfold OccursIn
  rcases scanUp_spec (lower s) (lower sub) (candidates sub.length a b) a with
    ⟨h1, h2⟩ | ⟨p, h1, h2, h3, h4, h5⟩
  · left
    refine ⟨h1, ?_⟩
    rintro p ⟨ho, hp⟩
    have := (hc p).2 ((hw p).2 hp)
    exact (matchAt_lower_false_iff _ _ _).1 (h2 p this.1 this.2) ho
  · right
    refine ⟨p, h1, ⟨(matchAt_lower_iff _ _ _).1 h4, (hw p).1 ((hc p).1 ⟨h2, h3⟩)⟩, ?_⟩
    rintro q ⟨ho, hq⟩
    by_contra hlt
    have := (hc q).2 ((hw q).2 hq)
    exact (matchAt_lower_false_iff _ _ _).1 (h5 q this.1 (by omega)) ho

/-- **C47.** `rfind` returns the greatest such position. -/
theorem caseless_rfind (s sub : Str) (start stop : Option Int) :
    (rfind s sub start stop = -1 ∧ ∀ p, ¬ OccursIn s sub start stop p) ∨
    (∃ p : Nat, rfind s sub start stop = p ∧ OccursIn s sub start stop p ∧
      ∀ q, OccursIn s sub start stop q → q ≤ p) := by
  unfold rfind strRFind
  simp only [lower_length]
  have hw := adjust_window s.length sub.length start stop
  generalize hab : adjustIndices s.length start stop = ab at hw ⊢
  obtain ⟨a, b⟩ := ab
  simp only at hw ⊢
  have hc := candidates_iff sub.length a b
  unfold OccursIn
  rcases scanDown_spec (lower s) (lower sub) (candidates sub.length a b) a with
    ⟨h1, h2⟩ | ⟨p, h1, h2, h3, h4, h5⟩
  · left
    refine ⟨h1, ?_⟩
    rintro p ⟨ho, hp⟩
    have := (hc p).2 ((hw p).2 hp)
    exact (matchAt_lower_false_iff _ _ _).1 (h2 p this.1 this.2) ho
  · right
    refine ⟨p, h1, ⟨(matchAt_lower_iff _ _ _).1 h4, (hw p).1 ((hc p).1 ⟨h2, h3⟩)⟩, ?_⟩
    rintro q ⟨ho, hq⟩
    by_contra hlt
    have := (hc q).2 ((hw q).2 hq)
    exact (matchAt_lower_false_iff _ _ _).1 (h5 q (by omega) this.2) ho

/-- **C47.** `index`/`rindex` are `find`/`rfind` with `ValueError` exactly when nothing is found. -/
theorem caseless_index (s sub : Str) (start stop : Option Int) :
    (index s sub start stop = .error .valueError ∧ ∀ p, ¬ OccursIn s sub start stop p) ∨
    (∃ p : Nat, index s sub start stop = .ok (p : Int) ∧ OccursIn s sub start stop p ∧
      ∀ q, OccursIn s sub start stop q → p ≤ q) := by
  have h := caseless_find s sub start stop
  unfold find at h
  unfold index strIndex
  rcases h with ⟨h1, h2⟩ | ⟨p, h1, h2⟩
  · left; exact ⟨by simp [h1], h2⟩
  · right
    refine ⟨p, ?_, h2⟩
    rw [h1]; simp only; rw [if_neg (by omega)]

theorem caseless_rindex (s sub : Str) (start stop : Option Int) :
    (rindex s sub start stop = .error .valueError ∧ ∀ p, ¬ OccursIn s sub start stop p) ∨
    (∃ p : Nat, rindex s sub start stop = .ok (p : Int) ∧ OccursIn s sub start stop p ∧
      ∀ q, OccursIn s sub start stop q → q ≤ p) := by
  have h := caseless_rfind s sub start stop
  unfold rfind at h
  unfold rindex strRIndex
  rcases h with ⟨h1, h2⟩ | ⟨p, h1, h2⟩
  · left; exact ⟨by simp [h1], h2⟩
  · right
    refine ⟨p, ?_, h2⟩
    rw [h1]; simp only; rw [if_neg (by omega)]

/-- **C47.** `sub in s` holds exactly when `sub` occurs somewhere in `s` up to case. -/
theorem caseless_contains (s sub : Str) :
    contains s sub = true ↔ ∃ p, p + sub.length ≤ s.length ∧ OccursAt s sub p := by
  have h := caseless_find s sub none none
  unfold find OccursIn windowStart windowStop at h
  simp only at h
  unfold contains strContains
  rw [bne_iff_ne]
  rcases h with ⟨h1, h2⟩ | ⟨p, h1, ⟨h2, h3, h4⟩, -⟩
  · rw [h1]
    simp only [ne_eq, not_true_eq_false, false_iff]
    rintro ⟨p, hp, ho⟩
    exact h2 p ⟨ho, by omega, by omega⟩
  · rw [h1]
    constructor
    · intro _; exact ⟨p, by omega, h2⟩
    · intro _; omega

/-- **C47.** `startswith` with a string: an occurrence at the start of the window, inside the window. -/
theorem caseless_startswith (s p : Str) (start stop : Option Int) :
    startswith s (.one p) start stop = true ↔
      ∃ i : Nat, (i : Int) = windowStart s.length start ∧ OccursIn s p start stop i := by
  unfold startswith strStartsWith OccursIn
  simp only [lower_length]
  have hw := adjust_window s.length p.length start stop
  have ha : (((adjustIndices s.length start stop).1 : Nat) : Int) = windowStart s.length start := by
    unfold adjustIndices windowStart
    cases start <;> simp only <;> (repeat' split) <;> omega
  generalize hab : adjustIndices s.length start stop = ab at hw ha ⊢
  obtain ⟨a, b⟩ := ab
  simp only [Bool.and_eq_true, decide_eq_true_eq, matchAt_lower_iff] at hw ha ⊢
  constructor
  · rintro ⟨h1, h2⟩
    exact ⟨a, ha, h2, (hw a).1 ⟨by omega, h1⟩⟩
  · rintro ⟨i, hi, ho, h⟩
    have e : i = a := by omega
    subst e
    exact ⟨((hw i).2 h).2, ho⟩

/-- **C47.** `endswith` with a string: an occurrence ending exactly at the end of the window. -/
theorem caseless_endswith (s p : Str) (start stop : Option Int) :
    endswith s (.one p) start stop = true ↔
      ∃ i : Nat, (i + p.length : Int) = windowStop s.length stop ∧ OccursIn s p start stop i := by
  unfold endswith strEndsWith OccursIn
  simp only [lower_length]
  have hw := adjust_window s.length p.length start stop
  have hb : (((adjustIndices s.length start stop).2 : Nat) : Int) = windowStop s.length stop := by
    unfold adjustIndices windowStop
    cases stop <;> simp only <;> (repeat' split) <;> omega
  generalize hab : adjustIndices s.length start stop = ab at hw hb ⊢
  obtain ⟨a, b⟩ := ab
  simp only [Bool.and_eq_true, decide_eq_true_eq, matchAt_lower_iff] at hw hb ⊢
  constructor
  · rintro ⟨h1, h2⟩
    exact ⟨b - p.length, by omega, h2, (hw _).1 ⟨by omega, by omega⟩⟩
  · rintro ⟨i, hi, ho, h⟩
    have h' := (hw i).2 h
    have e : b - p.length = i := by omega
    rw [e]
    exact ⟨by omega, ho⟩

/-- **C47.** With a tuple, `startswith`/`endswith` hold exactly when they hold for some member. -/
theorem caseless_affix_tuple (s : Str) (ps : List Str) (start stop : Option Int) :
    (startswith s (.tuple ps) start stop = true ↔ ∃ p ∈ ps, startswith s (.one p) start stop = true) ∧
    (endswith s (.tuple ps) start stop = true ↔ ∃ p ∈ ps, endswith s (.one p) start stop = true) := by
  simp [startswith, endswith, List.any_map]

/-- **C47.** `count` is the largest number of pairwise non-overlapping occurrences in the window (for a
non-empty substring); the empty string is counted once per position of the window. -/
theorem caseless_count (s sub : Str) (start stop : Option Int) (hne : sub ≠ []) :
    (∃ ps : List Nat, ps.length = count s sub start stop ∧
      (∀ p ∈ ps, OccursIn s sub start stop p) ∧ ps.Pairwise (fun p q => p + sub.length ≤ q)) ∧
    (∀ ps : List Nat, (∀ p ∈ ps, OccursIn s sub start stop p) →
      ps.Pairwise (fun p q => p + sub.length ≤ q) → ps.length ≤ count s sub start stop) := by
  have hpos : 0 < (lower sub).length := by
    rw [lower_length]; exact List.length_pos_iff.2 hne
  unfold count strCount OccursIn
  simp only [lower_length]
  have hw := adjust_window s.length sub.length start stop
  generalize hab : adjustIndices s.length start stop = ab at hw ⊢
  obtain ⟨a, b⟩ := ab
  simp only at hw ⊢
  have hc := candidates_iff sub.length a b
  constructor
  · obtain ⟨ps, h1, h2, h3⟩ := scanCount_achieved (lower s) (lower sub) hpos
      (candidates sub.length a b) 0 a
    refine ⟨ps, h1, ?_, by simpa [lower_length] using h3⟩
    intro p hp
    obtain ⟨h4, h5, h6⟩ := h2 p hp
    exact ⟨(matchAt_lower_iff _ _ _).1 h6, (hw p).1 ((hc p).1 ⟨by omega, h5⟩)⟩
  · intro ps h hp
    apply scanCount_optimal (lower s) (lower sub) hpos
    · intro p hm
      obtain ⟨ho, h'⟩ := h p hm
      have := (hc p).2 ((hw p).2 h')
      exact ⟨by omega, this.2, (matchAt_lower_iff _ _ _).2 ho⟩
    · simpa [lower_length] using hp

theorem caseless_count_empty (s : Str) (start stop : Option Int) :
    (count s [] start stop : Int) =
      max 0 (windowStop s.length stop - windowStart s.length start + 1) := by
  unfold count strCount
  have : lower ([] : Str) = [] := rfl
  simp only [this, scanCount_empty, lower_length, List.length_nil]
  unfold adjustIndices windowStart windowStop candidates
  cases start <;> cases stop <;> simp only <;> (repeat' split) <;> omega

/-- **C47 fails for text whose lower-casing changes length**: `Caseless('İx').find('x')` is 2 although
the wrapped string has length 2 and its `x` is at position 1. -/
theorem caseless_find_unicode_fails :
    findU [0x130, 120] [120] none none = 2 ∧ ([0x130, 120] : Str)[1]? = some 120 := by
  decide

/-- Non-vacuity: `'Eggs and SPAM'` contains `'spam'`; `'aAaA'.count('aa')` is 2. -/
example : contains [69, 103, 103, 115, 32, 97, 110, 100, 32, 83, 80, 65, 77] [115, 112, 97, 109] = true := by
  decide
example : find [65, 66, 97, 98] [97, 98] (some (-3)) none = 2 := by decide
example : count [97, 65, 97, 65] [97, 97] none none = 2 := by decide
example : lt [98, 97, 114] [70, 79, 79] = true := by decide
example : startswith [84, 101] (.tuple [[116, 101], [120]]) none none = true := by decide

end Verif.Caseless
