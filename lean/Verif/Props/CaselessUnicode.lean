import Verif.Model.CaselessUnicode
import Verif.Props.Caseless
/-!
# C123: `Caseless` on text beyond ASCII

`Reads D s t` says that `t` is `s` in lower case (the Unicode standard, section 3.13 and table 3-17, for an arbitrary database `D`);
`SameText D a b` that two texts are the same in lower case.
-/
namespace Verif.CaselessUnicode
open Verif.Py
open Verif.Caseless (Str Affix windowStart windowStop adjust_window)

/-! ## Specification -/

/-- A cased letter comes before, with nothing but case-ignorable characters in between. -/
def Before (D : Database) (a : Str) : Prop :=
  ∃ y c x, a = y ++ c :: x ∧ (∀ i ∈ x, D.ignorable i = true) ∧ D.ignorable c = false ∧ D.cased c = true

/-- A cased letter follows, with nothing but case-ignorable characters in between. -/
def After (D : Database) (b : Str) : Prop :=
  ∃ x c y, b = x ++ c :: y ∧ (∀ i ∈ x, D.ignorable i = true) ∧ D.ignorable c = false ∧ D.cased c = true

/-- What the character `c` between `a` and `b` is in lower case. -/
def Piece (D : Database) (a : Str) (c : Nat) (b : Str) (p : Str) : Prop :=
  (c ≠ 0x3A3 → p = D.toLower c) ∧
  (c = 0x3A3 → (Before D a ∧ ¬ After D b → p = [0x3C2]) ∧ (¬ (Before D a ∧ ¬ After D b) → p = [0x3C3]))

/-- `t` is `s` in lower case. -/
def Reads (D : Database) (s t : Str) : Prop :=
  ∃ ps : List Str, t = ps.flatten ∧ ps.length = s.length ∧
    ∀ a c b, s = a ++ c :: b → ∃ p, ps[a.length]? = some p ∧ Piece D a c b p

def SameText (D : Database) (a b : Str) : Prop := ∃ t, Reads D a t ∧ Reads D b t

/-- Every character has one character for its lower case, whatever is around it. -/
def Simple (D : Database) (s : Str) : Prop := ∀ c ∈ s, c ≠ 0x3A3 ∧ ∃ x, D.toLower c = [x]

/-- The piece of `s` from `p` of length `n` is in the window, and is `sub` up to case. -/
def Found (D : Database) (s sub : Str) (start stop : Option Int) (p n : Nat) : Prop :=
  SameText D ((s.drop p).take n) sub ∧ windowStart s.length start ≤ p ∧ (p + n : Int) ≤ windowStop s.length stop

/-! ## The model meets the specification -/

theorem casedNext_iff (D : Database) (l : List Nat) : casedNext D l = true ↔ After D l := by
  unfold casedNext
  induction l with
  | nil =>
    simp only [List.dropWhile_nil, Bool.false_eq_true, false_iff]
    rintro ⟨x, c, y, e, -⟩
    cases x <;> cases e
  | cons i l ih =>
    rw [List.dropWhile_cons]
    by_cases hi : D.ignorable i = true
    · rw [if_pos hi, ih]
      constructor
      · rintro ⟨x, c, y, rfl, h1, h2⟩
        exact ⟨i :: x, c, y, rfl, by simpa [hi] using h1, h2⟩
      · rintro ⟨x, c, y, e, h1, h2, h3⟩
        cases x with
        | nil =>
          simp only [List.nil_append, List.cons.injEq] at e
          rw [← e.1, hi] at h2; cases h2
        | cons j x =>
          simp only [List.cons_append, List.cons.injEq] at e
          exact ⟨x, c, y, e.2, fun k hk => h1 k (List.mem_cons_of_mem _ hk), h2, h3⟩
    · rw [if_neg hi]
      constructor
      · intro h
        exact ⟨[], i, l, rfl, by simp, by simpa using hi, h⟩
      · rintro ⟨x, c, y, e, h1, h2, h3⟩
        cases x with
        | nil =>
          simp only [List.nil_append, List.cons.injEq] at e
          dsimp only
          rw [e.1]; exact h3
        | cons j x =>
          simp only [List.cons_append, List.cons.injEq] at e
          rw [e.1] at hi
          exact absurd (h1 j List.mem_cons_self) hi

theorem casedNext_reverse (D : Database) (a : List Nat) : casedNext D a.reverse = true ↔ Before D a := by
  rw [casedNext_iff]
  constructor
  · rintro ⟨x, c, y, e, h1, h2⟩
    refine ⟨y.reverse, c, x.reverse, ?_, by simpa using h1, h2⟩
    rw [← List.reverse_reverse a, e]; simp
  · rintro ⟨y, c, x, rfl, h1, h2⟩
    exact ⟨x.reverse, c, y.reverse, by simp, by simpa using h1, h2⟩

theorem lowerOne_piece (D : Database) (a : Str) (c : Nat) (b p : Str) :
    Piece D a c b p ↔ p = lowerOne D a.reverse c b := by
  unfold Piece lowerOne
  by_cases hc : c = 0x3A3
  · rw [if_pos hc]
    unfold sigma
    have h1 := casedNext_reverse D a
    have h2 := casedNext_iff D b
    by_cases hf : Before D a ∧ ¬ After D b
    · have : (casedNext D a.reverse && !casedNext D b) = true := by
        rw [h1.2 hf.1, Bool.true_and, Bool.not_eq_true', ← Bool.not_eq_true]
        exact fun h => hf.2 (h2.1 h)
      rw [if_pos this]
      exact ⟨fun h => (h.2 hc).1 hf, fun h => ⟨fun n => absurd hc n, fun _ => ⟨fun _ => h, fun n => absurd hf n⟩⟩⟩
    · have : ¬ (casedNext D a.reverse && !casedNext D b) = true := by
        intro h
        rw [Bool.and_eq_true, Bool.not_eq_true', ← Bool.not_eq_true] at h
        exact hf ⟨h1.1 h.1, fun n => h.2 (h2.2 n)⟩
      rw [if_neg this]
      exact ⟨fun h => (h.2 hc).2 hf, fun h => ⟨fun n => absurd hc n, fun _ => ⟨fun n => absurd n hf, fun _ => h⟩⟩⟩
  · rw [if_neg hc]
    exact ⟨fun h => h.1 hc, fun h => ⟨fun _ => h, fun n => absurd n hc⟩⟩

theorem pieces_length (D : Database) (before s : List Nat) : (pieces D before s).length = s.length := by
  induction s generalizing before with
  | nil => rfl
  | cons c s ih => rw [pieces, List.length_cons, ih, List.length_cons]

theorem pieces_get (D : Database) (before a : List Nat) (c : Nat) (b : List Nat) :
    (pieces D before (a ++ c :: b))[a.length]? = some (lowerOne D (a.reverse ++ before) c b) := by
  induction a generalizing before with
  | nil => rfl
  | cons i a ih =>
    rw [List.cons_append, pieces, List.length_cons, List.getElem?_cons_succ, ih]
    simp

/-- **C123.** `lower` is lower-casing. -/
theorem reads_iff (D : Database) (s t : Str) : Reads D s t ↔ t = lower D s := by
  constructor
  · rintro ⟨ps, rfl, hl, h⟩
    unfold lower
    congr 1
    apply List.ext_getElem?
    intro i
    by_cases hi : i < s.length
    · have e : s = s.take i ++ s[i] :: s.drop (i + 1) := by simp
      obtain ⟨p, hp, hq⟩ := h _ _ _ e
      have hn : (s.take i).length = i := by simp; omega
      have hg := pieces_get D [] (s.take i) s[i] (s.drop (i + 1))
      rw [← e, hn] at hg
      rw [hn] at hp
      rw [hp, hg, (lowerOne_piece D _ _ _ _).1 hq, List.append_nil]
    · rw [List.getElem?_eq_none (by omega), List.getElem?_eq_none (by rw [pieces_length]; omega)]
  · rintro rfl
    refine ⟨pieces D [] s, rfl, pieces_length D [] s, ?_⟩
    rintro a c b rfl
    exact ⟨_, pieces_get D [] a c b, (lowerOne_piece D _ _ _ _).2 (by rw [List.append_nil])⟩

theorem sameText_iff (D : Database) (a b : Str) : SameText D a b ↔ lower D a = lower D b := by
  unfold SameText
  simp only [reads_iff]
  exact ⟨fun ⟨t, h1, h2⟩ => h1.symm.trans h2, fun h => ⟨_, rfl, h⟩⟩

/-! ## Comparisons -/

/-- **C123.** `==` and `!=` tell whether two texts are the same in lower case, and so does the hash. -/
theorem unicode_eq (D : Database) (h : Str → Int) (a b : Str) :
    (eq D a b = true ↔ SameText D a b) ∧ (ne D a b = true ↔ ¬ SameText D a b) ∧
    (SameText D a b → hash D h a = hash D h b) ∧ ((∀ x y, h x = h y → x = y) → hash D h a = hash D h b → SameText D a b) := by
  rw [sameText_iff]
  refine ⟨by simp [eq], by simp [ne], fun e => by simp [hash, e], fun hi e => hi _ _ e⟩

/-- `t` precedes `u` in the order of the code points. -/
def Earlier (t u : Str) : Prop :=
  (∃ c r, u = t ++ c :: r) ∨ ∃ p x y t' u', t = p ++ x :: t' ∧ u = p ++ y :: u' ∧ x < y

/-- **C123.** The other comparisons are those of the lower-case texts, by code points. -/
theorem unicode_order (D : Database) (a b t u : Str) (ht : Reads D a t) (hu : Reads D b u) :
    (lt D a b = true ↔ Earlier t u) ∧ (gt D a b = true ↔ Earlier u t) ∧
    (le D a b = true ↔ Earlier t u ∨ SameText D a b) ∧ (ge D a b = true ↔ Earlier u t ∨ SameText D a b) := by
  rw [reads_iff] at ht hu
  subst ht hu
  have h1 := strCmp_lt_iff (lower D a) (lower D b)
  have h2 := strCmp_lt_iff (lower D b) (lower D a)
  have h4 := strCmp_eq_iff (lower D a) (lower D b)
  have h5 := strCmp_swap (lower D a) (lower D b)
  unfold Earlier lt gt le ge
  rw [sameText_iff, ← h4, ← h1, ← h2, ← h5]
  cases strCmp (lower D a) (lower D b) <;> simp [Ordering.swap]

/-- **C123.** Equality is an equivalence, `<` is transitive, and of `<`, `==`, `>` exactly one holds. -/
theorem unicode_laws (D : Database) (a b c : Str) :
    eq D a a = true ∧ (eq D a b = true → eq D b a = true) ∧ (eq D a b = true → eq D b c = true → eq D a c = true) ∧
    (lt D a b = true → lt D b c = true → lt D a c = true) ∧
    ((lt D a b = true ∧ eq D a b = false ∧ gt D a b = false) ∨ (lt D a b = false ∧ eq D a b = true ∧ gt D a b = false) ∨
      (lt D a b = false ∧ eq D a b = false ∧ gt D a b = true)) := by
  refine ⟨by simp [eq], fun h => ?_, fun h1 h2 => ?_, fun h1 h2 => ?_, ?_⟩
  · simp only [eq, beq_iff_eq] at *; exact h.symm
  · simp only [eq, beq_iff_eq] at *; exact h1.trans h2
  · unfold lt at *
    rw [beq_iff_eq] at *
    exact strCmp_lt_trans h1 h2
  · have h4 := strCmp_eq_iff (lower D a) (lower D b)
    have heq : eq D a b = (strCmp (lower D a) (lower D b) == .eq) := by
      unfold eq
      by_cases h : lower D a = lower D b
      · rw [h4.2 h]; simp [h]
      · have : strCmp (lower D a) (lower D b) ≠ .eq := fun e => h (h4.1 e)
        simp only [beq_eq_false_iff_ne.2 h, beq_eq_false_iff_ne.2 this]
    rw [heq]
    unfold lt gt
    cases strCmp (lower D a) (lower D b) <;> simp

/-- **C123.** All operations give the same for texts that are the same in lower case. -/
theorem unicode_case_blind (D : Database) (a a' b b' : Str) (ha : SameText D a a') (hb : SameText D b b') (h : Str → Int)
    (start stop : Option Int) :
    eq D a b = eq D a' b' ∧ ne D a b = ne D a' b' ∧ lt D a b = lt D a' b' ∧ le D a b = le D a' b' ∧ gt D a b = gt D a' b' ∧
    ge D a b = ge D a' b' ∧ hash D h a = hash D h a' ∧ contains D a b = contains D a' b' ∧
    count D a b start stop = count D a' b' start stop ∧ find D a b start stop = find D a' b' start stop ∧
    rfind D a b start stop = rfind D a' b' start stop ∧ index D a b start stop = index D a' b' start stop ∧
    rindex D a b start stop = rindex D a' b' start stop ∧
    startswith D a (.one b) start stop = startswith D a' (.one b') start stop ∧
    endswith D a (.one b) start stop = endswith D a' (.one b') start stop := by
  have h1 := (sameText_iff D _ _).1 ha
  have h2 := (sameText_iff D _ _).1 hb
  simp only [eq, ne, lt, le, gt, ge, hash, contains, count, find, rfind, index, rindex, startswith, endswith, h1, h2, and_self]

/-- **C123.** If the database maps lower-case letters to themselves, lower-casing again changes nothing: a `Caseless` equals its
`lower()`. -/
theorem lower_settled (D : Database) (hD : ∀ c, ∀ x ∈ D.toLower c, x ≠ 0x3A3 ∧ D.toLower x = [x])
    (h2 : D.toLower 0x3C2 = [0x3C2]) (h3 : D.toLower 0x3C3 = [0x3C3]) (s : Str) :
    lower D (lower D s) = lower D s ∧ eq D s (lower D s) = true := by
  have flat : ∀ (before : List Nat) (t : Str), (∀ x ∈ t, x ≠ 0x3A3 ∧ D.toLower x = [x]) → (pieces D before t).flatten = t := by
    intro before t
    induction t generalizing before with
    | nil => intro _; rfl
    | cons c t ih =>
      intro h
      rw [pieces, List.flatten_cons, ih _ fun x hx => h x (List.mem_cons_of_mem _ hx)]
      obtain ⟨h4, h5⟩ := h c List.mem_cons_self
      rw [lowerOne, if_neg h4, h5]; rfl
  have all : ∀ (before t : Str), ∀ x ∈ (pieces D before t).flatten, x ≠ 0x3A3 ∧ D.toLower x = [x] := by
    intro before t
    induction t generalizing before with
    | nil => intro x hx; cases hx
    | cons c t ih =>
      intro x hx
      rw [pieces, List.flatten_cons] at hx
      rcases List.mem_append.1 hx with hx | hx
      · unfold lowerOne at hx
        split at hx
        · unfold sigma at hx
          split at hx
          · rw [List.mem_singleton.1 hx]; exact ⟨by decide, h2⟩
          · rw [List.mem_singleton.1 hx]; exact ⟨by decide, h3⟩
        · exact hD c x hx
      · exact ih _ x hx
  have : lower D (lower D s) = lower D s := flat [] _ (all [] s)
  exact ⟨this, by simp [eq, this]⟩

/-! ## Searching -/

/-- The one character that `c` becomes. -/
def one (D : Database) (c : Nat) : Nat := (D.toLower c).headD 0

theorem pieces_simple (D : Database) (before s : Str) (h : Simple D s) : (pieces D before s).flatten = s.map (one D) := by
  induction s generalizing before with
  | nil => rfl
  | cons c s ih =>
    obtain ⟨h1, x, h2⟩ := h c List.mem_cons_self
    rw [pieces, List.flatten_cons, ih _ fun x hx => h x (List.mem_cons_of_mem _ hx), lowerOne, if_neg h1, List.map_cons]
    unfold one
    rw [h2]; rfl

theorem lower_simple (D : Database) (s : Str) (h : Simple D s) : lower D s = s.map (one D) := pieces_simple D [] s h

theorem windowStop_le (n : Nat) (stop : Option Int) : windowStop n stop ≤ n := by
  unfold windowStop
  cases stop <;> simp only <;> (repeat' split) <;> omega

theorem windowStart_nonneg (n : Nat) (start : Option Int) : 0 ≤ windowStart n start := by
  unfold windowStart
  cases start <;> simp only <;> (repeat' split) <;> omega

/-- What the searching functions look for, in text that is simple. -/
theorem found_iff (D : Database) (s sub : Str) (hs : Simple D s) (start stop : Option Int) (p n : Nat) :
    Found D s sub start stop p n ↔ n = (lower D sub).length ∧ matchAt (lower D s) (lower D sub) p = true ∧
      windowStart s.length start ≤ p ∧ (p + (lower D sub).length : Int) ≤ windowStop s.length stop := by
  have hsub : ∀ m, lower D ((s.drop p).take m) = ((lower D s).drop p).take m := by
    intro m
    rw [lower_simple D _ fun c hc => hs c (List.mem_of_mem_drop (List.mem_of_mem_take hc)), lower_simple D s hs,
      List.map_take, List.map_drop]
  have hlen : (lower D s).length = s.length := by rw [lower_simple D s hs, List.length_map]
  unfold Found matchAt
  rw [sameText_iff, hsub]
  constructor
  · rintro ⟨h1, h2, h3⟩
    have hw := windowStop_le s.length stop
    have e : n = (lower D sub).length := by
      rw [← h1, List.length_take, List.length_drop, hlen]
      omega
    rw [← e]
    exact ⟨rfl, beq_iff_eq.2 h1, h2, h3⟩
  · rintro ⟨rfl, h1, h2, h3⟩
    exact ⟨beq_iff_eq.1 h1, h2, h3⟩

theorem found_length (D : Database) (s sub : Str) (hs : Simple D s) (start stop : Option Int) (p n m q : Nat)
    (h1 : Found D s sub start stop p n) (h2 : Found D s sub start stop q m) : n = m := by
  rw [((found_iff D s sub hs start stop p n).1 h1).1, ((found_iff D s sub hs start stop q m).1 h2).1]

theorem at_iff (D : Database) (s sub : Str) (hs : Simple D s) (start stop : Option Int) (p : Nat) :
    (∃ n, Found D s sub start stop p n) ↔ matchAt (lower D s) (lower D sub) p = true ∧
      (adjustIndices s.length start stop).1 ≤ p ∧ p + (lower D sub).length ≤ (adjustIndices s.length start stop).2 := by
  rw [adjust_window]
  constructor
  · rintro ⟨n, h⟩; exact ((found_iff D s sub hs start stop p n).1 h).2
  · intro h; exact ⟨_, (found_iff D s sub hs start stop p _).2 ⟨rfl, h⟩⟩

/-- **C123, partial**, in text of simple characters: `find` gives the first place in the window where there is a piece that is the
substring up to case, and `rfind` the last; they give -1 if there is none. -/
theorem unicode_find_partial (D : Database) (s sub : Str) (hs : Simple D s) (start stop : Option Int) :
    ((find D s sub start stop = -1 ∧ ∀ p n, ¬ Found D s sub start stop p n) ∨
     (∃ p : Nat, find D s sub start stop = p ∧ (∃ n, Found D s sub start stop p n) ∧
       ∀ q n, Found D s sub start stop q n → p ≤ q)) ∧
    ((rfind D s sub start stop = -1 ∧ ∀ p n, ¬ Found D s sub start stop p n) ∨
     (∃ p : Nat, rfind D s sub start stop = p ∧ (∃ n, Found D s sub start stop p n) ∧
       ∀ q n, Found D s sub start stop q n → q ≤ p)) := by
  have hlen : (lower D s).length = s.length := by rw [lower_simple D s hs, List.length_map]
  have hat := at_iff D s sub hs start stop
  unfold find strFind rfind strRFind
  rw [hlen]
  generalize hab : adjustIndices s.length start stop = ab at hat ⊢
  obtain ⟨a, b⟩ := ab
  simp only at hat ⊢
  have hc := candidates_iff (lower D sub).length a b
  constructor
  · rcases scanUp_spec (lower D s) (lower D sub) (candidates (lower D sub).length a b) a with ⟨h1, h2⟩ | ⟨p, h1, h2, h3, h4, h5⟩
    · refine Or.inl ⟨h1, fun p n hf => ?_⟩
      obtain ⟨h3, h4⟩ := (hat p).1 ⟨n, hf⟩
      have h5 := (hc p).2 h4
      rw [h2 p h5.1 h5.2] at h3; cases h3
    · refine Or.inr ⟨p, h1, (hat p).2 ⟨h4, (hc p).1 ⟨h2, h3⟩⟩, fun q n hf => ?_⟩
      obtain ⟨h6, h7⟩ := (hat q).1 ⟨n, hf⟩
      by_contra hlt
      rw [h5 q h7.1 (by omega)] at h6; cases h6
  · rcases scanDown_spec (lower D s) (lower D sub) (candidates (lower D sub).length a b) a with ⟨h1, h2⟩ | ⟨p, h1, h2, h3, h4, h5⟩
    · refine Or.inl ⟨h1, fun p n hf => ?_⟩
      obtain ⟨h3, h4⟩ := (hat p).1 ⟨n, hf⟩
      have h5 := (hc p).2 h4
      rw [h2 p h5.1 h5.2] at h3; cases h3
    · refine Or.inr ⟨p, h1, (hat p).2 ⟨h4, (hc p).1 ⟨h2, h3⟩⟩, fun q n hf => ?_⟩
      obtain ⟨h6, h7⟩ := (hat q).1 ⟨n, hf⟩
      have h8 := (hc q).2 h7
      by_contra hlt
      rw [h5 q (by omega) h8.2] at h6; cases h6

/-- **C123, partial**: `index` and `rindex` give the same, but raise `ValueError` if there is no such piece; `in` tells whether there is
one at all. -/
theorem unicode_index_partial (D : Database) (s sub : Str) (hs : Simple D s) (start stop : Option Int) :
    ((index D s sub start stop = .error .valueError ∧ ∀ p n, ¬ Found D s sub start stop p n) ∨
     (∃ p : Nat, index D s sub start stop = .ok (p : Int) ∧ (∃ n, Found D s sub start stop p n) ∧
       ∀ q n, Found D s sub start stop q n → p ≤ q)) ∧
    ((rindex D s sub start stop = .error .valueError ∧ ∀ p n, ¬ Found D s sub start stop p n) ∨
     (∃ p : Nat, rindex D s sub start stop = .ok (p : Int) ∧ (∃ n, Found D s sub start stop p n) ∧
       ∀ q n, Found D s sub start stop q n → q ≤ p)) ∧
    (contains D s sub = true ↔ ∃ x y z, s = x ++ y ++ z ∧ SameText D y sub) := by
  obtain ⟨h1, h2⟩ := unicode_find_partial D s sub hs start stop
  refine ⟨?_, ?_, ?_⟩
  · unfold find at h1
    unfold index strIndex
    rcases h1 with ⟨h1, h2⟩ | ⟨p, h1, h2⟩
    · exact Or.inl ⟨by simp [h1], h2⟩
    · refine Or.inr ⟨p, ?_, h2⟩
      rw [h1]; simp only; rw [if_neg (by omega)]
  · unfold rfind at h2
    unfold rindex strRIndex
    rcases h2 with ⟨h1, h2⟩ | ⟨p, h1, h2⟩
    · exact Or.inl ⟨by simp [h1], h2⟩
    · refine Or.inr ⟨p, ?_, h2⟩
      rw [h1]; simp only; rw [if_neg (by omega)]
  · have h := (unicode_find_partial D s sub hs none none).1
    unfold find at h
    unfold contains strContains
    rw [bne_iff_ne]
    rcases h with ⟨h1, h2⟩ | ⟨p, h1, ⟨n, h2⟩, -⟩
    · rw [h1]
      simp only [ne_eq, not_true_eq_false, false_iff]
      rintro ⟨x, y, z, rfl, h⟩
      refine h2 x.length y.length ⟨?_, ?_, ?_⟩
      · rw [List.append_assoc, List.drop_left, List.take_left]; exact h
      · simp [windowStart]
      · simp [windowStop]; omega
    · rw [h1]
      refine ⟨fun _ => ⟨s.take p, (s.drop p).take n, (s.drop p).drop n, ?_, h2.1⟩, fun _ => by omega⟩
      rw [List.append_assoc, List.take_append_drop, List.take_append_drop]

/-- **C123, partial**: `startswith` tells whether there is such a piece at the beginning of the window, `endswith` whether there is one
at its end, for a tuple whether that is so of one member. -/
theorem unicode_affix_partial (D : Database) (s sub : Str) (hs : Simple D s) (ps : List Str) (start stop : Option Int) :
    (startswith D s (.one sub) start stop = true ↔ ∃ p n : Nat, (p : Int) = windowStart s.length start ∧ Found D s sub start stop p n) ∧
    (endswith D s (.one sub) start stop = true ↔ ∃ p n : Nat, (p + n : Int) = windowStop s.length stop ∧ Found D s sub start stop p n) ∧
    (startswith D s (.tuple ps) start stop = true ↔ ∃ p ∈ ps, startswith D s (.one p) start stop = true) ∧
    (endswith D s (.tuple ps) start stop = true ↔ ∃ p ∈ ps, endswith D s (.one p) start stop = true) := by
  have hlen : (lower D s).length = s.length := by rw [lower_simple D s hs, List.length_map]
  have hat := at_iff D s sub hs start stop
  have ha : (((adjustIndices s.length start stop).1 : Nat) : Int) = windowStart s.length start := by
    unfold adjustIndices windowStart
    cases start <;> simp only <;> (repeat' split) <;> omega
  have hb : (((adjustIndices s.length start stop).2 : Nat) : Int) = windowStop s.length stop := by
    unfold adjustIndices windowStop
    cases stop <;> simp only <;> (repeat' split) <;> omega
  refine ⟨?_, ?_, by simp [startswith, List.any_map], by simp [endswith, List.any_map]⟩
  · unfold startswith strStartsWith
    rw [hlen]
    generalize hab : adjustIndices s.length start stop = ab at hat ha hb ⊢
    obtain ⟨a, b⟩ := ab
    simp only [Bool.and_eq_true, decide_eq_true_eq] at hat ha hb ⊢
    constructor
    · rintro ⟨h1, h2⟩
      obtain ⟨n, hn⟩ := (hat a).2 ⟨h2, Nat.le_refl _, h1⟩
      exact ⟨a, n, ha, hn⟩
    · rintro ⟨p, n, hp, hf⟩
      obtain ⟨h1, h2, h3⟩ := (hat p).1 ⟨n, hf⟩
      have e : p = a := by omega
      subst e
      exact ⟨h3, h1⟩
  · unfold endswith strEndsWith
    rw [hlen]
    generalize hab : adjustIndices s.length start stop = ab at hat ha hb ⊢
    obtain ⟨a, b⟩ := ab
    simp only [Bool.and_eq_true, decide_eq_true_eq] at hat ha hb ⊢
    constructor
    · rintro ⟨h1, h2⟩
      obtain ⟨n, hn⟩ := (hat (b - (lower D sub).length)).2 ⟨h2, by omega, by omega⟩
      have e := ((found_iff D s sub hs start stop _ n).1 hn).1
      exact ⟨_, n, by omega, hn⟩
    · rintro ⟨p, n, hp, hf⟩
      obtain ⟨h1, h2, h3⟩ := (hat p).1 ⟨n, hf⟩
      have e := ((found_iff D s sub hs start stop p n).1 hf).1
      have e2 : b - (lower D sub).length = p := by omega
      rw [e2]
      exact ⟨by omega, h1⟩

/-- **C123, partial**: `count` gives the largest number of such pieces, of which no two overlap. -/
theorem unicode_count_partial (D : Database) (s sub : Str) (hs : Simple D s) (start stop : Option Int) (hne : ¬ SameText D [] sub) :
    (∃ ps : List (Nat × Nat), ps.length = count D s sub start stop ∧
      (∀ p ∈ ps, Found D s sub start stop p.1 p.2) ∧ ps.Pairwise (fun p q => p.1 + p.2 ≤ q.1)) ∧
    (∀ ps : List (Nat × Nat), (∀ p ∈ ps, Found D s sub start stop p.1 p.2) → ps.Pairwise (fun p q => p.1 + p.2 ≤ q.1) →
      ps.length ≤ count D s sub start stop) := by
  have hpos : 0 < (lower D sub).length := by
    rw [List.length_pos_iff]
    intro e
    exact hne ((sameText_iff D _ _).2 (by rw [e]; rfl))
  have hlen : (lower D s).length = s.length := by rw [lower_simple D s hs, List.length_map]
  have hat := at_iff D s sub hs start stop
  have hfo := fun p n => found_iff D s sub hs start stop p n
  have hmk : ∀ p, (∃ n, Found D s sub start stop p n) → Found D s sub start stop p (lower D sub).length := by
    rintro p ⟨n, h⟩
    rw [← ((hfo p n).1 h).1]; exact h
  unfold count strCount
  rw [hlen]
  generalize hab : adjustIndices s.length start stop = ab at hat ⊢
  obtain ⟨a, b⟩ := ab
  simp only at hat ⊢
  have hc := candidates_iff (lower D sub).length a b
  constructor
  · obtain ⟨ps, h1, h2, h3⟩ := scanCount_achieved (lower D s) (lower D sub) hpos (candidates (lower D sub).length a b) 0 a
    refine ⟨ps.map fun p => (p, (lower D sub).length), by rw [List.length_map, h1], ?_, ?_⟩
    · intro p hp
      obtain ⟨p, hq, rfl⟩ := List.mem_map.1 hp
      obtain ⟨h4, h5, h6⟩ := h2 p hq
      exact hmk p ((hat p).2 ⟨h6, (hc p).1 ⟨by omega, h5⟩⟩)
    · exact List.pairwise_map.2 h3
  · intro ps h hp
    rw [← List.length_map (f := Prod.fst)]
    apply scanCount_optimal (lower D s) (lower D sub) hpos
    · intro p hm
      obtain ⟨⟨p, n⟩, hq, rfl⟩ := List.mem_map.1 hm
      obtain ⟨h1, h2⟩ := (hat p).1 ⟨n, h (p, n) hq⟩
      have := (hc p).2 h2
      exact ⟨by omega, this.2, h1⟩
    · rw [List.pairwise_map]
      refine hp.imp_of_mem fun {p q} hp' _ hpq => ?_
      rw [← ((hfo p.1 p.2).1 (h p hp')).1]
      exact hpq

/-- **C123, partial**: what is empty is counted once before every character of the window and once at its end. -/
theorem unicode_count_empty_partial (D : Database) (s sub : Str) (hs : Simple D s) (start stop : Option Int) (he : SameText D [] sub) :
    (count D s sub start stop : Int) = max 0 (windowStop s.length stop - windowStart s.length start + 1) := by
  have hlen : (lower D s).length = s.length := by rw [lower_simple D s hs, List.length_map]
  have : lower D sub = [] := ((sameText_iff D _ _).1 he).symm
  unfold count strCount
  simp only [this, scanCount_empty, hlen, List.length_nil]
  unfold adjustIndices windowStart windowStop candidates
  cases start <;> cases stop <;> simp only <;> (repeat' split) <;> omega

theorem pieces_plain (D : Database) (before s : Str) (h : 0x3A3 ∉ s) : (pieces D before s).flatten = s.flatMap D.toLower := by
  induction s generalizing before with
  | nil => rfl
  | cons c s ih =>
    simp only [List.mem_cons, not_or] at h
    rw [pieces, List.flatten_cons, ih _ h.2, lowerOne, if_neg (Ne.symm h.1), List.flatMap_cons]

theorem matchAt_append (x y z : Str) : matchAt (x ++ y ++ z) y x.length = true := by
  unfold matchAt
  rw [List.append_assoc, List.drop_left, List.take_left]
  exact beq_self_eq_true y

/-- **C123**: in any text without a capital sigma, whatever becomes of its characters, every piece is found. -/
theorem unicode_contains_all (D : Database) (x y z sub : Str) (h : 0x3A3 ∉ x ++ y ++ z) (hy : SameText D y sub) :
    contains D (x ++ y ++ z) sub = true := by
  simp only [List.mem_append, not_or] at h
  have e : lower D (x ++ y ++ z) = lower D x ++ lower D y ++ lower D z := by
    unfold lower
    rw [pieces_plain D [] _ (by simp [h.1, h.2]), pieces_plain D [] x h.1.1, pieces_plain D [] y h.1.2, pieces_plain D [] z h.2]
    simp
  rw [sameText_iff] at hy
  unfold contains strContains strFind
  rw [e, ← hy]
  have hm := matchAt_append (lower D x) (lower D y) (lower D z)
  generalize lower D x = x' at hm ⊢
  generalize lower D y = y' at hm ⊢
  generalize lower D z = z' at hm ⊢
  have hc := candidates_iff y'.length 0 (x' ++ y' ++ z').length x'.length
  have : adjustIndices (x' ++ y' ++ z').length none none = (0, (x' ++ y' ++ z').length) := by simp [adjustIndices]; omega
  rw [this]
  simp only [bne_iff_ne]
  have hr := hc.2 ⟨Nat.zero_le _, by simp⟩
  rcases scanUp_spec (x' ++ y' ++ z') y' (candidates y'.length 0 (x' ++ y' ++ z').length) 0 with ⟨h1, h2⟩ | ⟨p, h1, -⟩
  · rw [h2 _ hr.1 hr.2] at hm; cases hm
  · rw [h1]; omega

/-! ## ASCII -/

/-- **C123.** On ASCII text, with a database that agrees with ASCII, all this is what C46, C47 and C104 are about. -/
theorem ascii_lower (D : Database) (hD : ∀ c, c < 128 → D.toLower c = [Caseless.lowerCp c]) (s : Str) (hs : ∀ c ∈ s, c < 128) :
    lower D s = Caseless.lower s ∧ Simple D s := by
  have h : Simple D s := fun c hc => ⟨fun e => by have := hs c hc; omega, _, hD c (hs c hc)⟩
  refine ⟨?_, h⟩
  rw [lower_simple D s h]
  exact List.map_congr_left fun c hc => by unfold one; rw [hD c (hs c hc)]; rfl

/-! ## Where it fails -/

/-- ASCII, the Greek capitals, and the capital I with a dot; the apostrophe and the soft hyphen are case-ignorable. -/
def sample : Database where
  toLower c := if 0x391 ≤ c ∧ c ≤ 0x3A9 then [c + 32] else if c = 0x130 then [0x69, 0x307] else [Caseless.lowerCp c]
  cased c := (65 ≤ c && c ≤ 90) || (97 ≤ c && c ≤ 122) || (0x391 ≤ c && c ≤ 0x3C9) || c == 0x130
  ignorable c := c == 39 || c == 0xAD || c == 0x307

/-- C123 is false of a capital sigma: `'ΑΣ'` does not end with `'Σ'`, nor contain it, and `'ΑΣΑ'` does not start with `'ΑΣ'`. -/
theorem sigma_fails :
    endswith sample [0x391, 0x3A3] (.one [0x3A3]) none none = false ∧ contains sample [0x391, 0x3A3] [0x3A3] = false ∧
    find sample [0x391, 0x3A3] [0x3A3] none none = -1 ∧
    startswith sample [0x391, 0x3A3, 0x391] (.one [0x391, 0x3A3]) none none = false ∧
    eq sample [0x3A3] [0x3A3] = true := by decide +kernel

/-- C123 is false of characters that become several: `'İx'.find('x')` is not where the `x` is, and `'i'` is found in `'İ'`, of which
no piece is an `i`. -/
theorem length_fails :
    find sample [0x130, 120] [120] none none = 2 ∧ contains sample [0x130] [0x69] = true ∧
    eq sample [] [0x69] = false ∧ eq sample [0x130] [0x69] = false := by decide +kernel

/-! ## Concrete cases -/

/-- `'ΟΔΥΣΣΕΥΣ'` in lower case is `'οδυσσευς'`; followed by an apostrophe it is the same, followed by `'S` it is not. -/
example :
    lower sample [0x39F, 0x394, 0x3A5, 0x3A3, 0x3A3, 0x395, 0x3A5, 0x3A3] =
      [0x3BF, 0x3B4, 0x3C5, 0x3C3, 0x3C3, 0x3B5, 0x3C5, 0x3C2] ∧
    lower sample [0x391, 39, 0x3A3, 39] = [0x3B1, 39, 0x3C2, 39] ∧ lower sample [0x391, 39, 0x3A3, 39, 83] = [0x3B1, 39, 0x3C3, 39, 115] ∧
    lower sample [39, 0x3A3] = [39, 0x3C3] := by decide +kernel

/-- `'ΔΕΛΤΑ δ'` is simple text; `'Δ'` is in it twice; the last one is at 6. -/
example : Simple sample [0x394, 0x395, 0x39B, 0x3A4, 0x391, 32, 0x3B4] ∧
    count sample [0x394, 0x395, 0x39B, 0x3A4, 0x391, 32, 0x3B4] [0x394] none none = 2 ∧
    rfind sample [0x394, 0x395, 0x39B, 0x3A4, 0x391, 32, 0x3B4] [0x394] none none = 6 ∧
    find sample [0x394, 0x395, 0x39B, 0x3A4, 0x391, 32, 0x3B4] [0x3BB, 0x3C4] (some 1) none = 2 ∧
    startswith sample [0x394, 0x395] (.tuple [[0x3B5], [0x3B4]]) none none = true := by
  refine ⟨?_, by decide +kernel⟩
  intro c hc
  simp only [List.mem_cons, List.not_mem_nil, or_false] at hc
  rcases hc with rfl | rfl | rfl | rfl | rfl | rfl | rfl <;> exact ⟨by decide, _, rfl⟩

/-- The hypotheses of `lower_settled` hold of the sample. -/
example : (∀ c, ∀ x ∈ sample.toLower c, x ≠ 0x3A3 ∧ sample.toLower x = [x]) ∧ sample.toLower 0x3C2 = [0x3C2] ∧
    sample.toLower 0x3C3 = [0x3C3] := by
  refine ⟨fun c x hx => ?_, rfl, rfl⟩
  unfold sample at hx ⊢
  simp only at hx ⊢
  split at hx
  · rw [List.mem_singleton.1 hx, Caseless.lowerCp]
    refine ⟨by omega, ?_⟩
    rw [if_neg (by omega), if_neg (by omega), if_neg (by omega)]
  · split at hx
    · simp only [List.mem_cons, List.not_mem_nil, or_false] at hx
      rcases hx with rfl | rfl <;> exact ⟨by decide, by decide⟩
    · rw [List.mem_singleton.1 hx]
      have h : ∀ x, x = Caseless.lowerCp c → x ≠ 0x3A3 ∧ (if 0x391 ≤ x ∧ x ≤ 0x3A9 then [x + 32] else if x = 0x130 then [0x69, 0x307]
          else [Caseless.lowerCp x]) = [x] := by
        rintro x rfl
        unfold Caseless.lowerCp
        split
        · refine ⟨by omega, ?_⟩
          rw [if_neg (by omega), if_neg (by omega), if_neg (by omega)]
        · refine ⟨by omega, ?_⟩
          repeat' split
          all_goals first | rfl | omega
      exact h _ rfl

end Verif.CaselessUnicode
