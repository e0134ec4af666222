import Verif.Py.Literal
import Mathlib.Tactic.IntervalCases
/-!
# Lemmas: `ast.literal_eval` reads what `repr` wrote
-/
namespace Verif.Py.Literal
open Verif.Py

/-! ## Strings -/

theorem hexVal_digitChar (d : Nat) (h : d < 16) : hexVal (digitChar d) = some d := by
  have : ∀ d < 16, hexVal (digitChar d) = some d := by decide
  exact this d h

theorem hexRead_hexPad (w n a : Nat) (rest : List Nat) : hexRead w a (hexPad w n ++ rest) = some (a * 16 ^ w + n % 16 ^ w) := by
  induction w generalizing a with
  | zero => simp [hexRead, Nat.mod_one]
  | succ w ih =>
    rw [hexPad, List.cons_append, hexRead, hexVal_digitChar _ (Nat.mod_lt _ (by decide))]
    simp only [ih]
    have h : n % 16 ^ (w + 1) = 16 ^ w * (n / 16 ^ w % 16) + n % 16 ^ w := by
      rw [Nat.pow_succ, Nat.mod_mul, Nat.add_comm]
    rw [h, Nat.pow_succ]
    congr 1
    ring

theorem hexPad_length (w n : Nat) : (hexPad w n).length = w := by
  induction w with
  | zero => rfl
  | succ w ih => simp [hexPad, ih]

theorem readChars_skip (b : Bool) (q k : Nat) (s : List Nat) : readChars b q k s = readChars b q 0 (s.drop k) := by
  induction s generalizing k with
  | nil => cases k <;> simp [readChars]
  | cons c s ih =>
    cases k with
    | zero => rfl
    | succ k => rw [readChars, ih, List.drop_succ_cons]

/-- An escape in front of other text. -/
theorem readChars_escape {b : Bool} {q : Nat} (hq : q = 39 ∨ q = 34) {e : List Nat} {c : List Nat} (rest : List Nat)
    (h : escape b (e ++ rest) = some (c, e.length)) :
    readChars b q 0 (92 :: (e ++ rest)) = (readChars b q 0 rest).map fun x => (c ++ x.1, x.2) := by
  rw [readChars, if_neg (by omega), if_neg (by omega), if_neg (by omega), if_pos rfl, h]
  simp only
  rw [readChars_skip, List.drop_left]

theorem readChars_plain {b : Bool} {q c : Nat} (rest : List Nat) (h1 : c ≠ q) (h2 : c ≠ 92) (h3 : 32 ≤ c)
    (h4 : b = true → c < 128) :
    readChars b q 0 (c :: rest) = (readChars b q 0 rest).map fun x => (c :: x.1, x.2) := by
  rw [readChars, if_neg h1, if_neg (by omega), if_neg (by rintro ⟨h, h'⟩; have := h4 h; omega), if_neg h2]

theorem readChars_hex {b : Bool} {q : Nat} (hq : q = 39 ∨ q = 34) (c : Nat) (hc : c < 256) (rest : List Nat) :
    readChars b q 0 ([92, 120] ++ hexPad 2 c ++ rest) = (readChars b q 0 rest).map fun x => (c :: x.1, x.2) := by
  have h := readChars_escape (b := b) hq (e := 120 :: hexPad 2 c) (c := [c]) rest (by
    rw [List.cons_append, escape]
    simp only [show (120 : Nat) ≠ 10 by decide, if_false]
    norm_num
    rw [hexRead_hexPad]
    simp [hexPad_length, Nat.mod_eq_of_lt hc])
  simpa using h

theorem readChar {printable : Nat → Bool} {q c : Nat} (hq : q = 39 ∨ q = 34) (hc : c < 1114112) (rest : List Nat) :
    readChars false q 0 (reprChar printable q c ++ rest) = (readChars false q 0 rest).map fun x => (c :: x.1, x.2) := by
  have simple : ∀ (e : Nat), escape false (e :: rest) = some ([c], 1) →
      readChars false q 0 ([92, e] ++ rest) = (readChars false q 0 rest).map fun x => (c :: x.1, x.2) := fun e he =>
    readChars_escape (b := false) hq (e := [e]) (c := [c]) rest he
  unfold reprChar
  split
  · rename_i h
    refine simple c ?_
    rw [escape, if_neg (by omega), if_pos (by omega)]
  rename_i h0
  split
  · rename_i h; subst h; exact simple 116 rfl
  split
  · rename_i h; subst h; exact simple 110 rfl
  split
  · rename_i h; subst h; exact simple 114 rfl
  split
  · exact readChars_hex hq c (by omega) rest
  split
  · exact readChars_plain rest (by omega) (by omega) (by omega) (by simp)
  split
  · exact readChars_hex hq c (by omega) rest
  split
  · have h := readChars_escape (b := false) hq (e := 117 :: hexPad 4 c) (c := [c]) rest (by
      rw [List.cons_append, escape]
      norm_num
      rw [hexRead_hexPad]
      have : c % 16 ^ 4 = c := Nat.mod_eq_of_lt (by omega)
      simp only [hexPad_length, Nat.zero_mul, Nat.zero_add, this]
      simp)
    simpa using h
  · have h := readChars_escape (b := false) hq (e := 85 :: hexPad 8 c) (c := [c]) rest (by
      rw [List.cons_append, escape]
      norm_num
      rw [hexRead_hexPad]
      have : c % 16 ^ 8 = c := Nat.mod_eq_of_lt (by omega)
      simp only [hexPad_length, Nat.zero_mul, Nat.zero_add, this]
      rw [if_pos hc])
    simpa using h

theorem readByte {q c : Nat} (hq : q = 39 ∨ q = 34) (hc : c < 256) (rest : List Nat) :
    readChars true q 0 (reprByte q c ++ rest) = (readChars true q 0 rest).map fun x => (c :: x.1, x.2) := by
  have simple : ∀ (e : Nat), escape true (e :: rest) = some ([c], 1) →
      readChars true q 0 ([92, e] ++ rest) = (readChars true q 0 rest).map fun x => (c :: x.1, x.2) := fun e he =>
    readChars_escape (b := true) hq (e := [e]) (c := [c]) rest he
  unfold reprByte
  split
  · rename_i h
    refine simple c ?_
    rw [escape, if_neg (by omega), if_pos (by omega)]
  rename_i h0
  split
  · rename_i h; subst h; exact simple 116 rfl
  split
  · rename_i h; subst h; exact simple 110 rfl
  split
  · rename_i h; subst h; exact simple 114 rfl
  split
  · exact readChars_hex hq c (by omega) rest
  · exact readChars_plain rest (by omega) (by omega) (by omega) (by omega)

theorem readAll {b : Bool} {q : Nat} {f : Nat → List Nat} (s : List Nat)
    (h : ∀ c ∈ s, ∀ rest, readChars b q 0 (f c ++ rest) = (readChars b q 0 rest).map fun x => (c :: x.1, x.2))
    (rest : List Nat) : readChars b q 0 (s.flatMap f ++ q :: rest) = some (s, rest) := by
  induction s with
  | nil => simp [readChars]
  | cons c s ih =>
    rw [List.flatMap_cons, List.append_assoc, h c (by simp), ih fun c hc => h c (by simp [hc])]
    rfl

theorem quoteOf_quote (s : List Nat) : quoteOf s = 39 ∨ quoteOf s = 34 := by
  unfold quoteOf; split <;> simp

theorem readStr (printable : Nat → Bool) (s : List Nat) (h : ∀ c ∈ s, c < 1114112) (rest : List Nat) :
    readChars false (quoteOf s) 0 (s.flatMap (reprChar printable (quoteOf s)) ++ quoteOf s :: rest) = some (s, rest) :=
  readAll s (fun c hc rest => readChar (quoteOf_quote s) (h c hc) rest) rest

theorem readBytes (s : List Nat) (h : ∀ c ∈ s, c < 256) (rest : List Nat) :
    readChars true (quoteOf s) 0 (s.flatMap (reprByte (quoteOf s)) ++ quoteOf s :: rest) = some (s, rest) :=
  readAll s (fun c hc rest => readByte (quoteOf_quote s) (h c hc) rest) rest

/-! ## Words -/

/-- Nothing, or a delimiter. -/
def Ends (rest : List Nat) : Prop := ∀ c t, rest = c :: t → isDelim c = true

theorem readWord_ends (f : List Nat → Option Val) (w rest : List Nat) (hw : ∀ c ∈ w, isDelim c = false) (hr : Ends rest) :
    readWord f (w ++ rest) = (f w).map fun v => (v, rest) := by
  have h1 : (w ++ rest).takeWhile (fun c => !isDelim c) = w := by
    rw [List.takeWhile_append_of_pos (by simpa using hw)]
    cases rest with
    | nil => simp
    | cons c t => simp [hr c t rfl]
  have h2 : (w ++ rest).dropWhile (fun c => !isDelim c) = rest := by
    rw [List.dropWhile_append_of_pos (by simpa using hw)]
    cases rest with
    | nil => simp
    | cons c t => simp [hr c t rfl]
  unfold readWord
  rw [h1, h2]

theorem isDigit_isDelim {c : Nat} (h : isDigit c = true) : isDelim c = false := by
  simp only [isDigit, Bool.and_eq_true, decide_eq_true_eq] at h
  have : ∀ c ≤ 57, 48 ≤ c → isDelim c = false := by decide
  exact this c h.2 h.1

theorem digitsAux_head (fuel n : Nat) (h : n ≤ fuel) (h0 : 0 < n) : ∃ d t, digitsAux 10 fuel n = d :: t ∧ 0 < d := by
  induction fuel generalizing n with
  | zero => omega
  | succ fuel ih =>
    rw [digitsAux, if_neg (by omega)]
    by_cases h1 : n / 10 = 0
    · have : digitsAux 10 fuel (n / 10) = [] := by
        rw [h1]; cases fuel <;> rfl
      rw [this]
      exact ⟨n % 10, [], rfl, by omega⟩
    · obtain ⟨d, t, e, hd⟩ := ih (n / 10) (by omega) (by omega)
      rw [e]
      exact ⟨d, t ++ [n % 10], rfl, hd⟩

theorem natStr_head (n : Nat) (h : 0 < n) : ∃ c t, natStr n = c :: t ∧ c ≠ 48 := by
  obtain ⟨d, t, e, hd⟩ := digitsAux_head n n (le_refl n) h
  refine ⟨digitChar d, t.map digitChar, ?_, ?_⟩
  · unfold natStr digits
    rw [if_neg (by omega), e, List.map_cons]
  · unfold digitChar
    split <;> omega

theorem numberOf_natStr (n : Nat) : numberOf (natStr n) = some (.int n) := by
  rcases Nat.eq_zero_or_pos n with rfl | hn
  · rfl
  · obtain ⟨c, t, e, hc⟩ := natStr_head n hn
    have hall : (natStr n).all isDigit = true := List.all_eq_true.2 (natStr_isDigit n)
    have hv := digitsVal_natStr n
    unfold numberOf
    rw [e] at hall hv ⊢
    simp only [hall, if_true, hc, false_and, if_false, hv]

theorem formatDigits_point (limit : Int) (d : List Nat) (decpt : Int) :
    46 ∈ formatDigits limit d decpt ∨ 101 ∈ formatDigits limit d decpt := by
  unfold formatDigits
  split
  · right; simp
  split
  · left; simp
  split
  · left; simp
  · left; simp

theorem numeralChar_delim {c : Nat} (h : numeralChar c) : isDelim c = false := by
  rcases h with h | rfl | rfl | rfl | rfl
  · exact isDigit_isDelim h
  all_goals rfl

/-- What `repr` of a finite float consists of: a sign, and a word that is its magnitude. -/
theorem floatStr_word (neg : Bool) (q : Rat) (h : (PyFloat.fin neg q).Valid) :
    ∃ s, floatStr (.fin neg q) = (if neg then [45] else []) ++ s ∧ (∀ c ∈ s, isDelim c = false) ∧
      (∃ c r, s = c :: r ∧ isDigit c = true) ∧ numberOf s = some (.float (.fin false q)) := by
  obtain ⟨s, h1, h2, h3, -⟩ := floatStr_fin neg q h
  refine ⟨s, h1, fun c hc => numeralChar_delim (h2 c hc), h3, ?_⟩
  have hs : floatStr (.fin false q) = s := by
    have e : floatStr (.fin neg q) = (if neg then [45] else []) ++ floatStr (.fin false q) := by
      simp only [floatStr]
      rfl
    rw [e] at h1
    exact List.append_cancel_left h1
  have hp : 46 ∈ s ∨ 101 ∈ s := by
    rw [← hs]
    simp only [floatStr, Bool.false_eq_true, if_false, List.nil_append]
    split
    · left; simp
    · exact formatDigits_point _ _ _
  have hf : asciiFloat s = some (.fin false q) := by
    rw [← hs]; exact asciiFloat_floatStr _ h
  obtain ⟨c, r, e, hc⟩ := h3
  have hall : s.all isDigit = false := by
    rw [Bool.eq_false_iff]
    intro hall
    rw [List.all_eq_true] at hall
    rcases hp with hp | hp
    · exact absurd (hall _ hp) (by decide)
    · exact absurd (hall _ hp) (by decide)
  have hany : s.any (fun d => d == 46 || d == 101 || d == 69) = true := by
    rw [List.any_eq_true]
    rcases hp with hp | hp
    · exact ⟨_, hp, rfl⟩
    · exact ⟨_, hp, rfl⟩
  unfold numberOf
  rw [e] at hall hany hf ⊢
  simp only [hall, hc, hany, hf, Bool.true_or, Bool.and_true, Bool.false_eq_true, if_false, if_true]
  rfl

/-! ## Trees -/

mutual
/-- How deep the brackets are. -/
def depth : Val → Nat
  | .tuple l => depths l + 1
  | .list l => depths l + 1
  | .dict l => depthPairs l + 1
  | _ => 0

def depths : List Val → Nat
  | [] => 0
  | v :: l => max (depth v) (depths l)

def depthPairs : List (Val × Val) → Nat
  | [] => 0
  | kv :: l => max (depthPair kv) (depthPairs l)

def depthPair : Val × Val → Nat
  | (k, v) => max (depth k) (depth v)
end

/-- Data as they are in a Python program: characters are characters, bytes are bytes, the keys of a dictionary can be hashed and
are not equal to each other; floats are finite. -/
inductive Plain : Val → Prop
  | none : Plain .none
  | bool (b : Bool) : Plain (.bool b)
  | int (n : Int) : Plain (.int n)
  | float (neg : Bool) (q : Rat) : (PyFloat.fin neg q).Valid → Plain (.float (.fin neg q))
  | str (s : List Nat) : (∀ c ∈ s, c < 1114112) → Plain (.str s)
  | bytes (s : List Nat) : (∀ c ∈ s, c < 256) → Plain (.bytes s)
  | tuple (l : List Val) : (∀ v ∈ l, Plain v) → Plain (.tuple l)
  | list (l : List Val) : (∀ v ∈ l, Plain v) → Plain (.list l)
  | dict (l : List (Val × Val)) : (∀ kv ∈ l, Plain kv.1) → (∀ kv ∈ l, Plain kv.2) → (∀ kv ∈ l, hashable kv.1 = true) →
      l.Pairwise (fun a b => keyEq a.1 b.1 = false) → Plain (.dict l)

/-- What is read of the text of a value, inside `level` brackets. -/
def Reads (printable : Nat → Bool) (v : Val) : Prop :=
  ∀ level fuel rest, Ends rest → level ≤ maxLevel → (repr printable v).length < fuel →
    readVal fuel level (repr printable v ++ rest) = if level + depth v ≤ maxLevel then some (v, rest) else none

theorem skipSpace_cons {c : Nat} (t : List Nat) (h : c ≠ 32 ∧ c ≠ 9 ∧ c ≠ 12) : skipSpace (c :: t) = c :: t := by
  unfold skipSpace
  rw [List.dropWhile_cons_of_neg]
  simp [h.1, h.2.1, h.2.2]

theorem skipSpace_space (s : List Nat) : skipSpace (32 :: s) = skipSpace s := by
  simp [skipSpace]

theorem readVal_space (fuel level : Nat) (s : List Nat) : readVal fuel level (32 :: s) = readVal fuel level s := by
  cases fuel with
  | zero => rw [readVal, readVal]
  | succ fuel => rw [readVal, readVal, skipSpace_space]

theorem readItems_space (fuel level close : Nat) (s : List Nat) :
    readItems fuel level close (32 :: s) = readItems fuel level close s := by
  cases fuel with
  | zero => rw [readItems, readItems]
  | succ fuel => rw [readItems, readItems, skipSpace_space, readVal_space]

theorem readPairs_space (fuel level : Nat) (s : List Nat) :
    readPairs fuel level (32 :: s) = readPairs fuel level s := by
  cases fuel with
  | zero => rw [readPairs, readPairs]
  | succ fuel => rw [readPairs, readPairs, skipSpace_space, readVal_space]

/-- The text of a value begins with something else than a delimiter. -/
theorem repr_head (printable : Nat → Bool) {v : Val} (h : Plain v) :
    ∃ c t, repr printable v = c :: t ∧ isDelim c = false := by
  cases h with
  | none => exact ⟨_, _, rfl, rfl⟩
  | bool b => cases b <;> exact ⟨_, _, rfl, rfl⟩
  | int n =>
    rw [repr, intStr]
    split
    · exact ⟨_, _, rfl, rfl⟩
    · obtain ⟨c, t, e⟩ := List.exists_cons_of_ne_nil (natStr_ne_nil n.natAbs)
      exact ⟨c, t, e, isDigit_isDelim (natStr_isDigit n.natAbs c (by rw [e]; simp))⟩
  | float neg q hq =>
    obtain ⟨s, h1, h2, ⟨c, r, rfl, hc⟩, -⟩ := floatStr_word neg q hq
    rw [repr, h1]
    cases neg with
    | true => exact ⟨_, _, rfl, rfl⟩
    | false => exact ⟨c, r, rfl, isDigit_isDelim hc⟩
  | str s hs =>
    refine ⟨quoteOf s, s.flatMap (reprChar printable (quoteOf s)) ++ [quoteOf s], by rw [repr]; rfl, ?_⟩
    rcases quoteOf_quote s with h | h <;> rw [h] <;> rfl
  | bytes s hs => exact ⟨98, _, by rw [repr]; rfl, rfl⟩
  | tuple l hl => exact ⟨40, _, by rw [repr]; rfl, rfl⟩
  | list l hl => exact ⟨91, _, by rw [repr]; rfl, rfl⟩
  | dict l _ _ _ _ => exact ⟨123, _, by rw [repr]; rfl, rfl⟩

theorem not_delim {c : Nat} (h : isDelim c = false) :
    c ≠ 44 ∧ c ≠ 41 ∧ c ≠ 93 ∧ c ≠ 125 ∧ c ≠ 58 ∧ c ≠ 32 ∧ c ≠ 9 ∧ c ≠ 12 := by
  simp only [isDelim, Bool.or_eq_false_iff, beq_eq_false_iff_ne] at h
  tauto

theorem ends_cons {c : Nat} (t : List Nat) (h : isDelim c = true) : Ends (c :: t) := by
  intro c' t' e
  cases e
  exact h

/-- Reading a value and a delimiter that is not white space. -/
theorem reads_items (printable : Nat → Bool) (l : List Val) (hp : ∀ v ∈ l, Plain v) (h : ∀ v ∈ l, Reads printable v)
    (level fuel close : Nat) (rest : List Nat) (hc : close = 41 ∨ close = 93) (hl : level ≤ maxLevel)
    (hf : (reprItems printable l).length + 1 < fuel) :
    readItems fuel level close (reprItems printable l ++ close :: rest) =
      if level + depths l ≤ maxLevel then some (l, l.isEmpty, rest) else none := by
  induction l generalizing fuel with
  | nil =>
    obtain ⟨f, rfl⟩ : ∃ f, fuel = f + 1 := ⟨fuel - 1, by omega⟩
    rw [reprItems, List.nil_append, readItems, skipSpace_cons _ (by omega)]
    simp [depths, hl]
  | cons v l ih =>
    obtain ⟨f, rfl⟩ : ∃ f, fuel = f + 1 := ⟨fuel - 1, by omega⟩
    obtain ⟨c, t, e, hd⟩ := repr_head printable (hp v (by simp))
    have hd := not_delim hd
    rw [reprItems] at hf ⊢
    rw [readItems]
    have hhead : (skipSpace (repr printable v ++ (if l.isEmpty then [] else [44, 32]) ++ reprItems printable l ++ close :: rest)).head? ≠
        some close := by
      rw [e]
      simp only [List.cons_append]
      rw [skipSpace_cons _ (by omega)]
      simp only [List.head?_cons, ne_eq, Option.some.injEq]
      omega
    rw [if_neg hhead]
    cases l with
    | nil =>
      simp only [List.isEmpty_nil, if_true, List.append_nil, reprItems] at hf ⊢
      rw [h v (by simp) level f (close :: rest) (ends_cons _ (by rcases hc with rfl | rfl <;> rfl)) hl (by omega)]
      simp only [depths, Nat.max_zero]
      by_cases hv : level + depth v ≤ maxLevel
      · rw [if_pos hv, if_pos hv]
        simp only
        rw [skipSpace_cons _ (by omega)]
        simp
      · rw [if_neg hv, if_neg hv]
    | cons w l =>
      simp only [List.isEmpty_cons, Bool.false_eq_true, if_false, List.append_assoc] at hf ⊢
      simp only [List.length_append, List.length_cons, List.length_nil] at hf
      rw [h v (by simp) level f _ (by exact ends_cons _ rfl) hl (by omega)]
      have ih := ih (fun v hv => hp v (by simp [hv])) (fun v hv => h v (by simp [hv])) f (by omega)
      rw [depths]
      by_cases hv : level + depth v ≤ maxLevel
      · rw [if_pos hv]
        simp only [List.cons_append, List.nil_append]
        rw [skipSpace_cons _ (by decide)]
        simp only
        rw [if_neg (by omega), if_pos trivial, readItems_space, ih]
        by_cases hw : level + depths (w :: l) ≤ maxLevel
        · rw [if_pos hw, if_pos (by omega)]; rfl
        · rw [if_neg hw, if_neg (by omega)]; rfl
      · rw [if_neg hv, if_neg (by omega)]

theorem reads_single (printable : Nat → Bool) (v : Val) (hp : Plain v) (h : Reads printable v) (level fuel : Nat)
    (rest : List Nat) (hl : level ≤ maxLevel) (hf : (repr printable v).length + 1 < fuel) :
    readItems fuel level 41 (repr printable v ++ 44 :: 41 :: rest) =
      if level + depth v ≤ maxLevel then some ([v], true, rest) else none := by
  obtain ⟨f, rfl⟩ : ∃ f, fuel = f + 1 := ⟨fuel - 1, by omega⟩
  obtain ⟨c, t, e, hd⟩ := repr_head printable hp
  have hd := not_delim hd
  rw [readItems]
  have hhead : (skipSpace (repr printable v ++ 44 :: 41 :: rest)).head? ≠ some 41 := by
    rw [e, List.cons_append, skipSpace_cons _ (by omega)]
    simp only [List.head?_cons, ne_eq, Option.some.injEq]
    omega
  rw [if_neg hhead, h level f _ (by exact ends_cons _ rfl) hl (by omega)]
  by_cases hv : level + depth v ≤ maxLevel
  · rw [if_pos hv, if_pos hv]
    simp only
    rw [skipSpace_cons _ (by decide)]
    simp only
    obtain ⟨g, rfl⟩ : ∃ g, f = g + 1 := ⟨f - 1, by omega⟩
    rw [if_neg (by decide), if_pos trivial, readItems, skipSpace_cons _ (by decide)]
    simp
  · rw [if_neg hv, if_neg hv]

theorem reads_pairs (printable : Nat → Bool) (l : List (Val × Val)) (hk : ∀ kv ∈ l, Plain kv.1) (hv : ∀ kv ∈ l, Plain kv.2)
    (h1 : ∀ kv ∈ l, Reads printable kv.1) (h2 : ∀ kv ∈ l, Reads printable kv.2) (level fuel : Nat) (rest : List Nat)
    (hl : level ≤ maxLevel) (hf : (reprPairs printable l).length + 1 < fuel) :
    readPairs fuel level (reprPairs printable l ++ 125 :: rest) =
      if level + depthPairs l ≤ maxLevel then some (l, rest) else none := by
  induction l generalizing fuel with
  | nil =>
    obtain ⟨f, rfl⟩ : ∃ f, fuel = f + 1 := ⟨fuel - 1, by omega⟩
    rw [reprPairs, List.nil_append, readPairs, skipSpace_cons _ (by omega)]
    simp [depthPairs, hl]
  | cons kv l ih =>
    obtain ⟨k, v⟩ := kv
    obtain ⟨f, rfl⟩ : ∃ f, fuel = f + 1 := ⟨fuel - 1, by omega⟩
    obtain ⟨c, t, e, hd⟩ := repr_head printable (hk (k, v) (by simp))
    have hd := not_delim hd
    rw [reprPairs, reprPair] at hf ⊢
    rw [readPairs, depthPairs, depthPair]
    simp only at e
    simp only [List.append_assoc] at hf ⊢
    have hhead : ∀ x, (skipSpace (repr printable k ++ x)).head? ≠ some 125 := by
      intro x
      rw [e, List.cons_append, skipSpace_cons _ (by omega)]
      simp only [List.head?_cons, ne_eq, Option.some.injEq]
      omega
    rw [if_neg (hhead _)]
    simp only [List.length_append, List.length_cons, List.length_nil] at hf
    rw [h1 (k, v) (by simp) level f _ (by exact ends_cons _ rfl) hl (by simp only; omega)]
    simp only
    by_cases hkd : level + depth k ≤ maxLevel
    swap
    · rw [if_neg hkd, if_neg (by omega)]
    rw [if_pos hkd]
    simp only [List.cons_append, List.nil_append]
    rw [skipSpace_cons _ (by decide)]
    simp only
    rw [if_pos trivial, readVal_space]
    cases l with
    | nil =>
      simp only [List.isEmpty_nil, if_true, List.nil_append, reprPairs, List.length_nil] at hf ⊢
      rw [h2 (k, v) (by simp) level f (125 :: rest) (ends_cons _ rfl) hl (by simp only; omega)]
      simp only [depthPairs, Nat.max_zero]
      by_cases hvd : level + depth v ≤ maxLevel
      · rw [if_pos hvd, if_pos (by omega)]
        simp only
        rw [skipSpace_cons _ (by decide)]
        simp
      · rw [if_neg hvd, if_neg (by omega)]
    | cons w l =>
      simp only [List.isEmpty_cons, Bool.false_eq_true, if_false, List.length_cons, List.length_nil] at hf ⊢
      simp only [List.cons_append, List.nil_append]
      rw [h2 (k, v) (by simp) level f _ (by exact ends_cons _ rfl) hl (by simp only; omega)]
      simp only
      have ih := ih (fun x hx => hk x (by simp [hx])) (fun x hx => hv x (by simp [hx])) (fun x hx => h1 x (by simp [hx]))
        (fun x hx => h2 x (by simp [hx])) f (by omega)
      by_cases hvd : level + depth v ≤ maxLevel
      · rw [if_pos hvd]
        simp only
        rw [skipSpace_cons _ (by decide)]
        simp only
        rw [if_neg (by decide), if_pos trivial, readPairs_space, ih]
        by_cases hw : level + depthPairs (w :: l) ≤ maxLevel
        · rw [if_pos hw, if_pos (by omega)]; rfl
        · rw [if_neg hw, if_neg (by omega)]; rfl
      · rw [if_neg hvd, if_neg (by omega)]

theorem put_new (k v : Val) (d : List (Val × Val)) (h : ∀ kv ∈ d, keyEq kv.1 k = false) : put k v d = d ++ [(k, v)] := by
  induction d with
  | nil => rfl
  | cons x d ih =>
    rw [put, h x (by simp), ih fun y hy => h y (by simp [hy])]
    rfl

theorem build_new (l d : List (Val × Val)) (hh : ∀ kv ∈ l, hashable kv.1 = true)
    (hd : (d ++ l).Pairwise (fun a b => keyEq a.1 b.1 = false)) : build l d = some (d ++ l) := by
  induction l generalizing d with
  | nil => simp [build]
  | cons x l ih =>
    rw [build, if_pos (hh x (by simp)), put_new]
    · rw [ih _ (fun y hy => hh y (by simp [hy])) (by simpa using hd)]
      simp
    · intro y hy
      exact (List.pairwise_append.1 hd).2.2 y hy x (by simp)

theorem readVal_word (fuel level : Nat) (w rest : List Nat) (hw : ∀ c ∈ w, isDelim c = false)
    (hr : Ends rest) (hh : ∃ c t, w = c :: t ∧ c ≠ 40 ∧ c ≠ 91 ∧ c ≠ 123 ∧ c ≠ 39 ∧ c ≠ 34 ∧ c ≠ 98 ∧ c ≠ 45) :
    readVal (fuel + 1) level (w ++ rest) = (wordOf w).map fun v => (v, rest) := by
  obtain ⟨c, t, rfl, h1, h2, h3, h4, h5, h6, h7⟩ := hh
  have hd := not_delim (hw c (by simp))
  rw [← readWord_ends wordOf (c :: t) rest hw hr, List.cons_append, readVal, skipSpace_cons _ (by omega)]
  simp only [h1, h2, h3, h4, h5, h6, h7, if_false, false_and, or_self]

theorem readVal_minus (fuel level : Nat) (w rest : List Nat) (hw : ∀ c ∈ w, isDelim c = false)
    (hr : Ends rest) (hne : w ≠ []) :
    readVal (fuel + 1) level (45 :: w ++ rest) = ((numberOf w).bind negate).map fun v => (v, rest) := by
  rw [← readWord_ends (fun w => (numberOf w).bind negate) w rest hw hr, List.cons_append, readVal, skipSpace_cons _ (by decide)]
  obtain ⟨c, t, rfl⟩ := List.exists_cons_of_ne_nil hne
  have hd := not_delim (hw c (by simp))
  simp only [List.cons_append]
  rw [skipSpace_cons _ (by omega)]
  simp

theorem digit_ne {c : Nat} (h : isDigit c = true) : 48 ≤ c ∧ c ≤ 57 := by
  simpa [isDigit] using h

theorem wordOf_number {w : List Nat} (h : ∃ c t, w = c :: t ∧ isDigit c = true) : wordOf w = numberOf w := by
  obtain ⟨c, t, rfl, hc⟩ := h
  have := digit_ne hc
  unfold wordOf sNone sTrue sFalse
  rw [if_neg, if_neg, if_neg]
  all_goals
    intro e
    simp only [List.cons.injEq] at e
    omega

/-- Every value is read back, if the brackets are not too deep; otherwise reading fails. -/
theorem reads (printable : Nat → Bool) {v : Val} (h : Plain v) : Reads printable v := by
  induction h with
  | none =>
    intro level fuel rest hr hl hf
    obtain ⟨f, rfl⟩ : ∃ f, fuel = f + 1 := ⟨fuel - 1, by omega⟩
    rw [repr, readVal_word f level sNone rest (by decide) hr ⟨_, _, rfl, by decide⟩]
    simp [wordOf, depth, hl]
  | bool b =>
    intro level fuel rest hr hl hf
    obtain ⟨f, rfl⟩ : ∃ f, fuel = f + 1 := ⟨fuel - 1, by omega⟩
    cases b with
    | true =>
      rw [repr, if_pos rfl, readVal_word f level sTrue rest (by decide) hr ⟨_, _, rfl, by decide⟩]
      rw [show wordOf sTrue = some (.bool true) from rfl]
      simp [depth, hl]
    | false =>
      rw [repr, if_neg (by decide), readVal_word f level sFalse rest (by decide) hr ⟨_, _, rfl, by decide⟩]
      rw [show wordOf sFalse = some (.bool false) from rfl]
      simp [depth, hl]
  | int n =>
    intro level fuel rest hr hl hf
    obtain ⟨f, rfl⟩ : ∃ f, fuel = f + 1 := ⟨fuel - 1, by omega⟩
    have hd := natStr_isDigit n.natAbs
    have hw : ∀ c ∈ natStr n.natAbs, isDelim c = false := fun c hc => isDigit_isDelim (hd c hc)
    obtain ⟨c, t, e⟩ := List.exists_cons_of_ne_nil (natStr_ne_nil n.natAbs)
    have hc : isDigit c = true := hd c (by rw [e]; simp)
    rw [if_pos (by simpa [depth] using hl), repr, intStr]
    split
    · rename_i hn
      rw [readVal_minus f level _ rest hw hr (natStr_ne_nil _), numberOf_natStr]
      simp only [Option.bind_some, negate, Option.map_some, Option.some.injEq, Prod.mk.injEq, Val.int.injEq, and_true]
      omega
    · rename_i hn
      have := digit_ne hc
      rw [readVal_word f level _ rest hw hr ⟨c, t, e, by omega⟩, wordOf_number ⟨c, t, e, hc⟩, numberOf_natStr]
      simp only [Option.map_some, Option.some.injEq, Prod.mk.injEq, Val.int.injEq, and_true]
      omega
  | float neg q hq =>
    intro level fuel rest hr hl hf
    obtain ⟨f, rfl⟩ : ∃ f, fuel = f + 1 := ⟨fuel - 1, by omega⟩
    obtain ⟨s, h1, h2, ⟨c, r, e, hc⟩, h4⟩ := floatStr_word neg q hq
    rw [if_pos (by simpa [depth] using hl), repr, h1]
    · cases neg with
      | true =>
        rw [if_pos rfl, List.singleton_append, readVal_minus f level s rest h2 hr (by rw [e]; simp), h4]
        rfl
      | false =>
        have := digit_ne hc
        rw [if_neg (by decide), List.nil_append, readVal_word f level s rest h2 hr ⟨c, r, e, by omega⟩,
          wordOf_number ⟨c, r, e, hc⟩, h4]
        rfl
  | str s hs =>
    intro level fuel rest hr hl hf
    obtain ⟨f, rfl⟩ : ∃ f, fuel = f + 1 := ⟨fuel - 1, by omega⟩
    have hq := quoteOf_quote s
    have hread := readStr printable s hs rest
    rw [repr, reprStr, readVal, List.cons_append, List.cons_append, List.append_assoc, List.singleton_append,
      skipSpace_cons _ (by omega)]
    simp only
    rw [if_neg (by omega), if_neg (by omega), if_neg (by omega), if_pos hq, hread]
    simp [depth, hl]
  | bytes s hs =>
    intro level fuel rest hr hl hf
    obtain ⟨f, rfl⟩ : ∃ f, fuel = f + 1 := ⟨fuel - 1, by omega⟩
    have hq := quoteOf_quote s
    have hread := readBytes s hs rest
    rw [repr, reprBytes, readVal]
    simp only [List.cons_append, List.append_assoc, List.nil_append]
    rw [skipSpace_cons _ (by decide)]
    simp only
    rw [if_neg (by decide), if_neg (by decide), if_neg (by decide), if_neg (by decide),
      if_pos ⟨trivial, by rcases hq with h | h <;> simp [h]⟩]
    simp only [List.headD_cons, List.tail_cons, hread]
    simp [depth, hl]
  | tuple l hp ih =>
    intro level fuel rest hr hl hf
    obtain ⟨f, rfl⟩ : ∃ f, fuel = f + 1 := ⟨fuel - 1, by omega⟩
    rw [repr] at hf ⊢
    rw [readVal]
    simp only [List.cons_append, List.append_assoc]
    rw [skipSpace_cons _ (by decide)]
    simp only
    rw [if_pos trivial, depth]
    by_cases hml : maxLevel ≤ level
    · rw [if_pos hml, if_neg (by omega)]
    rw [if_neg hml]
    by_cases h1 : l.length = 1
    · obtain ⟨v, rfl⟩ := List.length_eq_one_iff.1 h1
      simp only [List.length_cons, List.length_nil, List.length_append, reprItems, List.isEmpty_nil, if_true,
        List.append_nil] at hf ⊢
      simp only [List.cons_append, List.nil_append]
      rw [reads_single printable v (hp v (by simp)) (ih v (by simp)) (level + 1) f rest (by omega) (by
        simp at hf; omega)]
      simp only [depths, Nat.max_zero]
      by_cases hd : level + 1 + depth v ≤ maxLevel
      · rw [if_pos hd, if_pos (by omega)]; rfl
      · rw [if_neg hd, if_neg (by omega)]; rfl
    · rw [if_neg h1] at hf ⊢
      simp only [List.length_cons, List.length_append, List.length_nil] at hf
      rw [List.singleton_append, reads_items printable l hp ih (level + 1) f 41 rest (Or.inl rfl) (by omega) (by omega)]
      by_cases hd : level + 1 + depths l ≤ maxLevel
      · rw [if_pos hd, if_pos (by omega)]
        match l, h1 with
        | [], _ => rfl
        | [_], h1 => exact absurd rfl h1
        | _ :: _ :: _, _ => rfl
      · rw [if_neg hd, if_neg (by omega)]; rfl
  | list l hp ih =>
    intro level fuel rest hr hl hf
    obtain ⟨f, rfl⟩ : ∃ f, fuel = f + 1 := ⟨fuel - 1, by omega⟩
    rw [repr] at hf ⊢
    rw [readVal]
    simp only [List.cons_append, List.append_assoc, List.nil_append, List.length_cons, List.length_append,
      List.length_nil] at hf ⊢
    rw [skipSpace_cons _ (by decide)]
    simp only
    rw [if_neg (by decide), if_pos trivial, depth]
    by_cases hml : maxLevel ≤ level
    · rw [if_pos hml, if_neg (by omega)]
    rw [if_neg hml, reads_items printable l hp ih (level + 1) f 93 rest (Or.inr rfl) (by omega) (by omega)]
    by_cases hd : level + 1 + depths l ≤ maxLevel
    · rw [if_pos hd, if_pos (by omega)]; rfl
    · rw [if_neg hd, if_neg (by omega)]; rfl
  | dict l hk hv hh hd ihk ihv =>
    intro level fuel rest hr hl hf
    obtain ⟨f, rfl⟩ : ∃ f, fuel = f + 1 := ⟨fuel - 1, by omega⟩
    rw [repr] at hf ⊢
    rw [readVal]
    simp only [List.cons_append, List.append_assoc, List.nil_append, List.length_cons, List.length_append,
      List.length_nil] at hf ⊢
    rw [skipSpace_cons _ (by decide)]
    simp only
    rw [if_neg (by decide), if_neg (by decide), if_pos trivial, depth]
    by_cases hml : maxLevel ≤ level
    · rw [if_pos hml, if_neg (by omega)]
    rw [if_neg hml, reads_pairs printable l hk hv ihk ihv (level + 1) f rest (by omega) (by omega)]
    by_cases hdd : level + 1 + depthPairs l ≤ maxLevel
    · rw [if_pos hdd, if_pos (by omega)]
      simp only
      rw [build_new l [] hh (by simpa using hd)]
      rfl
    · rw [if_neg hdd, if_neg (by omega)]

end Verif.Py.Literal
