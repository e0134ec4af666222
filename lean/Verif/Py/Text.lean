import Verif.Py.Num
/-!
# Python primitives: case mapping, `int(s)`, and what is assumed of the Unicode tables

`Uni` bundles the parts of `str` behaviour that depend on the Unicode database.  Theorems quantify over
every `Uni`; its laws fix the behaviour on ASCII only.  `Uni.ascii` is a concrete instance used in examples.
-/
namespace Verif.Py

def asciiLower (c : Nat) : Nat := if 65 ≤ c ∧ c ≤ 90 then c + 32 else c
def asciiUpper (c : Nat) : Nat := if 97 ≤ c ∧ c ≤ 122 then c - 32 else c
def isAsciiAlpha (c : Nat) : Bool := (65 ≤ c && c ≤ 90) || (97 ≤ c && c ≤ 122)

/-- `bytes.title()`: upper-case a letter that does not follow a letter, lower-case the others.
The flag says whether the previous byte was a letter. -/
def titleFrom : Bool → List Nat → List Nat
  | _, [] => []
  | prev, c :: s => (if prev then asciiLower c else asciiUpper c) :: titleFrom (isAsciiAlpha c) s

def asciiTitle (s : List Nat) : List Nat := titleFrom false s

/-- `str.isspace` on ASCII. -/
def isAsciiSpace (c : Nat) : Bool := (9 ≤ c && c ≤ 13) || (28 ≤ c && c ≤ 32)

/-- `str.strip()` on ASCII text. -/
def asciiStrip (s : List Nat) : List Nat :=
  ((s.dropWhile isAsciiSpace).reverse.dropWhile isAsciiSpace).reverse

/-- `Py_ISSPACE`: what `int` and `float` strip off (unlike `str.strip`, not the separators 28 to 31). -/
def isCSpace (c : Nat) : Bool := (9 ≤ c && c ≤ 13) || c == 32

def cStrip (s : List Nat) : List Nat := ((s.dropWhile isCSpace).reverse.dropWhile isCSpace).reverse

/-- Decimal digits, single underscores allowed between them; the flag says whether a digit came just before. -/
def intDigits : Bool → Nat → List Nat → Option Nat
  | prev, a, [] => if prev then some a else none
  | prev, a, c :: r =>
    if isDigit c then intDigits true (a * 10 + (c - 48)) r
    else if c = 95 ∧ prev = true then intDigits false a r
    else none

/-- `int(s)` on ASCII text; `none` = `ValueError`. -/
def asciiInt (s : List Nat) : Option Int :=
  match cStrip s with
  | 45 :: r => (intDigits false 0 r).map fun n : Nat => -(n : Int)
  | 43 :: r => (intDigits false 0 r).map fun n : Nat => (n : Int)
  | r => (intDigits false 0 r).map fun n : Nat => (n : Int)

theorem intDigits_digits (s : List Nat) (h : ∀ c ∈ s, isDigit c = true) (prev : Bool) (a : Nat)
    (hne : prev = true ∨ s ≠ []) :
    intDigits prev a s = some ((s.map (· - 48)).foldl (fun a d => a * 10 + d) a) := by
  induction s generalizing prev a with
  | nil => rcases hne with h | h
           · simp [intDigits, h]
           · exact absurd rfl h
  | cons c s ih =>
    have hc := h c (by simp)
    simp only [intDigits, hc, if_true, List.map_cons, List.foldl_cons]
    exact ih (fun x hx => h x (List.mem_cons_of_mem _ hx)) true _ (Or.inl rfl)

theorem dropWhile_head {p : Nat → Bool} {s : List Nat} (h : ∀ c ∈ s, p c = false) : s.dropWhile p = s := by
  cases s with
  | nil => rfl
  | cons c s => simp [h c (by simp)]

theorem asciiStrip_of_no_space (s : List Nat) (h : ∀ c ∈ s, isAsciiSpace c = false) : asciiStrip s = s := by
  unfold asciiStrip
  rw [dropWhile_head h, dropWhile_head (fun c hc => h c (List.mem_reverse.1 hc)), List.reverse_reverse]

theorem cStrip_of_no_space (s : List Nat) (h : ∀ c ∈ s, isCSpace c = false) : cStrip s = s := by
  unfold cStrip
  rw [dropWhile_head h, dropWhile_head (fun c hc => h c (List.mem_reverse.1 hc)), List.reverse_reverse]

theorem isDigit_not_cspace {c : Nat} (h : isDigit c = true) : isCSpace c = false := by
  unfold isDigit at h; unfold isCSpace
  simp at h ⊢; omega

theorem isDigit_not_space {c : Nat} (h : isDigit c = true) : isAsciiSpace c = false := by
  unfold isDigit at h; unfold isAsciiSpace
  simp at h ⊢; omega

theorem asciiInt_intStr (n : Int) : asciiInt (intStr n) = some n := by
  have key : ∀ m : Nat, intDigits false 0 (natStr m) = some m := by
    intro m
    rw [intDigits_digits _ (natStr_isDigit m) _ _ (Or.inr (natStr_ne_nil m))]
    have := digitsVal_natStr m
    unfold digitsVal ofDigits at this
    rw [this]
  unfold asciiInt intStr
  by_cases hn : n < 0
  · rw [if_pos hn, cStrip_of_no_space]
    · simp only [key, Option.map_some, Option.some.injEq]; omega
    · intro c hc
      rcases List.mem_cons.1 hc with e | hc
      · subst e; decide
      · exact isDigit_not_cspace (natStr_isDigit _ c hc)
  · rw [if_neg hn, cStrip_of_no_space _ (fun c hc => isDigit_not_cspace (natStr_isDigit _ c hc))]
    have h45 : ∀ c ∈ natStr n.natAbs, c ≠ 45 ∧ c ≠ 43 := by
      intro c hc
      have := natStr_isDigit _ c hc
      unfold isDigit at this
      simp at this; omega
    cases hs : natStr n.natAbs with
    | nil => exact absurd hs (natStr_ne_nil _)
    | cons c r =>
      have h1 := h45 c (by rw [hs]; simp)
      have : (match c :: r with
        | 45 :: r => (intDigits false 0 r).map fun n : Nat => -(n : Int)
        | 43 :: r => (intDigits false 0 r).map fun n : Nat => (n : Int)
        | r => (intDigits false 0 r).map fun n : Nat => (n : Int)) =
          (intDigits false 0 (c :: r)).map fun n : Nat => (n : Int) := by
        split
        · rename_i heq; cases heq; exact absurd rfl h1.1
        · rename_i heq; cases heq; exact absurd rfl h1.2
        · rfl
      rw [this, ← hs, key]
      simp only [Option.map_some, Option.some.injEq]; omega

theorem intStr_natCast (n : Nat) : intStr (n : Int) = natStr n := by
  unfold intStr
  rw [if_neg (by omega)]; rfl

/-- The Unicode-dependent part of `str`: lower- and upper-casing, stripping, and `int()`.  Only their
behaviour on ASCII text is fixed. -/
structure Uni where
  lower : List Nat → List Nat
  lower_ascii : ∀ s, (∀ c ∈ s, c < 128) → lower s = s.map asciiLower
  upper : List Nat → List Nat
  upper_ascii : ∀ s, (∀ c ∈ s, c < 128) → upper s = s.map asciiUpper
  strip : List Nat → List Nat
  strip_ascii : ∀ s, (∀ c ∈ s, c < 128) → strip s = asciiStrip s
  int : List Nat → Option Int
  int_ascii : ∀ s, (∀ c ∈ s, c < 128) → int s = asciiInt s

/-- The instance that treats non-ASCII characters as caseless. -/
def Uni.ascii : Uni where
  lower := List.map asciiLower
  lower_ascii := fun _ _ => rfl
  upper := List.map asciiUpper
  upper_ascii := fun _ _ => rfl
  strip := asciiStrip
  strip_ascii := fun _ _ => rfl
  int := asciiInt
  int_ascii := fun _ _ => rfl

theorem intStr_ascii (n : Int) : ∀ c ∈ intStr n, c < 128 := by
  intro c hc
  have hd : ∀ c ∈ natStr n.natAbs, c < 128 := by
    intro c hc
    have := natStr_isDigit _ c hc
    unfold isDigit at this; simp at this; omega
  unfold intStr at hc
  split at hc
  · rcases List.mem_cons.1 hc with e | hc
    · omega
    · exact hd c hc
  · exact hd c hc

theorem Uni.int_intStr (U : Uni) (n : Int) : U.int (intStr n) = some n := by
  rw [U.int_ascii _ (intStr_ascii n), asciiInt_intStr]

theorem asciiLower_title (prev : Bool) (s : List Nat) :
    (titleFrom prev s).map asciiLower = s.map asciiLower := by
  induction s generalizing prev with
  | nil => rfl
  | cons c s ih =>
    simp only [titleFrom, List.map_cons, ih]
    congr 1
    cases prev <;> simp only [asciiLower, asciiUpper] <;> (repeat' split) <;> simp_all <;> omega

theorem titleFrom_lt (prev : Bool) (s : List Nat) (h : ∀ c ∈ s, c < 128) : ∀ c ∈ titleFrom prev s, c < 128 := by
  induction s generalizing prev with
  | nil => simp [titleFrom]
  | cons c s ih =>
    have hc := h c (by simp)
    intro x hx
    simp only [titleFrom, List.mem_cons] at hx
    rcases hx with e | hx
    · subst e; cases prev <;> simp [asciiLower, asciiUpper] <;> split <;> omega
    · exact ih _ (fun y hy => h y (List.mem_cons_of_mem _ hy)) x hx

theorem titleFrom_length (prev : Bool) (s : List Nat) : (titleFrom prev s).length = s.length := by
  induction s generalizing prev with
  | nil => rfl
  | cons c s ih => simp [titleFrom, ih]

end Verif.Py
