import Verif.Py.Core
import Mathlib.Tactic.Ring
/-!
# Python primitives: positional numerals

`str(n)`, `'%d' % n`, `'%x' % n`, `'%0wi' % n`, and `int(s)` on digit strings.  Strings are lists of code
points.
-/
namespace Verif.Py

/-- Digit values of `n` in base `b`, most significant first, without leading zeros (empty for 0). -/
def digitsAux (b : Nat) : Nat → Nat → List Nat
  | 0, _ => []
  | fuel + 1, n => if n = 0 then [] else digitsAux b fuel (n / b) ++ [n % b]

/-- Digit values of `n` in base `b`; `[0]` for zero. -/
def digits (b n : Nat) : List Nat := if n = 0 then [0] else digitsAux b n n

/-- The number denoted by digit values. -/
def ofDigits (b : Nat) (ds : List Nat) : Nat := ds.foldl (fun a d => a * b + d) 0

/-- The character of a digit value: `0-9a-z`. -/
def digitChar (d : Nat) : Nat := if d < 10 then 48 + d else 87 + d

/-- `str(n)` for `n ≥ 0`. -/
def natStr (n : Nat) : List Nat := (digits 10 n).map digitChar

/-- `str(n)` / `'%d' % n` -/
def intStr (n : Int) : List Nat := if n < 0 then 45 :: natStr n.natAbs else natStr n.natAbs

/-- `'%x' % n` for `n ≥ 0`. -/
def hexStr (n : Nat) : List Nat := (digits 16 n).map digitChar

/-- `'%0wi' % n` for `n ≥ 0`: pad with zeros on the left to width `w`. -/
def padZero (w n : Nat) : List Nat :=
  let s := natStr n
  List.replicate (w - s.length) 48 ++ s

/-- `'%wi' % n` for `n ≥ 0`: pad with spaces. -/
def padSpace (w n : Nat) : List Nat :=
  let s := natStr n
  List.replicate (w - s.length) 32 ++ s

/-- An ASCII decimal digit. -/
def isDigit (c : Nat) : Bool := 48 ≤ c && c ≤ 57

/-- `int(s)` on a non-empty string of ASCII digits. -/
def digitsVal (s : List Nat) : Nat := ofDigits 10 (s.map (· - 48))

theorem ofDigits_append (b : Nat) (xs ys : List Nat) :
    ofDigits b (xs ++ ys) = ofDigits b xs * b ^ ys.length + ofDigits b ys := by
  unfold ofDigits
  rw [List.foldl_append]
  generalize List.foldl (fun a d => a * b + d) 0 xs = a
  induction ys generalizing a with
  | nil => simp
  | cons y ys ih =>
    simp only [List.foldl_cons, List.length_cons]
    rw [ih (a * b + y), ih (0 * b + y)]
    ring

theorem ofDigits_singleton (b d : Nat) : ofDigits b [d] = d := by simp [ofDigits]

theorem ofDigits_digitsAux (b : Nat) (hb : 2 ≤ b) (fuel n : Nat) (h : n ≤ fuel) :
    ofDigits b (digitsAux b fuel n) = n := by
  induction fuel generalizing n with
  | zero => have : n = 0 := by omega
            subst this; rfl
  | succ fuel ih =>
    unfold digitsAux
    split
    · rename_i h0; subst h0; rfl
    · rename_i h0
      have hlt : n / b < n := Nat.div_lt_self (by omega) (by omega)
      rw [ofDigits_append, ofDigits_singleton, ih _ (by omega)]
      simp only [List.length_cons, List.length_nil, Nat.zero_add, Nat.pow_one]
      rw [Nat.mul_comm]; exact Nat.div_add_mod n b

/-- Reading back the digits gives the number. -/
theorem ofDigits_digits (b : Nat) (hb : 2 ≤ b) (n : Nat) : ofDigits b (digits b n) = n := by
  unfold digits
  split
  · rename_i h; subst h; simp [ofDigits]
  · exact ofDigits_digitsAux b hb n n (Nat.le_refl _)

theorem digitsAux_lt (b : Nat) (hb : 2 ≤ b) (fuel n : Nat) : ∀ d ∈ digitsAux b fuel n, d < b := by
  induction fuel generalizing n with
  | zero => simp [digitsAux]
  | succ fuel ih =>
    unfold digitsAux
    split
    · simp
    · intro d hd
      rcases List.mem_append.1 hd with h | h
      · exact ih _ d h
      · simp at h; subst h; exact Nat.mod_lt _ (by omega)

theorem digits_lt (b : Nat) (hb : 2 ≤ b) (n : Nat) : ∀ d ∈ digits b n, d < b := by
  unfold digits
  split
  · intro d hd; simp at hd; omega
  · exact digitsAux_lt b hb n n

theorem digits_ne_nil (b : Nat) (n : Nat) : digits b n ≠ [] := by
  unfold digits
  split
  · simp
  · rename_i h
    cases n with
    | zero => exact absurd rfl h
    | succ n => simp [digitsAux]

theorem digitChar_inj {d e : Nat} (h : digitChar d = digitChar e) (hd : d < 36) (he : e < 36) : d = e := by
  unfold digitChar at h
  split at h <;> split at h <;> omega

theorem map_digitChar_inj {xs ys : List Nat} (hx : ∀ d ∈ xs, d < 36) (hy : ∀ d ∈ ys, d < 36)
    (h : xs.map digitChar = ys.map digitChar) : xs = ys := by
  induction xs generalizing ys with
  | nil => cases ys with
    | nil => rfl
    | cons y ys => simp at h
  | cons x xs ih =>
    cases ys with
    | nil => simp at h
    | cons y ys =>
      simp only [List.map_cons, List.cons.injEq] at h
      have h1 := digitChar_inj h.1 (hx x (by simp)) (hy y (by simp))
      have h2 := ih (fun d hd => hx d (List.mem_cons_of_mem _ hd))
        (fun d hd => hy d (List.mem_cons_of_mem _ hd)) h.2
      rw [h1, h2]

theorem numeral_inj (b : Nat) (hb : 2 ≤ b) (hb' : b ≤ 36) {m n : Nat}
    (h : (digits b m).map digitChar = (digits b n).map digitChar) : m = n := by
  have := map_digitChar_inj (fun d hd => Nat.lt_of_lt_of_le (digits_lt b hb m d hd) hb')
    (fun d hd => Nat.lt_of_lt_of_le (digits_lt b hb n d hd) hb') h
  rw [← ofDigits_digits b hb m, this, ofDigits_digits b hb n]

/-- `'%x' % n` determines `n`. -/
theorem hexStr_inj {m n : Nat} (h : hexStr m = hexStr n) : m = n := numeral_inj 16 (by omega) (by omega) h

/-- `str(n)` determines `n`. -/
theorem natStr_inj {m n : Nat} (h : natStr m = natStr n) : m = n := numeral_inj 10 (by omega) (by omega) h

theorem natStr_isDigit (n : Nat) : ∀ c ∈ natStr n, isDigit c = true := by
  unfold natStr
  intro c hc
  obtain ⟨d, hd, rfl⟩ := List.mem_map.1 hc
  have := digits_lt 10 (by omega) n d hd
  simp [isDigit, digitChar, this]; omega

theorem natStr_ne_nil (n : Nat) : natStr n ≠ [] := by
  unfold natStr
  intro h
  exact digits_ne_nil 10 n (List.map_eq_nil_iff.1 h)

theorem map_sub_digitChar {ds : List Nat} (h : ∀ d ∈ ds, d < 10) : (ds.map digitChar).map (· - 48) = ds := by
  induction ds with
  | nil => rfl
  | cons d ds ih =>
    have hd := h d (by simp)
    simp only [List.map_cons, ih (fun e he => h e (List.mem_cons_of_mem _ he)), digitChar, if_pos hd]
    congr 1; omega

/-- `int(str(n)) = n` -/
theorem digitsVal_natStr (n : Nat) : digitsVal (natStr n) = n := by
  unfold digitsVal natStr
  rw [map_sub_digitChar (digits_lt 10 (by omega) n), ofDigits_digits 10 (by omega)]

theorem digitsVal_replicate_zero (k : Nat) (s : List Nat) :
    digitsVal (List.replicate k 48 ++ s) = digitsVal s := by
  unfold digitsVal
  rw [List.map_append, List.map_replicate, ofDigits_append]
  have : ofDigits 10 (List.replicate k (48 - 48)) = 0 := by
    induction k with
    | zero => rfl
    | succ k ih =>
      unfold ofDigits at *
      simpa [List.replicate_succ] using ih
  rw [this]; simp

/-- `int('%0wi' % n) = n` -/
theorem digitsVal_padZero (w n : Nat) : digitsVal (padZero w n) = n := by
  unfold padZero
  rw [digitsVal_replicate_zero, digitsVal_natStr]

theorem digitsAux_length (b : Nat) (hb : 2 ≤ b) (fuel n w : Nat) (h : n < b ^ w) :
    (digitsAux b fuel n).length ≤ w := by
  induction fuel generalizing n w with
  | zero => simp [digitsAux]
  | succ fuel ih =>
    unfold digitsAux
    split
    · simp
    · rename_i h0
      cases w with
      | zero => simp at h; omega
      | succ w =>
        have : n / b < b ^ w := by
          rw [Nat.pow_succ] at h
          exact Nat.div_lt_of_lt_mul (by rw [Nat.mul_comm]; exact h)
        have := ih (n / b) w this
        simp; omega

/-- A number below `10^w` fits in width `w`. -/
theorem padZero_length (w n : Nat) (hw : 0 < w) (h : n < 10 ^ w) : (padZero w n).length = w := by
  unfold padZero natStr
  have : (digits 10 n).length ≤ w := by
    unfold digits
    split
    · simp; omega
    · exact digitsAux_length 10 (by omega) n n w h
  simp; omega

theorem padZero_isDigit (w n : Nat) : ∀ c ∈ padZero w n, isDigit c = true := by
  intro c hc
  unfold padZero at hc
  rcases List.mem_append.1 hc with h | h
  · have := (List.mem_replicate.1 h).2; subst this; rfl
  · exact natStr_isDigit n c h

example : hexStr 255 = [102, 102] := by decide
example : padZero 2 7 = [48, 55] := by decide
example : intStr (-120) = [45, 49, 50, 48] := by decide

end Verif.Py
