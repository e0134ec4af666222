import Verif.Py.Core
import Verif.Py.Float
import Verif.Py.Text
/-!
# Python primitives: `float(s)` and `str(x)` for floats

From CPython 3.11: `PyFloat_FromString`, `_Py_string_to_number_with_underscores`, `_Py_parse_inf_or_nan`, `_Py_dg_strtod` (by its
result, the nearest float), `_Py_dg_dtoa` in mode 0 (by its result, the shortest digits that read back, of these the nearest),
`format_float_short` with the format `'r'`.
-/
namespace Verif.Py

/-- A float: sign and magnitude, or one of the others. -/
inductive PyFloat where
  | nan
  | inf (neg : Bool)
  | fin (neg : Bool) (magnitude : Rat)
  deriving DecidableEq

/-- The magnitudes of finite floats. -/
def PyFloat.Valid : PyFloat → Prop
  | .fin _ q => 0 ≤ q ∧ roundF q = q ∧ q < 2 ^ 1024
  | _ => True

/-- The float nearest to a number of the given sign and magnitude. -/
def PyFloat.ofRat (neg : Bool) (q : Rat) : PyFloat :=
  if 2 ^ 1024 ≤ roundF q then .inf neg else .fin neg (roundF q)

/-! ## Reading -/

/-- Underscores are allowed between digits, and dropped; `prev` is the character before. -/
def dropUnderscores (prev : Nat) : List Nat → Option (List Nat)
  | [] => if prev = 95 then none else some []
  | c :: r =>
    if c = 95 then (if isDigit prev then dropUnderscores c r else none)
    else if prev = 95 ∧ isDigit c = false then none
    else (dropUnderscores c r).map (c :: ·)

/-- One digit or more. -/
def numeral (s : List Nat) : Option Nat := if s ≠ [] ∧ s.all isDigit then some (digitsVal s) else none

/-- The exponent after the digits; nothing is 0. -/
def exponentOf : List Nat → Option Int
  | [] => some 0
  | c :: r =>
    if c = 101 ∨ c = 69 then
      match r with
      | 45 :: r => (numeral r).map fun n : Nat => -(n : Int)
      | 43 :: r => (numeral r).map fun n : Nat => (n : Int)
      | r => (numeral r).map fun n : Nat => (n : Int)
    else none

/-- The number an unsigned numeral denotes. -/
def decimal (s : List Nat) : Option Rat :=
  let ip := s.takeWhile isDigit
  match s.dropWhile isDigit with
  | 46 :: r =>
    let fp := r.takeWhile isDigit
    if ip = [] ∧ fp = [] then none
    else (exponentOf (r.dropWhile isDigit)).map fun e : Int => (digitsVal (ip ++ fp) : Rat) * 10 ^ (e - (fp.length : Int))
  | r => if ip = [] then none else (exponentOf r).map fun e : Int => (digitsVal ip : Rat) * 10 ^ e

/-- `'inf'`, `'infinity'`, `'nan'` -/
def sInf : List Nat := [105, 110, 102]
def sInfinity : List Nat := [105, 110, 102, 105, 110, 105, 116, 121]
def sNan : List Nat := [110, 97, 110]

def unsignedFloat (neg : Bool) (s : List Nat) : Option PyFloat :=
  if s.map asciiLower = sInf ∨ s.map asciiLower = sInfinity then some (.inf neg)
  else if s.map asciiLower = sNan then some .nan
  else (decimal s).map (PyFloat.ofRat neg)

/-- `float(s)` on ASCII text; `none` = `ValueError`. -/
def asciiFloat (s : List Nat) : Option PyFloat :=
  match dropUnderscores 0 (cStrip s) with
  | none => none
  | some (45 :: r) => unsignedFloat true r
  | some (43 :: r) => unsignedFloat false r
  | some r => unsignedFloat false r

/-- `float(s)` on all text; non-ASCII digits and spaces are the business of the instance. -/
structure Floats where
  float : List Nat → Option PyFloat
  float_ascii : ∀ s, (∀ c ∈ s, c < 128) → float s = asciiFloat s

/-- The instance that knows ASCII only. -/
def Floats.ascii : Floats := ⟨asciiFloat, fun _ _ => rfl⟩

/-- `x == y` on floats: the zeros are equal, and nan is not equal to anything. -/
def PyFloat.eq : PyFloat → PyFloat → Prop
  | .inf a, .inf b => a = b
  | .fin a p, .fin b q => p = q ∧ (a = b ∨ p = 0)
  | _, _ => False

/-- `bool(x)` -/
def PyFloat.truth : PyFloat → Bool
  | .fin _ q => decide (q ≠ 0)
  | _ => true

/-- `int(x)`: towards zero. -/
def PyFloat.trunc : PyFloat → Except PyErr Int
  | .nan => .error .valueError
  | .inf _ => .error .overflowError
  | .fin neg q => .ok (if neg then -⌊q⌋ else ⌊q⌋)

/-! ## Writing -/

/-- The two integers around `q`, the nearer one first. -/
def around (q : Rat) : List Nat :=
  let lo := ⌊q⌋.toNat
  if q - lo ≤ lo + 1 - q then [lo, lo + 1] else [lo + 1, lo]

/-- The nearest number of `n` digits that reads back as `q`, in units of `10 ^ (decpt - n)`. -/
def tryDigits (q : Rat) (decpt : Int) (n : Nat) : Option Nat :=
  (around (q * 10 ^ ((n : Int) - decpt))).find? fun c => decide (roundF ((c : Rat) * 10 ^ (decpt - (n : Int))) = q)

/-- The first number of digits, from `n` on, with which it works. -/
def searchDigits (q : Rat) (decpt : Int) : Nat → Nat → Option (Nat × Int)
  | 0, _ => none
  | fuel + 1, n =>
    match tryDigits q decpt n with
    | some c => some (c, decpt - n)
    | none => searchDigits q decpt fuel (n + 1)

/-- The shortest decimal that reads back as `q`: digits, and power of ten. -/
def shortest (q : Rat) : Nat × Int := (searchDigits q (Int.log 10 q + 1) 1400 1).getD (0, 0)

/-- without zeros at the end -/
def stripZeros (s : List Nat) : List Nat := (s.reverse.dropWhile (· == 48)).reverse

/-- `format_float_short`: digits, of which `decpt` come before the point; from `10 ^ limit` on, and below `0.0001`, with an exponent. -/
def formatDigits (limit : Int) (d : List Nat) (decpt : Int) : List Nat :=
  if decpt ≤ -4 ∨ limit < decpt then
    d.take 1 ++ (if d.length ≤ 1 then [] else 46 :: d.drop 1) ++
      101 :: (if decpt - 1 < 0 then 45 else 43) :: padZero 2 (decpt - 1).natAbs
  else if decpt ≤ 0 then [48, 46] ++ List.replicate (-decpt).toNat 48 ++ d
  else if decpt.toNat < d.length then d.take decpt.toNat ++ [46] ++ d.drop decpt.toNat
  else d ++ List.replicate (decpt.toNat - d.length) 48 ++ [46, 48]

/-- `str(x)` -/
def floatStr : PyFloat → List Nat
  | .nan => sNan
  | .inf neg => (if neg then [45] else []) ++ sInf
  | .fin neg q => (if neg then [45] else []) ++
    (if q = 0 then [48, 46, 48]
     else
      let d := natStr (shortest q).1
      formatDigits 16 (stripZeros d) (d.length + (shortest q).2))

/-- `str(x)` on Python 2: twelve digits. -/
def floatStr2 : PyFloat → List Nat
  | .fin neg q => (if neg then [45] else []) ++
    (if q = 0 then [48, 46, 48]
     else
      let decpt := Int.log 10 q + 1
      let d := natStr (rhe (q * 10 ^ (12 - decpt))).toNat
      formatDigits 12 (stripZeros d) (d.length + (decpt - 12)))
  | x => floatStr x

/-! ## Reading what was written -/

theorem dropUnderscores_none (s : List Nat) (h : 95 ∉ s) : ∀ prev, prev ≠ 95 → dropUnderscores prev s = some s := by
  induction s with
  | nil => intro prev hp; rw [dropUnderscores, if_neg hp]
  | cons c s ih =>
    intro prev hp
    simp only [List.mem_cons, not_or] at h
    rw [dropUnderscores, if_neg (Ne.symm h.1), if_neg (fun hh => hp hh.1), ih h.2 c (Ne.symm h.1)]
    rfl

theorem span_digits (d r : List Nat) (hd : ∀ c ∈ d, isDigit c = true) (hr : ∀ c t, r = c :: t → isDigit c = false) :
    (d ++ r).takeWhile isDigit = d ∧ (d ++ r).dropWhile isDigit = r := by
  induction d with
  | nil =>
    cases r with
    | nil => exact ⟨rfl, rfl⟩
    | cons c t =>
      have := hr c t rfl
      simp [this]
  | cons c d ih =>
    have h1 := hd c List.mem_cons_self
    have h2 := ih fun x hx => hd x (List.mem_cons_of_mem _ hx)
    rw [List.cons_append, List.takeWhile_cons, List.dropWhile_cons, if_pos h1, if_pos h1, h2.1, h2.2]
    exact ⟨rfl, rfl⟩

theorem digitsVal_append (a b : List Nat) : digitsVal (a ++ b) = digitsVal a * 10 ^ b.length + digitsVal b := by
  unfold digitsVal
  rw [List.map_append, ofDigits_append, List.length_map]

theorem digitsVal_zeros (n : Nat) : digitsVal (List.replicate n 48) = 0 := by
  have := digitsVal_replicate_zero n []
  rw [List.append_nil] at this
  exact this

theorem zeros_digits (n : Nat) : ∀ c ∈ List.replicate n 48, isDigit c = true := by
  intro c hc
  rw [(List.mem_replicate.1 hc).2]; rfl

theorem numeral_of_digits (s : List Nat) (hne : s ≠ []) (h : ∀ c ∈ s, isDigit c = true) : numeral s = some (digitsVal s) := by
  unfold numeral
  rw [if_pos ⟨hne, List.all_eq_true.2 h⟩]

/-- The exponent is read back. -/
theorem exponentOf_written (e : Int) : exponentOf (101 :: (if e < 0 then 45 else 43) :: padZero 2 e.natAbs) = some e := by
  have hne : padZero 2 e.natAbs ≠ [] := by
    unfold padZero
    intro h
    exact natStr_ne_nil _ (List.append_eq_nil_iff.1 h).2
  have hn := numeral_of_digits _ hne (padZero_isDigit 2 e.natAbs)
  rw [digitsVal_padZero] at hn
  by_cases he : e < 0
  · simp only [if_pos he, exponentOf, true_or, if_true, hn, Option.map_some]
    congr 1; omega
  · simp only [if_neg he, exponentOf, true_or, if_true, hn, Option.map_some]
    congr 1; omega

/-- **The text denotes the digits**, with the point where it belongs. -/
theorem decimal_format (limit : Int) (d : List Nat) (hne : d ≠ []) (hd : ∀ c ∈ d, isDigit c = true) (decpt : Int) :
    decimal (formatDigits limit d decpt) = some ((digitsVal d : Rat) * 10 ^ (decpt - (d.length : Int))) := by
  have h10 : (10 : Rat) ≠ 0 := by norm_num
  unfold formatDigits
  split
  · -- with an exponent
    rename_i hexp
    cases d with
    | nil => exact absurd rfl hne
    | cons c d =>
      have hc := hd c List.mem_cons_self
      have hd' : ∀ x ∈ d, isDigit x = true := fun x hx => hd x (List.mem_cons_of_mem _ hx)
      have hE : ∀ x t, (101 :: (if decpt - 1 < 0 then 45 else 43) :: padZero 2 (decpt - 1).natAbs : List Nat) = x :: t →
          isDigit x = false := by
        rintro x t e; cases e; rfl
      cases d with
      | nil =>
        have := span_digits [c] _ hd hE
        simp only [List.take_succ_cons, List.take_zero, List.length_singleton, Nat.le_refl, if_true, List.append_nil]
        unfold decimal
        simp only [this.1, this.2, exponentOf_written]
        simp
      | cons c2 d =>
        have h1 := span_digits [c] (46 :: ((c2 :: d) ++ 101 :: (if decpt - 1 < 0 then 45 else 43) :: padZero 2 (decpt - 1).natAbs))
          (by intro x hx; rw [List.mem_singleton.1 hx]; exact hc) (by rintro x t e; cases e; rfl)
        have h2 := span_digits (c2 :: d) _ hd' hE
        have ht : (c :: c2 :: d).take 1 ++ (if (c :: c2 :: d).length ≤ 1 then [] else 46 :: (c :: c2 :: d).drop 1) ++
            101 :: (if decpt - 1 < 0 then 45 else 43) :: padZero 2 (decpt - 1).natAbs =
            [c] ++ 46 :: ((c2 :: d) ++ 101 :: (if decpt - 1 < 0 then 45 else 43) :: padZero 2 (decpt - 1).natAbs) := by
          simp
        rw [ht]
        unfold decimal
        simp only [h1.1, h1.2, h2.1, h2.2, exponentOf_written]
        rw [if_neg (by simp)]
        simp only [Option.map_some, Option.some.injEq, List.singleton_append]
        congr 2
        simp only [List.length_cons]; omega
  · split
    · -- below one
      rename_i _ hle
      have h1 := span_digits [48] (46 :: (List.replicate (-decpt).toNat 48 ++ d)) (by
        intro x hx; rw [List.mem_singleton.1 hx]; rfl) (by rintro x t e; cases e; rfl)
      have h2 := span_digits (List.replicate (-decpt).toNat 48 ++ d) [] (by
        intro x hx
        rcases List.mem_append.1 hx with hx | hx
        · exact zeros_digits _ x hx
        · exact hd x hx) (by rintro x t e; cases e)
      rw [List.append_nil] at h2
      have ht : [48, 46] ++ List.replicate (-decpt).toNat 48 ++ d = [48] ++ 46 :: (List.replicate (-decpt).toNat 48 ++ d) := by simp
      rw [ht]
      unfold decimal
      simp only [h1.1, h1.2, h2.1, h2.2, exponentOf]
      rw [if_neg (by simp)]
      simp only [Option.map_some, Option.some.injEq]
      have hv : digitsVal ([48] ++ (List.replicate (-decpt).toNat 48 ++ d)) = digitsVal d := by
        have := digitsVal_replicate_zero 1 (List.replicate (-decpt).toNat 48 ++ d)
        exact this.trans (digitsVal_replicate_zero _ d)
      rw [hv]
      congr 2
      simp only [List.length_append, List.length_replicate]
      omega
    · split
      · -- the point among the digits
        rename_i _ hpos hlt
        have hs1 : ∀ x ∈ d.take decpt.toNat, isDigit x = true := fun x hx => hd x (List.mem_of_mem_take hx)
        have hs2 : ∀ x ∈ d.drop decpt.toNat, isDigit x = true := fun x hx => hd x (List.mem_of_mem_drop hx)
        have h1 := span_digits (d.take decpt.toNat) (46 :: d.drop decpt.toNat) hs1 (by rintro x t e; cases e; rfl)
        have h2 := span_digits (d.drop decpt.toNat) [] hs2 (by rintro x t e; cases e)
        rw [List.append_nil] at h2
        have ht : d.take decpt.toNat ++ [46] ++ d.drop decpt.toNat = d.take decpt.toNat ++ 46 :: d.drop decpt.toNat := by simp
        have hne' : d.take decpt.toNat ≠ [] := by
          intro e
          have := congrArg List.length e
          simp only [List.length_take, List.length_nil] at this
          omega
        rw [ht]
        unfold decimal
        simp only [h1.1, h1.2, h2.1, h2.2, exponentOf]
        rw [if_neg (fun hh => hne' hh.1)]
        simp only [Option.map_some, Option.some.injEq, List.take_append_drop]
        congr 2
        simp only [List.length_drop]
        omega
      · -- zeros between the digits and the point
        rename_i _ hpos hge
        have h1 := span_digits (d ++ List.replicate (decpt.toNat - d.length) 48) [46, 48] (by
          intro x hx
          rcases List.mem_append.1 hx with hx | hx
          · exact hd x hx
          · exact zeros_digits _ x hx) (by rintro x t e; cases e; rfl)
        have hne' : d ++ List.replicate (decpt.toNat - d.length) 48 ≠ [] := by simp [hne]
        unfold decimal
        simp only [h1.1, h1.2]
        rw [if_neg (fun hh => hne' hh.1)]
        have hz : [48].takeWhile isDigit = [48] ∧ [48].dropWhile isDigit = ([] : List Nat) := ⟨rfl, rfl⟩
        simp only [hz.1, hz.2, exponentOf, Option.map_some, Option.some.injEq]
        rw [List.append_assoc, digitsVal_append, digitsVal_append, digitsVal_zeros]
        simp only [List.length_append, List.length_replicate, List.length_singleton]
        have h0 : digitsVal [48] = 0 := rfl
        rw [h0]
        push_cast
        rw [add_zero, mul_assoc, ← zpow_natCast, ← zpow_add₀ h10]
        congr 2
        push_cast
        omega

theorem stripZeros_val (d : List Nat) : ∃ k, d = stripZeros d ++ List.replicate k 48 := by
  unfold stripZeros
  have h : ∀ l : List Nat, ∃ k, l = List.replicate k 48 ++ l.dropWhile (· == 48) := by
    intro l
    induction l with
    | nil => exact ⟨0, rfl⟩
    | cons c l ih =>
      by_cases hc : c = 48
      · obtain ⟨k, hk⟩ := ih
        refine ⟨k + 1, ?_⟩
        rw [List.dropWhile_cons, if_pos (by simp [hc]), List.replicate_succ, List.cons_append, ← hk, hc]
      · exact ⟨0, by rw [List.dropWhile_cons, if_neg (by simp [hc])]; rfl⟩
  obtain ⟨k, hk⟩ := h d.reverse
  refine ⟨k, ?_⟩
  have := congrArg List.reverse hk
  rw [List.reverse_reverse, List.reverse_append, List.reverse_replicate] at this
  exact this

/-- The digits that were found read back. -/
theorem searchDigits_reads (q : Rat) (decpt : Int) (fuel n : Nat) (c : Nat) (x : Int) (h : searchDigits q decpt fuel n = some (c, x)) :
    roundF ((c : Rat) * 10 ^ x) = q := by
  induction fuel generalizing n with
  | zero => cases h
  | succ fuel ih =>
    rw [searchDigits] at h
    split at h
    · rename_i c' hc
      cases h
      unfold tryDigits at hc
      have := List.find?_some hc
      exact of_decide_eq_true this
    · exact ih _ h

/-- Some digits are found: at the latest, all of them. -/
theorem searchDigits_finds (q : Rat) (decpt : Int) (h : roundF q = q) (m : Nat) (fuel n : Nat) (h1 : n ≤ m) (h2 : m < n + fuel)
    (k : Nat) (hk : q * 10 ^ ((m : Int) - decpt) = k) : ∃ r, searchDigits q decpt fuel n = some r := by
  induction fuel generalizing n with
  | zero => omega
  | succ fuel ih =>
    rw [searchDigits]
    cases ht : tryDigits q decpt n with
    | some c => exact ⟨_, rfl⟩
    | none =>
      by_cases hnm : n = m
      · exfalso
        subst hnm
        unfold tryDigits at ht
        rw [List.find?_eq_none] at ht
        have : k ∈ around (q * 10 ^ ((n : Int) - decpt)) := by
          unfold around
          rw [hk]
          simp
        refine ht k this ?_
        simp only [decide_eq_true_eq]
        rw [← hk, mul_assoc, ← zpow_add₀ (by norm_num)]
        have e0 : (n : Int) - decpt + (decpt - n) = 0 := by omega
        rw [e0, zpow_zero, mul_one, h]
      · exact ih (n + 1) (by omega) (by omega)

/-- A float is an integer times a power of two. -/
theorem float_dyadic (q : Rat) (h0 : 0 < q) (h : roundF q = q) : ∃ k : Nat, q * 2 ^ 1074 = k := by
  unfold roundF at h
  rw [if_neg h0.ne'] at h
  have hu : ∃ j : Nat, ulp q * 2 ^ 1074 = 2 ^ j := by
    unfold ulp
    refine ⟨(max (Int.log 2 |q| - 52) (-1074) + 1074).toNat, ?_⟩
    rw [← zpow_natCast, ← zpow_natCast, Int.toNat_of_nonneg (by omega), ← zpow_add₀ (by norm_num)]
    rfl
  obtain ⟨j, hj⟩ := hu
  have h3 : q * 2 ^ 1074 = ((rhe (q / ulp q) * 2 ^ j : Int) : Rat) := by
    conv_lhs => rw [← h]
    rw [mul_assoc, hj]
    push_cast; rfl
  have hpos : 0 ≤ rhe (q / ulp q) * 2 ^ j := by
    have : (0 : Rat) ≤ ((rhe (q / ulp q) * 2 ^ j : Int) : Rat) := by rw [← h3]; positivity
    exact_mod_cast this
  refine ⟨(rhe (q / ulp q) * 2 ^ j).toNat, ?_⟩
  rw [h3]
  exact_mod_cast (Int.toNat_of_nonneg hpos).symm

set_option exponentiation.threshold 2000 in
/-- **The shortest digits are found, and read back.** -/
theorem shortest_reads (q : Rat) (h0 : 0 < q) (h : roundF q = q) (hmax : q < 2 ^ 1024) :
    roundF (((shortest q).1 : Rat) * 10 ^ (shortest q).2) = q := by
  obtain ⟨k, hk⟩ := float_dyadic q h0 h
  have hlog : Int.log 10 q < 309 := by
    rw [← Int.lt_zpow_iff_log_lt (by norm_num) h0]
    refine lt_trans hmax ?_
    norm_num
  have hlog2 : -325 ≤ Int.log 10 q := by
    rw [← Int.zpow_le_iff_le_log (by norm_num) h0]
    have hk1 : 1 ≤ k := by
      by_contra hc
      have : k = 0 := by omega
      rw [this] at hk
      have : 0 < q * 2 ^ 1074 := by positivity
      rw [hk] at this
      norm_num at this
    have : (1 : Rat) ≤ q * 2 ^ 1074 := by rw [hk]; exact_mod_cast hk1
    have h2 : (1 : Rat) / 2 ^ 1074 ≤ q := by
      rw [div_le_iff₀ (by positivity)]; exact this
    refine le_trans ?_ h2
    norm_num
  have : ∃ r, searchDigits q (Int.log 10 q + 1) 1400 1 = some r := by
    refine searchDigits_finds q _ h (Int.log 10 q + 1 + 1074).toNat 1400 1 (by omega) (by omega) (k * 5 ^ 1074) ?_
    rw [Int.toNat_of_nonneg (by omega)]
    have e : Int.log 10 q + 1 + 1074 - (Int.log 10 q + 1) = ((1074 : Nat) : Int) := by omega
    rw [e, zpow_natCast]
    have e2 : (10 : Rat) ^ 1074 = 2 ^ 1074 * 5 ^ 1074 := by rw [← mul_pow]; norm_num
    rw [e2, ← mul_assoc, hk]
    push_cast; rfl
  obtain ⟨⟨c, x⟩, hr⟩ := this
  unfold shortest
  rw [hr]
  exact searchDigits_reads q _ _ _ c x hr

theorem stripZeros_sub (s : List Nat) : ∀ c ∈ stripZeros s, c ∈ s := by
  intro c hc
  unfold stripZeros at hc
  rw [List.mem_reverse] at hc
  exact List.mem_reverse.1 ((List.dropWhile_suffix _).subset hc)

/-- Characters of an unsigned numeral. -/
def numeralChar (c : Nat) : Prop := isDigit c = true ∨ c = 46 ∨ c = 101 ∨ c = 45 ∨ c = 43

theorem formatDigits_chars (limit : Int) (d : List Nat) (hd : ∀ c ∈ d, isDigit c = true) (decpt : Int) :
    ∀ c ∈ formatDigits limit d decpt, numeralChar c := by
  intro c hc
  unfold formatDigits at hc
  have hz : ∀ n, c ∈ List.replicate n 48 → isDigit c = true := fun n h => zeros_digits n c h
  split at hc
  · simp only [List.mem_append, List.mem_cons] at hc
    rcases hc with (hc | hc) | rfl | hc | hc
    · exact .inl (hd c (List.mem_of_mem_take hc))
    · split at hc
      · cases hc
      · rcases List.mem_cons.1 hc with rfl | hc
        · exact .inr (.inl rfl)
        · exact .inl (hd c (List.mem_of_mem_drop hc))
    · exact .inr (.inr (.inl rfl))
    · subst hc
      split
      · exact .inr (.inr (.inr (.inl rfl)))
      · exact .inr (.inr (.inr (.inr rfl)))
    · exact .inl (padZero_isDigit _ _ c hc)
  · split at hc
    · simp only [List.mem_append, List.mem_cons, List.not_mem_nil, or_false] at hc
      rcases hc with ((rfl | rfl) | hc) | hc
      · exact .inl rfl
      · exact .inr (.inl rfl)
      · exact .inl (hz _ hc)
      · exact .inl (hd c hc)
    · split at hc
      · simp only [List.mem_append, List.mem_cons, List.not_mem_nil, or_false] at hc
        rcases hc with (hc | rfl) | hc
        · exact .inl (hd c (List.mem_of_mem_take hc))
        · exact .inr (.inl rfl)
        · exact .inl (hd c (List.mem_of_mem_drop hc))
      · simp only [List.mem_append, List.mem_cons, List.not_mem_nil, or_false] at hc
        rcases hc with (hc | hc) | rfl | rfl
        · exact .inl (hd c hc)
        · exact .inl (hz _ hc)
        · exact .inr (.inl rfl)
        · exact .inl rfl

/-- The text begins with a digit. -/
theorem formatDigits_head (limit : Int) (d : List Nat) (hne : d ≠ []) (hd : ∀ c ∈ d, isDigit c = true) (decpt : Int) :
    ∃ c r, formatDigits limit d decpt = c :: r ∧ isDigit c = true := by
  cases d with
  | nil => exact absurd rfl hne
  | cons c d =>
    have hc := hd c List.mem_cons_self
    unfold formatDigits
    split
    · exact ⟨c, _, by rw [List.take_succ_cons]; rfl, hc⟩
    · split
      · exact ⟨48, _, rfl, rfl⟩
      · rename_i _ hpos
        split
        · obtain ⟨k, hk⟩ : ∃ k, decpt.toNat = k + 1 := ⟨decpt.toNat - 1, by omega⟩
          exact ⟨c, _, by rw [hk, List.take_succ_cons]; rfl, hc⟩
        · exact ⟨c, _, rfl, hc⟩

theorem numeralChar_lt {c : Nat} (h : numeralChar c) : isCSpace c = false ∧ c ≠ 95 ∧ c < 128 ∧ c ≠ 44 ∧ c ≠ 32 := by
  rcases h with h | rfl | rfl | rfl | rfl
  · unfold isDigit at h
    simp only [Bool.and_eq_true, decide_eq_true_eq] at h
    unfold isCSpace
    simp only [Bool.or_eq_false_iff, Bool.and_eq_false_iff, decide_eq_false_iff_not, beq_eq_false_iff_ne]
    omega
  all_goals decide

/-- Reading a sign and a numeral. -/
theorem asciiFloat_signed (neg : Bool) (s : List Nat) (h : ∀ c ∈ s, numeralChar c) (hh : ∃ c r, s = c :: r ∧ isDigit c = true) :
    asciiFloat ((if neg then [45] else []) ++ s) = (decimal s).map (PyFloat.ofRat neg) := by
  have hall : ∀ c ∈ (if neg then [45] else []) ++ s, numeralChar c := by
    intro c hc
    rcases List.mem_append.1 hc with hc | hc
    · cases neg
      · cases hc
      · rw [List.mem_singleton.1 hc]; exact .inr (.inr (.inr (.inl rfl)))
    · exact h c hc
  obtain ⟨c, r, rfl, hc⟩ := hh
  have hlow : asciiLower c = c ∧ 48 ≤ c ∧ c ≤ 57 := by
    unfold isDigit at hc
    simp only [Bool.and_eq_true, decide_eq_true_eq] at hc
    refine ⟨?_, hc⟩
    unfold asciiLower
    rw [if_neg (by simp; omega)]
  have hu : ∀ neg, unsignedFloat neg (c :: r) = (decimal (c :: r)).map (PyFloat.ofRat neg) := by
    intro neg
    unfold unsignedFloat
    have h1 : ∀ x t, x ∈ [105, 110] → (c :: r).map asciiLower ≠ x :: t := by
      intro x t hx e
      rw [List.map_cons, hlow.1] at e
      injection e with e1 _
      simp at hx
      omega
    rw [if_neg (by
      rintro (e | e)
      · exact h1 105 _ (by decide) e
      · exact h1 105 _ (by decide) e), if_neg (show (c :: r).map asciiLower ≠ sNan from h1 110 _ (by decide))]
  unfold asciiFloat
  rw [cStrip_of_no_space _ (fun x hx => (numeralChar_lt (hall x hx)).1),
    dropUnderscores_none _ (fun hx => (numeralChar_lt (hall 95 hx)).2.1 rfl) 0 (by decide)]
  cases neg
  · have : c ≠ 45 ∧ c ≠ 43 := by omega
    change (match some (c :: r) with
      | none => none
      | some (45 :: r) => unsignedFloat true r
      | some (43 :: r) => unsignedFloat false r
      | some r => unsignedFloat false r) = _
    split
    · rename_i e; cases e
    · rename_i e; cases e; exact absurd rfl this.1
    · rename_i e; cases e; exact absurd rfl this.2
    · rename_i e; cases e; exact hu false
  · exact hu true

theorem digits_natStr_value (c : Nat) (hc : 0 < c) (x : Int) :
    stripZeros (natStr c) ≠ [] ∧
    (digitsVal (stripZeros (natStr c)) : Rat) * 10 ^ (((natStr c).length + x : Int) - ((stripZeros (natStr c)).length : Int)) =
      c * 10 ^ x := by
  obtain ⟨k, hk⟩ := stripZeros_val (natStr c)
  have hv := digitsVal_natStr c
  rw [hk, digitsVal_append, digitsVal_zeros, List.length_replicate, Nat.add_zero] at hv
  constructor
  · intro e
    rw [e] at hv
    have : digitsVal [] = 0 := rfl
    rw [this] at hv
    omega
  · have hl : (natStr c).length = (stripZeros (natStr c)).length + k := by
      conv_lhs => rw [hk]
      rw [List.length_append, List.length_replicate]
    rw [hl]
    conv_rhs => rw [← hv]
    push_cast
    rw [mul_assoc, ← zpow_natCast, ← zpow_add₀ (by norm_num)]
    congr 2
    omega

/-- What `str` of a finite float consists of. -/
theorem floatStr_fin (neg : Bool) (q : Rat) (h : (PyFloat.fin neg q).Valid) :
    ∃ s, floatStr (.fin neg q) = (if neg then [45] else []) ++ s ∧ (∀ c ∈ s, numeralChar c) ∧ (∃ c r, s = c :: r ∧ isDigit c = true) ∧
      ∃ v, decimal s = some v ∧ roundF v = q := by
  obtain ⟨h0, h1, h2⟩ := h
  by_cases hq : q = 0
  · subst hq
    refine ⟨[48, 46, 48], by simp [floatStr], ?_, ⟨48, _, rfl, rfl⟩, 0, ?_, h1⟩
    · intro c hc
      simp only [List.mem_cons, List.not_mem_nil, or_false] at hc
      rcases hc with rfl | rfl | rfl
      · exact .inl rfl
      · exact .inr (.inl rfl)
      · exact .inl rfl
    · have a : decimal [48, 46, 48] = some ((digitsVal [48, 48] : Rat) * 10 ^ ((0 : Int) - ((1 : Nat) : Int))) := rfl
      have b : digitsVal [48, 48] = 0 := rfl
      rw [a, b]; simp
  · have hpos : 0 < q := lt_of_le_of_ne h0 (Ne.symm hq)
    have hr := shortest_reads q hpos h1 h2
    have hc : 0 < (shortest q).1 := by
      rcases Nat.eq_zero_or_pos (shortest q).1 with e | e
      · exfalso
        rw [e] at hr
        have : roundF ((0 : Nat) * 10 ^ (shortest q).2 : Rat) = 0 := by simp [roundF]
        rw [this] at hr
        exact hq hr.symm
      · exact e
    have hd : ∀ c ∈ stripZeros (natStr (shortest q).1), isDigit c = true := fun c hc =>
      natStr_isDigit _ c (stripZeros_sub _ c hc)
    obtain ⟨v1, v2⟩ := digits_natStr_value _ hc (shortest q).2
    refine ⟨formatDigits 16 (stripZeros (natStr (shortest q).1)) ((natStr (shortest q).1).length + (shortest q).2), ?_,
      formatDigits_chars _ _ hd _, formatDigits_head _ _ v1 hd _, _, decimal_format 16 _ v1 hd _, ?_⟩
    · simp only [floatStr, if_neg hq]
    · rw [v2, hr]

/-- **`float(str(x))` is `x`**, bit for bit. -/
theorem asciiFloat_floatStr (x : PyFloat) (h : x.Valid) : asciiFloat (floatStr x) = some x := by
  cases x with
  | nan => decide +kernel
  | inf neg => cases neg <;> decide +kernel
  | fin neg q =>
    obtain ⟨s, h1, h2, h3, v, h4, h5⟩ := floatStr_fin neg q h
    rw [h1, asciiFloat_signed neg s h2 h3, h4]
    simp only [Option.map_some, Option.some.injEq]
    unfold PyFloat.ofRat
    rw [h5, if_neg (not_le.2 h.2.2)]

/-- The characters of `str(x)`. -/
theorem floatStr_chars (x : PyFloat) (h : x.Valid) : ∀ c ∈ floatStr x, c < 128 ∧ c ≠ 44 ∧ c ≠ 32 := by
  cases x with
  | nan => decide
  | inf neg => cases neg <;> decide
  | fin neg q =>
    obtain ⟨s, h1, h2, -⟩ := floatStr_fin neg q h
    rw [h1]
    intro c hc
    rcases List.mem_append.1 hc with hc | hc
    · cases neg
      · cases hc
      · rw [List.mem_singleton.1 hc]; decide
    · exact (numeralChar_lt (h2 c hc)).2.2

/-- The text of an integer is read as the float nearest to it. -/
theorem asciiFloat_intStr (n : Int) : asciiFloat (intStr n) = some (.ofRat (decide (n < 0)) |(n : Rat)|) := by
  have hs : intStr n = (if decide (n < 0) then [45] else []) ++ natStr n.natAbs := by
    unfold intStr
    by_cases hn : n < 0 <;> simp [hn]
  have hd := natStr_isDigit n.natAbs
  rw [hs, asciiFloat_signed _ _ (fun c hc => .inl (hd c hc))]
  · have h1 := span_digits (natStr n.natAbs) [] hd (by rintro x t e; cases e)
    rw [List.append_nil] at h1
    unfold decimal
    simp only [h1.1, h1.2, exponentOf]
    rw [if_neg (natStr_ne_nil _), digitsVal_natStr]
    simp only [Option.map_some, zpow_zero, mul_one, Option.some.injEq]
    congr 1
    rw [Nat.cast_natAbs, Int.cast_abs]
  · cases e : natStr n.natAbs with
    | nil => exact absurd e (natStr_ne_nil _)
    | cons c r => exact ⟨c, r, rfl, hd c (by rw [e]; exact List.mem_cons_self)⟩

end Verif.Py
