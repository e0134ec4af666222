import Verif.Props.JuiceArgs
/-!
# C125: floats survive the box (`epsilon/juice.py:530-532`)
-/
namespace Verif.JuiceFloat
open Verif.Py Verif.Juice Verif.JuiceArgs

/-- The floats of IEEE 754, double precision: numbers `k * 2 ^ j` with a sign, the infinities, nan. -/
def Double : PyFloat → Prop
  | .fin _ q => ∃ (k : Nat) (j : Int), k < 2 ^ 53 ∧ -1074 ≤ j ∧ j ≤ 971 ∧ q = k * 2 ^ j
  | _ => True

theorem Double.valid {x : PyFloat} (h : Double x) : x.Valid := by
  cases x with
  | nan => trivial
  | inf => trivial
  | fin neg q =>
    obtain ⟨k, j, hk, hj, hj2, rfl⟩ := h
    refine ⟨mul_nonneg (Nat.cast_nonneg k) (zpow_pos (by norm_num) _).le, ?_, ?_⟩
    · have := roundF_exact (k : Int) j (by rw [abs_of_nonneg (by omega)]; exact_mod_cast hk) hj
      exact_mod_cast this
    · have h1 : (k : Rat) < 2 ^ 53 := by exact_mod_cast hk
      have h2 : (2 : Rat) ^ j ≤ 2 ^ (971 : Int) := zpow_le_zpow_right₀ (by norm_num) hj2
      have h3 : (0 : Rat) < 2 ^ j := zpow_pos (by norm_num) _
      calc (k : Rat) * 2 ^ j < 2 ^ 53 * 2 ^ j := by exact mul_lt_mul_of_pos_right h1 h3
        _ ≤ 2 ^ 53 * 2 ^ (971 : Int) := by exact mul_le_mul_of_nonneg_left h2 (by norm_num)
        _ = 2 ^ 1024 := by rw [show (971 : Int) = ((971 : Nat) : Int) from rfl, zpow_natCast, ← pow_add]

/-- C125: **every float arrives as it was sent**, bit for bit; `nan` as `nan`, and the zeros with their signs. -/
theorem float_exact (F : Floats) (shown : Obj → Str) (o : Bool) (x : PyFloat) (h : Double x) :
    ∃ s, (floatArg F shown o).enc (.float x) = .ok (.text s) ∧ (∀ c ∈ s, c < 128) ∧
      (floatArg F shown o).dec (.text s) = .ok (.float x) ∧ (floatArg F shown o).dec (.raw s) = .ok (.float x) := by
  have hr := asciiFloat_floatStr x h.valid
  have ha : ∀ c ∈ floatStr x, c < 128 := fun c hc => (floatStr_chars x h.valid c hc).1
  refine ⟨floatStr x, rfl, ha, ?_, ?_⟩
  · change (match F.float (floatStr x) with | some x => _ | none => _) = _
    rw [F.float_ascii _ ha, hr]
  · change (match asciiFloat (floatStr x) with | some x => _ | none => _) = _
    rw [hr]

theorem eq_self {x : PyFloat} (hn : x ≠ .nan) : x.eq x := by
  cases x with
  | nan => exact absurd rfl hn
  | inf => rfl
  | fin => exact ⟨rfl, .inl rfl⟩

/-- C125: so every float but `nan` survives. -/
theorem float_survives_partial (F : Floats) (shown : Obj → Str) (o : Bool) (x : PyFloat) (h : Double x) (hn : x ≠ .nan) :
    Survives (floatArg F shown o) (.float x) := by
  obtain ⟨s, h1, h2, h3, -⟩ := float_exact F shown o x h
  exact ⟨.text s, s, h1, rfl, fun c hc => .inl (by have := h2 c hc; omega), ⟨_, h3, .float (eq_self hn)⟩, ⟨_, h3, .float (eq_self hn)⟩⟩

/-- C125: `nan` does not: it arrives, and is not equal to what was sent. -/
theorem float_nan_fails (F : Floats) (shown : Obj → Str) (o : Bool) : ¬ Survives (floatArg F shown o) (.float .nan) := by
  rintro ⟨v, t, -, -, -, ⟨y, -, hs⟩, -⟩
  cases hs with
  | float h => exact h

/-- C125: and every non-empty list of floats survives `ListOf(Float())`. -/
theorem floats_survive_partial (F : Floats) (shown : Obj → Str) (o : Bool) (l : List PyFloat) (hl : l ≠ [])
    (h : ∀ x ∈ l, Double x ∧ x ≠ .nan) : Survives (listOf (floatArg F shown o) [44, 32]) (.list (l.map .float)) := by
  apply listOf_survives_partial
  · simp
  · decide
  · decide
  · simpa using hl
  · intro y hy
    obtain ⟨x, hx, rfl⟩ := List.mem_map.1 hy
    obtain ⟨hd, hn⟩ := h x hx
    refine ⟨float_survives_partial F shown o x hd hn, floatStr x, rfl, ?_⟩
    intro hi
    have : 44 ∈ floatStr x := hi.subset (by simp)
    exact (floatStr_chars x hd.valid 44 this).2.1 rfl

/-- What arrives when an integer is sent. -/
theorem float_of_integer (F : Floats) (shown : Obj → Str) (o : Bool) (n : Int) :
    ∃ s, (floatArg F shown o).enc (.int n) = .ok (.text s) ∧
      (floatArg F shown o).dec (.text s) = .ok (.float (.ofRat (decide (n < 0)) |(n : Rat)|)) := by
  refine ⟨intStr n, rfl, ?_⟩
  change (match F.float (intStr n) with | some x => _ | none => _) = _
  rw [F.float_ascii _ (intStr_ascii n), asciiFloat_intStr]

/-- C125: **integers below 2⁵³ arrive as floats of the same value**. -/
theorem float_integer_partial (F : Floats) (shown : Obj → Str) (o : Bool) (n : Int) (h : |n| < 2 ^ 53) :
    ∃ s, (floatArg F shown o).enc (.int n) = .ok (.text s) ∧
      (floatArg F shown o).dec (.text s) = .ok (.float (.fin (decide (n < 0)) |(n : Rat)|)) := by
  obtain ⟨s, h1, h2⟩ := float_of_integer F shown o n
  refine ⟨s, h1, ?_⟩
  rw [h2]
  have hr : roundF |(n : Rat)| = |(n : Rat)| := by
    have := roundF_int |n| (by rw [abs_abs]; exact h)
    exact_mod_cast this
  have hlt : |(n : Rat)| < 2 ^ 1024 := by
    have : |(n : Rat)| < 2 ^ 53 := by exact_mod_cast h
    exact lt_trans this (pow_lt_pow_right₀ (by norm_num) (by norm_num))
  unfold PyFloat.ofRat
  rw [hr, if_neg (not_le.2 hlt)]

/-- C125: larger ones, below 2¹⁰²³, arrive as floats of nearly the same value: off by one part in 2⁵³ at most. -/
theorem float_integer_near (F : Floats) (shown : Obj → Str) (o : Bool) (n : Int) (b : Nat) (hb : b ≤ 1023) (h : |n| < 2 ^ b) :
    ∃ s q, (floatArg F shown o).enc (.int n) = .ok (.text s) ∧
      (floatArg F shown o).dec (.text s) = .ok (.float (.fin (decide (n < 0)) q)) ∧ abs (q - |(n : Rat)|) ≤ 2 ^ ((b : Int) - 54) := by
  obtain ⟨s, h1, h2⟩ := float_of_integer F shown o n
  have h' : |(n : Rat)| < 2 ^ b := by exact_mod_cast h
  have he : abs (roundF |(n : Rat)| - |(n : Rat)|) ≤ 2 ^ ((b : Int) - 54) :=
    roundF_error _ (b : Int) (by rw [abs_abs, zpow_natCast]; exact h') (by omega)
  refine ⟨s, roundF |(n : Rat)|, h1, ?_, he⟩
  rw [h2]
  unfold PyFloat.ofRat
  rw [if_neg]
  rw [not_le]
  have h3 : (2 : Rat) ^ ((b : Int) - 54) ≤ 2 ^ (b : Int) := zpow_le_zpow_right₀ (by norm_num) (by omega)
  rw [zpow_natCast] at h3
  have h4 : (2 : Rat) ^ b ≤ 2 ^ 1023 := pow_le_pow_right₀ (by norm_num) hb
  have h5 := le_trans (le_abs_self _) he
  have h6 : (2 : Rat) ^ 1024 = 2 ^ 1023 + 2 ^ 1023 := by rw [← two_mul, ← pow_succ']
  rw [h6]
  generalize (2 : Rat) ^ 1023 = A at h4 ⊢
  clear h6
  linarith

/-- C125 is false for integers beyond: 2⁵³ + 1 arrives as 2⁵³, 10³⁰⁹ as infinity, and -10³⁰⁹ as minus infinity. -/
theorem float_integer_fails (F : Floats) (shown : Obj → Str) (o : Bool) :
    (∃ s, (floatArg F shown o).enc (.int (2 ^ 53 + 1)) = .ok (.text s) ∧
      (floatArg F shown o).dec (.text s) = .ok (.float (.fin false (2 ^ 53)))) ∧
    (∃ s, (floatArg F shown o).enc (.int (10 ^ 309)) = .ok (.text s) ∧
      (floatArg F shown o).dec (.text s) = .ok (.float (.inf false))) ∧
    ∃ s, (floatArg F shown o).enc (.int (-10 ^ 309)) = .ok (.text s) ∧
      (floatArg F shown o).dec (.text s) = .ok (.float (.inf true)) := by
  refine ⟨?_, ?_, ?_⟩
  · obtain ⟨s, h1, h2⟩ := float_of_integer F shown o (2 ^ 53 + 1)
    have : PyFloat.ofRat (decide ((2 ^ 53 + 1 : Int) < 0)) |((2 ^ 53 + 1 : Int) : Rat)| = .fin false (2 ^ 53) := by decide +kernel
    rw [this] at h2
    exact ⟨s, h1, h2⟩
  · obtain ⟨s, h1, h2⟩ := float_of_integer F shown o (10 ^ 309)
    have : PyFloat.ofRat (decide ((10 ^ 309 : Int) < 0)) |((10 ^ 309 : Int) : Rat)| = .inf false := by decide +kernel
    rw [this] at h2
    exact ⟨s, h1, h2⟩
  · obtain ⟨s, h1, h2⟩ := float_of_integer F shown o (-10 ^ 309)
    have : PyFloat.ofRat (decide ((-10 ^ 309 : Int) < 0)) |((-10 ^ 309 : Int) : Rat)| = .inf true := by decide +kernel
    rw [this] at h2
    exact ⟨s, h1, h2⟩

/-- C125: `Float` takes anything; what is no number is refused by the receiver only. -/
theorem float_anything_fails (F : Floats) (shown : Obj → Str) (o : Bool) :
    (∀ x, ∃ s, (floatArg F shown o).enc x = .ok (.text s)) ∧
    (∃ s, (floatArg F shown o).enc .none = .ok (.text s) ∧ (floatArg F shown o).dec (.text s) = .error .valueError) ∧
    (∀ b, ∃ s, (floatArg F shown o).enc (.bool b) = .ok (.text s) ∧ (floatArg F shown o).dec (.text s) = .error .valueError) ∧
    ∃ s, (floatArg F shown o).enc (.str [49, 44, 53]) = .ok (.text s) ∧ (floatArg F shown o).dec (.text s) = .error .valueError := by
  have key : ∀ s : Str, (∀ c ∈ s, c < 128) → asciiFloat s = none → (floatArg F shown o).dec (.text s) = .error .valueError := by
    intro s ha hr
    change (match F.float s with | some x => _ | none => _) = _
    rw [F.float_ascii _ ha, hr]
  refine ⟨?_, ⟨_, rfl, key _ (by decide) (by decide +kernel)⟩, ?_, ⟨_, rfl, key _ (by decide) (by decide +kernel)⟩⟩
  · intro x; cases x <;> exact ⟨_, rfl⟩
  · intro b
    cases b
    · exact ⟨_, rfl, key _ (by decide) (by decide +kernel)⟩
    · exact ⟨_, rfl, key _ (by decide) (by decide +kernel)⟩

/-- The float `0.1 + 0.2` -/
def third : PyFloat := .fin false (5404319552844596 * 2 ^ (-54 : Int))

/-- C125 is false on Python 2, whose `str` writes twelve digits: `0.1 + 0.2` arrives as `0.3`, another float. -/
theorem float_py2_fails : Double third ∧ floatStr2 third = [48, 46, 51] ∧ asciiFloat [48, 46, 51] ≠ some third :=
  ⟨⟨5404319552844596, -54, by norm_num, by norm_num, by norm_num, by norm_num⟩, by decide +kernel, by decide +kernel⟩

/-! ### Concrete cases -/

/-- 0.1 + 0.2, the least and the greatest float, minus zero and minus infinity are floats, and other floats are not. -/
example : Double third ∧ Double (.fin false (1 * 2 ^ (-1074 : Int))) ∧ Double (.fin true 0) ∧ Double (.inf true) :=
  ⟨float_py2_fails.1, ⟨1, -1074, by norm_num, by norm_num, by norm_num, by norm_num⟩,
    ⟨0, 0, by norm_num, by norm_num, by norm_num, by norm_num⟩, trivial⟩

/-- `str(0.1 + 0.2)` is `'0.30000000000000004'` -/
example : floatStr third = [48, 46, 51, 48, 48, 48, 48, 48, 48, 48, 48, 48, 48, 48, 48, 48, 48, 48, 52] := by decide +kernel

/-- `str(-2.5e-07)` is `'-2.5e-07'`; `str(1e16)` is `'1e+16'`; `str(1e15)` has its zeros; `str(-0.0)` is `'-0.0'`. -/
example : asciiFloat [45, 50, 46, 53, 101, 45, 48, 55] ≠ none ∧
    (asciiFloat [45, 50, 46, 53, 101, 45, 48, 55]).map floatStr = some [45, 50, 46, 53, 101, 45, 48, 55] ∧
    floatStr (.fin false (10 ^ 16)) = [49, 101, 43, 49, 54] ∧
    floatStr (.fin false (10 ^ 15)) = [49, 48, 48, 48, 48, 48, 48, 48, 48, 48, 48, 48, 48, 48, 48, 48, 46, 48] ∧
    floatStr (.fin true 0) = [45, 48, 46, 48] := by decide +kernel

example : Survives (listOf (floatArg Floats.ascii (fun _ => []) false) [44, 32]) (.list [.float third, .float (.inf true)]) :=
  floats_survive_partial _ _ _ [third, .inf true] (by simp) (by
    intro x hx
    rcases List.mem_cons.1 hx with rfl | hx
    · exact ⟨float_py2_fails.1, by decide⟩
    · rw [List.mem_singleton.1 hx]; exact ⟨trivial, by decide⟩)

example : |(-7 : Int)| < 2 ^ 53 ∧ |(10 ^ 30 : Int)| < 2 ^ 100 := by
  constructor <;> norm_num

end Verif.JuiceFloat
