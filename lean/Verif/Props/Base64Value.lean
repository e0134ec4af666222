import Verif.Props.JuiceBase64
import Mathlib.Tactic.Ring
/-!
# C136: which bytes a base64 text stands for

`first_equals` says where a text ends; here is what it says up to there, stated with numbers: the letters are the digits of a number
to the base 64, the bytes are the digits to the base 256 of the same number, without the bits that do not fill a byte.
-/
namespace Verif.JuiceBase64
open Verif.Py Verif.Py.Base64

/-- The letters of a text; everything else is noise. -/
def lettersOf (p : List Nat) : List Nat := p.filter fun c => decide (c ∈ alphabet)

/-- The number whose digits to the base 64 are the letters. -/
def numberOf (p : List Nat) : Nat := (lettersOf p).foldl (fun n c => n * 64 + alphabet.idxOf c) 0

/-- The number whose digits to the base 256 are the bytes. -/
def bytesNumber (out : List Nat) : Nat := out.foldl (fun n b => n * 256 + b) 0

theorem value_idxOf : ∀ c ∈ alphabet, value c = some (alphabet.idxOf c) := by decide +kernel

theorem idxOf_lt {c : Nat} (h : c ∈ alphabet) : alphabet.idxOf c < 64 := by
  have := List.idxOf_lt_length_iff.mpr h
  have e : alphabet.length = 64 := by decide +kernel
  omega

theorem go_value (p : List Nat) (h : 61 ∉ p) : ∀ q l b, b = (4 - q) % 4 * 2 → q < 4 → l < 2 ^ b →
    ∃ out l' b', (∀ s, a2bGo q l b (p ++ s) = (a2bGo ((q + (lettersOf p).length) % 4) l' b' s).map (out ++ ·)) ∧
      8 * out.length + b' = b + 6 * (lettersOf p).length ∧ b' = (4 - (q + (lettersOf p).length) % 4) % 4 * 2 ∧ l' < 2 ^ b' ∧
      (∀ x ∈ out, x < 256) ∧
      ∀ acc, out.foldl (fun n b => n * 256 + b) acc * 2 ^ b' + l' =
        (lettersOf p).foldl (fun n c => n * 64 + alphabet.idxOf c) (acc * 2 ^ b + l) := by
  have hmap : ∀ r : Except PyErr (List Nat), r = r.map fun x => x := by intro r; cases r <;> rfl
  induction p with
  | nil =>
    intro q l b hb hq hl
    refine ⟨[], l, b, fun s => ?_, by simp [lettersOf], ?_, hl, by simp, by simp [lettersOf]⟩
    · simp only [lettersOf, List.nil_append, List.filter_nil, List.length_nil, Nat.add_zero, Nat.mod_eq_of_lt hq]
      exact hmap _
    · simp only [lettersOf, List.filter_nil, List.length_nil]; omega
  | cons c p ih =>
    intro q l b hb hq hl
    have hc : c ≠ 61 := fun e => h (by simp [e])
    have hp : 61 ∉ p := fun e => h (by simp [e])
    by_cases ha : c ∈ alphabet
    · have e : lettersOf (c :: p) = c :: lettersOf p := by simp [lettersOf, ha]
      have hv := value_idxOf c ha
      have hlt := idxOf_lt ha
      generalize alphabet.idxOf c = v at hv hlt
      have eq : (q + (lettersOf (c :: p)).length) % 4 = ((q + 1) % 4 + (lettersOf p).length) % 4 := by
        rw [e, List.length_cons]; omega
      by_cases h8 : 8 ≤ b + 6
      · obtain ⟨k, rfl⟩ : ∃ k, b = k + 2 := ⟨b - 2, by omega⟩
        have hk : k + 2 - 2 = k := by omega
        have hpk : 0 < 2 ^ k := Nat.two_pow_pos k
        have hx : (l * 64 + v) / 2 ^ k < 256 := by
          rw [Nat.div_lt_iff_lt_mul hpk]
          have : l < 2 ^ k * 4 := by simpa [Nat.pow_succ, Nat.mul_assoc] using hl
          omega
        obtain ⟨out, l', b', h1, h2, h3, h4, h5, h6⟩ := ih hp ((q + 1) % 4) ((l * 64 + v) % 2 ^ k) k (by omega) (by omega)
          (Nat.mod_lt _ hpk)
        refine ⟨((l * 64 + v) / 2 ^ k) :: out, l', b', fun s => ?_, ?_, ?_, h4, ?_, fun acc => ?_⟩
        · rw [eq, List.cons_append, a2bGo, if_neg hc, hv]
          simp only [h8, if_true, hk]
          rw [h1, Nat.mod_eq_of_lt hx]
          cases a2bGo (((q + 1) % 4 + (lettersOf p).length) % 4) l' b' s <;> rfl
        · rw [e, List.length_cons, List.length_cons]; omega
        · rw [eq]; exact h3
        · intro x hx'
          rcases List.mem_cons.mp hx' with rfl | hx'
          · exact hx
          · exact h5 x hx'
        · rw [e, List.foldl_cons, List.foldl_cons, h6]
          congr 1
          have hv' : alphabet.idxOf c = v := Option.some.inj ((value_idxOf c ha).symm.trans hv)
          rw [hv']
          have := Nat.div_add_mod (l * 64 + v) (2 ^ k)
          rw [Nat.pow_succ, Nat.pow_succ]
          calc _ = acc * 256 * 2 ^ k + (2 ^ k * ((l * 64 + v) / 2 ^ k) + (l * 64 + v) % 2 ^ k) := by ring
            _ = _ := by rw [this]; ring
      · have hb0 : b = 0 := by omega
        subst hb0
        obtain ⟨out, l', b', h1, h2, h3, h4, h5, h6⟩ := ih hp ((q + 1) % 4) (l * 64 + v) (0 + 6) (by omega) (by omega)
          (by simp at hl; simp; omega)
        refine ⟨out, l', b', fun s => ?_, ?_, ?_, h4, h5, fun acc => ?_⟩
        · rw [eq, List.cons_append, a2bGo, if_neg hc, hv]
          simp only [h8, if_false]
          rw [h1]
        · rw [e, List.length_cons]; omega
        · rw [eq]; exact h3
        · rw [e, List.foldl_cons, h6]
          congr 1
          have hv' : alphabet.idxOf c = v := Option.some.inj ((value_idxOf c ha).symm.trans hv)
          rw [hv']
          simp only [Nat.zero_add, Nat.pow_zero]
          ring
    · have e : lettersOf (c :: p) = lettersOf p := by simp [lettersOf, ha]
      have hv : value c = none := by
        cases hv : value c with
        | none => rfl
        | some v => exact absurd ((value_iff c).mp (by rw [hv]; rfl)) ha
      obtain ⟨out, l', b', h1, h2, h3, h4, h5, h6⟩ := ih hp q l b hb hq hl
      refine ⟨out, l', b', fun s => ?_, ?_, ?_, h4, h5, fun acc => ?_⟩
      · rw [e, List.cons_append, a2bGo, if_neg hc, hv]; exact h1 s
      · rw [e]; exact h2
      · rw [e]; exact h3
      · rw [e]; exact h6 acc

/-- **C136.** What a text stands for, up to its end or the `=` that ends it: bytes, six bits for each letter, in their order; bits that
do not fill a byte are dropped. -/
theorem read_value (p : List Nat) (h : 61 ∉ p) :
    let n := (lettersOf p).length
    ∃ out, out.length = n * 6 / 8 ∧ (∀ b ∈ out, b < 256) ∧ bytesNumber out = numberOf p / 2 ^ (n * 6 % 8) ∧
      (n % 4 = 0 → a2b p = .ok out) ∧
      ∀ s, n % 4 = 3 ∨ n % 4 = 2 ∧ (s.filter fun c => decide (c ∈ alphabet ∨ c = 61)).head? = some 61 →
        a2b (p ++ 61 :: s) = .ok out := by
  obtain ⟨out, l', b', h1, h2, h3, h4, h5, h6⟩ := go_value p h 0 0 0 rfl (by decide) (by decide)
  have h6 := h6 0
  simp only [Nat.zero_add, Nat.zero_mul] at h1 h2 h3 h6
  have hb : b' = (lettersOf p).length * 6 % 8 := by omega
  refine ⟨out, by omega, h5, ?_, fun hn => ?_, fun s hn => ?_⟩
  · unfold bytesNumber numberOf
    rw [← h6, ← hb, Nat.mul_comm, Nat.mul_add_div (Nat.two_pow_pos b'), Nat.div_eq_of_lt h4, Nat.add_zero]
  · have h1 := h1 []
    rw [List.append_nil] at h1
    unfold a2b
    rw [h1, a2bGo, if_neg (by omega)]
    simp [Except.map]
  · rw [← nextValid_filter] at hn
    unfold a2b
    rw [h1, a2bGo, if_pos rfl, if_neg]
    · simp [Except.map]
    · rintro (hx | ⟨hx, hy⟩)
      · omega
      · rcases hn with hn | ⟨_, hn⟩
        · omega
        · exact hy hn

/-- The length and the number determine the bytes. -/
theorem bytes_unique (a b : List Nat) (hl : a.length = b.length) (ha : ∀ x ∈ a, x < 256) (hb : ∀ x ∈ b, x < 256)
    (h : bytesNumber a = bytesNumber b) : a = b := by
  unfold bytesNumber at h
  suffices H : ∀ (a b : List Nat) (m n : Nat), a.length = b.length → (∀ x ∈ a, x < 256) → (∀ x ∈ b, x < 256) →
      a.foldl (fun n b => n * 256 + b) m = b.foldl (fun n b => n * 256 + b) n → m = n ∧ a = b from (H a b 0 0 hl ha hb h).2
  intro a
  induction a with
  | nil =>
    intro b m n hl _ _ h
    cases b with
    | nil => exact ⟨h, rfl⟩
    | cons y b => simp at hl
  | cons x a ih =>
    intro b m n hl ha hb h
    cases b with
    | nil => simp at hl
    | cons y b =>
      obtain ⟨h1, h2⟩ := ih b _ _ (by simpa using hl) (fun z hz => ha z (List.mem_cons_of_mem _ hz))
        (fun z hz => hb z (List.mem_cons_of_mem _ hz)) h
      dsimp only at h1
      have hx := ha x List.mem_cons_self
      have hy := hb y List.mem_cons_self
      exact ⟨by omega, by rw [h2]; congr 1; omega⟩

/-- `TWE=` is `Ma`; `T WE` with noise in it, too. -/
example : lettersOf [84, 32, 87, 69] = [84, 87, 69] ∧ numberOf [84, 32, 87, 69] = (19 * 64 + 22) * 64 + 4 ∧
    bytesNumber [77, 97] = numberOf [84, 32, 87, 69] / 2 ^ 2 ∧ (a2b [84, 32, 87, 69, 61]).toOption = some [77, 97] := by
  decide +kernel

end Verif.JuiceBase64
