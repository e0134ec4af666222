import Verif.Model.JuiceBase64
import Verif.Props.JuiceArgs
/-!
# C136 — `Base64Binary` on Python 2
-/
namespace Verif.JuiceBase64
open Verif.Py Verif.Py.Base64 Verif.JuiceArgs

/-! ## The alphabet -/

/-- `A`-`Z`, `a`-`z`, `0`-`9`, `+`, `/`, written out. -/
def alphabet : List Nat :=
  [65, 66, 67, 68, 69, 70, 71, 72, 73, 74, 75, 76, 77, 78, 79, 80, 81, 82, 83, 84, 85, 86, 87, 88, 89, 90,
    97, 98, 99, 100, 101, 102, 103, 104, 105, 106, 107, 108, 109, 110, 111, 112, 113, 114, 115, 116, 117, 118, 119, 120, 121, 122,
    48, 49, 50, 51, 52, 53, 54, 55, 56, 57, 43, 47]

theorem stdChar_get : ∀ d < 64, alphabet[d]? = some (stdChar d) := by decide

theorem value_stdChar : ∀ d < 64, value (stdChar d) = some d := by decide

theorem stdChar_mem : ∀ d < 64, stdChar d ∈ alphabet := by decide

theorem alphabet_small : ∀ c ∈ alphabet, c < 128 ∧ c ≠ 61 ∧ c ≠ 10 := by decide

theorem value_iff (c : Nat) : (value c).isSome = true ↔ c ∈ alphabet := by
  unfold value alphabet
  simp only [List.mem_cons, List.not_mem_nil, or_false]
  repeat' split
  all_goals simp only [Option.isSome_some, Option.isSome_none, Bool.false_eq_true, true_iff, false_iff]
  all_goals omega

theorem value_lt (c v : Nat) (h : value c = some v) : v < 64 := by
  unfold value at h
  repeat' split at h
  all_goals first | (cases h; omega) | cases h

/-! ## Writing -/

theorem b2a_append (a b : List Nat) (h : 3 ∣ a.length) : b2a (a ++ b) = b2a a ++ b2a b := by
  fun_induction b2a a with
  | case1 => rfl
  | case2 x => simp only [List.length_cons, List.length_nil] at h; omega
  | case3 x y => simp only [List.length_cons, List.length_nil] at h; omega
  | case4 x y z r ih =>
    simp only [List.length_cons] at h
    rw [List.cons_append, List.cons_append, List.cons_append, b2a, ih (by omega)]
    rfl

theorem b2a_mem (s : List Nat) (h : ∀ c ∈ s, c < 256) : ∀ c ∈ b2a s, c ∈ alphabet ∨ c = 61 := by
  have key : ∀ d < 64, stdChar d ∈ alphabet ∨ stdChar d = 61 := fun d hd => Or.inl (stdChar_mem d hd)
  fun_induction b2a s with
  | case1 => simp
  | case2 x =>
    have hx := h x (by simp)
    intro c hc
    simp only [List.mem_cons, List.not_mem_nil, or_false] at hc
    rcases hc with rfl | rfl | rfl | rfl
    · exact key _ (by omega)
    · exact key _ (by omega)
    · exact Or.inr rfl
    · exact Or.inr rfl
  | case3 x y =>
    have hx := h x (by simp); have hy := h y (by simp)
    intro c hc
    simp only [List.mem_cons, List.not_mem_nil, or_false] at hc
    rcases hc with rfl | rfl | rfl | rfl
    · exact key _ (by omega)
    · exact key _ (by omega)
    · exact key _ (by omega)
    · exact Or.inr rfl
  | case4 x y z r ih =>
    have hx := h x (by simp); have hy := h y (by simp); have hz := h z (by simp)
    intro c hc
    simp only [List.mem_cons] at hc
    rcases hc with rfl | rfl | rfl | rfl | hc
    · exact key _ (by omega)
    · exact key _ (by omega)
    · exact key _ (by omega)
    · exact key _ (by omega)
    · exact ih (fun c hc => h c (by simp [hc])) c hc

theorem toStr_b2a (s : List Nat) (h : ∀ c ∈ s, c < 256) : toStr s = b2a s := by
  have hf : ∀ s : List Nat, (∀ c ∈ s, c < 256) → (b2a s).filter (· != 10) = b2a s := by
    intro s hs
    rw [List.filter_eq_self]
    intro c hc
    rcases b2a_mem s hs c hc with hc | rfl
    · simpa using (alphabet_small c hc).2.2
    · rfl
  unfold toStr
  fun_induction encodestring s with
  | case1 => rfl
  | case2 s hne ih =>
    rw [List.filter_append, List.filter_cons, ih fun c hc => h c (List.mem_of_mem_drop hc),
      hf _ fun c hc => h c (List.mem_of_mem_take hc)]
    simp only [bne_self_eq_false, Bool.false_eq_true, if_false]
    by_cases hl : 57 ≤ s.length
    · rw [← b2a_append _ _ (by rw [List.length_take, Nat.min_eq_left hl]; decide), List.take_append_drop]
    · rw [List.take_of_length_le (by omega), List.drop_of_length_le (by omega)]
      simp [b2a]

/-- **C136.**  The text has four characters for each three bytes or part of them, all of the alphabet or `=`: no line feed, colon or
comma. -/
theorem text_shape (s : List Nat) (h : ∀ c ∈ s, c < 256) :
    (toStr s).length = (s.length + 2) / 3 * 4 ∧ ∀ c ∈ toStr s, c ∈ alphabet ∨ c = 61 := by
  rw [toStr_b2a s h]
  refine ⟨?_, b2a_mem s h⟩
  clear h
  fun_induction b2a s with
  | case1 => rfl
  | case2 => simp
  | case3 => simp
  | case4 x y z r ih => simp only [List.length_cons, ih]; omega

/-! ## Reading -/

theorem go_quad (v1 v2 v3 v4 : Nat) (h1 : v1 < 64) (h2 : v2 < 64) (h3 : v3 < 64) (h4 : v4 < 64) (s : List Nat) :
    a2bGo 0 0 0 (stdChar v1 :: stdChar v2 :: stdChar v3 :: stdChar v4 :: s) =
      (a2bGo 0 0 0 s).map fun r => (v1 * 4 + v2 / 16) :: (v2 % 16 * 16 + v3 / 4) :: (v3 % 4 * 64 + v4) :: r := by
  have ne : ∀ v < 64, stdChar v ≠ 61 := fun v hv => (alphabet_small _ (stdChar_mem v hv)).2.1
  have d1 : 8 ≤ 6 + 6 := by omega
  rw [a2bGo, if_neg (ne v1 h1), value_stdChar v1 h1]
  simp only [Nat.zero_add, show ¬ (8 ≤ 6) by omega, if_false]
  rw [a2bGo, if_neg (ne v2 h2), value_stdChar v2 h2]
  simp only [show (8 ≤ 6 + 6) by omega, if_true]
  rw [a2bGo, if_neg (ne v3 h3), value_stdChar v3 h3]
  simp only [show (8 ≤ 6 - 2 + 6) by omega, if_true]
  rw [a2bGo, if_neg (ne v4 h4), value_stdChar v4 h4]
  simp only [show (8 ≤ 6 - 2 - 2 + 6) by omega, if_true]
  have e0 : ((((1 % 4 + 1) % 4 + 1) % 4 + 1) % 4) = 0 := by decide
  rw [e0]
  norm_num only [Nat.pow_zero, Nat.mod_one, Nat.div_one]
  cases a2bGo 0 0 0 s with
  | error e => rfl
  | ok r =>
    simp only [Except.map]
    congr 2
    · omega
    · congr 1
      · omega
      · congr 1; omega

theorem go_pad2 (v1 v2 : Nat) (h1 : v1 < 64) (h2 : v2 < 64) (s : List Nat) :
    a2bGo 0 0 0 (stdChar v1 :: stdChar v2 :: 61 :: 61 :: s) = .ok [v1 * 4 + v2 / 16] := by
  have ne : ∀ v < 64, stdChar v ≠ 61 := fun v hv => (alphabet_small _ (stdChar_mem v hv)).2.1
  rw [a2bGo, if_neg (ne v1 h1), value_stdChar v1 h1]
  simp only [Nat.zero_add, show ¬ (8 ≤ 6) by omega, if_false]
  rw [a2bGo, if_neg (ne v2 h2), value_stdChar v2 h2]
  simp only [show (8 ≤ 6 + 6) by omega, if_true]
  rw [a2bGo, if_pos rfl, if_neg]
  · simp only [Except.map]
    congr 2
    omega
  · have : nextValid (61 :: s) = some 61 := rfl
    rw [this]; simp

theorem go_pad1 (v1 v2 v3 : Nat) (h1 : v1 < 64) (h2 : v2 < 64) (h3 : v3 < 64) (s : List Nat) :
    a2bGo 0 0 0 (stdChar v1 :: stdChar v2 :: stdChar v3 :: 61 :: s) = .ok [v1 * 4 + v2 / 16, v2 % 16 * 16 + v3 / 4] := by
  have ne : ∀ v < 64, stdChar v ≠ 61 := fun v hv => (alphabet_small _ (stdChar_mem v hv)).2.1
  rw [a2bGo, if_neg (ne v1 h1), value_stdChar v1 h1]
  simp only [Nat.zero_add, show ¬ (8 ≤ 6) by omega, if_false]
  rw [a2bGo, if_neg (ne v2 h2), value_stdChar v2 h2]
  simp only [show (8 ≤ 6 + 6) by omega, if_true]
  rw [a2bGo, if_neg (ne v3 h3), value_stdChar v3 h3]
  simp only [show (8 ≤ 6 - 2 + 6) by omega, if_true]
  rw [a2bGo, if_pos rfl, if_neg (by omega)]
  simp only [Except.map]
  norm_num only
  congr 2
  · omega
  · congr 1; omega

theorem a2b_b2a (s : List Nat) (h : ∀ c ∈ s, c < 256) : a2b (b2a s) = .ok s := by
  unfold a2b
  fun_induction b2a s with
  | case1 => rfl
  | case2 x =>
    have hx := h x (by simp)
    rw [go_pad2 _ _ (by omega) (by omega)]
    congr 2; omega
  | case3 x y =>
    have hx := h x (by simp); have hy := h y (by simp)
    rw [go_pad1 _ _ _ (by omega) (by omega) (by omega)]
    congr 2
    · omega
    · congr 1; omega
  | case4 x y z r ih =>
    have hx := h x (by simp); have hy := h y (by simp); have hz := h z (by simp)
    rw [go_quad _ _ _ _ (by omega) (by omega) (by omega) (by omega), ih fun c hc => h c (by simp [hc])]
    simp only [Except.map]
    congr 2
    · omega
    · congr 1
      · omega
      · congr 1; omega

theorem go_junk (s : List Nat) : ∀ q l b, a2bGo q l b s = a2bGo q l b (s.filter fun c => decide (c ∈ alphabet ∨ c = 61)) := by
  have hn : ∀ s : List Nat, nextValid (s.filter fun c => decide (c ∈ alphabet ∨ c = 61)) = nextValid s := by
    intro s
    unfold nextValid
    induction s with
    | nil => rfl
    | cons c s ih =>
      by_cases hc : c ∈ alphabet ∨ c = 61
      · rw [List.filter_cons, if_pos (by simpa using hc), List.find?_cons, List.find?_cons]
        have : ((value c).isSome || c == 61) = true := by
          rcases hc with hc | hc
          · rw [(value_iff c).mpr hc]; rfl
          · subst hc; rfl
        rw [this]
      · rw [List.filter_cons, if_neg (by simpa using hc), ih, List.find?_cons]
        have : ((value c).isSome || c == 61) = false := by
          rw [Bool.or_eq_false_iff]
          refine ⟨?_, by simpa using fun h => hc (Or.inr h)⟩
          rw [← Bool.not_eq_true, value_iff]; exact fun h => hc (Or.inl h)
        rw [this]
  induction s with
  | nil => intro q l b; rfl
  | cons c s ih =>
    intro q l b
    by_cases hc : c ∈ alphabet ∨ c = 61
    · rw [List.filter_cons, if_pos (by simpa using hc), a2bGo, a2bGo, hn]
      by_cases h61 : c = 61
      · rw [if_pos h61, if_pos h61, ← ih]
      · rw [if_neg h61, if_neg h61]
        cases value c with
        | none => exact ih q l b
        | some v => simp only; rw [← ih, ← ih]
    · rw [List.filter_cons, if_neg (by simpa using hc), a2bGo, if_neg fun h => hc (Or.inr h), ← ih]
      have : value c = none := by
        have := (value_iff c).not.mpr fun h => hc (Or.inl h)
        cases hv : value c with
        | none => rfl
        | some v => rw [hv] at this; exact absurd rfl this
      rw [this]

/-- **C136.**  Other characters in the text (line feeds, spaces) do not matter. -/
theorem junk_ignored (s : List Nat) : a2b s = a2b (s.filter fun c => decide (c ∈ alphabet ∨ c = 61)) := go_junk s 0 0 0

theorem go_letters (s : List Nat) (h : ∀ c ∈ s, c ∈ alphabet) : ∀ q l b, b = (4 - q) % 4 * 2 → q < 4 →
    ((∃ r, a2bGo q l b s = .ok r) ↔ (q + s.length) % 4 = 0) ∧
      (∀ e, a2bGo q l b s = .error e → e = .other "binascii.Error") := by
  induction s with
  | nil =>
    intro q l b hb hq
    rw [a2bGo]
    constructor
    · split
      · constructor
        · rintro ⟨r, hr⟩; cases hr
        · intro h; simp only [List.length_nil] at h; omega
      · constructor
        · intro _; simp only [List.length_nil]; omega
        · intro _; exact ⟨[], rfl⟩
    · intro e he
      split at he
      · cases he; rfl
      · cases he
  | cons c s ih =>
    intro q l b hb hq
    have hc := h c (by simp)
    have h61 := (alphabet_small c hc).2.1
    have hv := (value_iff c).mpr hc
    obtain ⟨v, hv⟩ := Option.isSome_iff_exists.mp hv
    rw [a2bGo, if_neg h61, hv]
    simp only
    have hs := fun c hc => h c (List.mem_cons_of_mem _ hc)
    split
    · rename_i h8
      have := ih hs ((q + 1) % 4) ((l * 64 + v) % 2 ^ (b - 2)) (b - 2) (by omega) (by omega)
      have hlen : ((q + 1) % 4 + s.length) % 4 = 0 ↔ (q + (c :: s).length) % 4 = 0 := by
        simp only [List.length_cons]; omega
      rw [hlen] at this
      constructor
      · rw [← this.1]
        constructor
        · rintro ⟨r, hr⟩
          cases hg : a2bGo ((q + 1) % 4) ((l * 64 + v) % 2 ^ (b - 2)) (b - 2) s with
          | error e => rw [hg] at hr; cases hr
          | ok r' => exact ⟨r', rfl⟩
        · rintro ⟨r, hr⟩; exact ⟨_, by rw [hr]; rfl⟩
      · intro e he
        refine this.2 e ?_
        cases hg : a2bGo ((q + 1) % 4) ((l * 64 + v) % 2 ^ (b - 2)) (b - 2) s with
        | error e' => rw [hg] at he; cases he; rfl
        | ok r' => rw [hg] at he; cases he
    · rename_i h8
      have := ih hs ((q + 1) % 4) (l * 64 + v) (b + 6) (by omega) (by omega)
      have hlen : ((q + 1) % 4 + s.length) % 4 = 0 ↔ (q + (c :: s).length) % 4 = 0 := by
        simp only [List.length_cons]; omega
      rw [hlen] at this
      exact this

theorem go_prefix (p : List Nat) (h : 61 ∉ p) : ∀ q l b, b = (4 - q) % 4 * 2 → q < 4 →
    ∃ out l' b', (∀ s, a2bGo q l b (p ++ s) = (a2bGo ((q + (p.filter fun c => decide (c ∈ alphabet)).length) % 4) l' b' s).map (out ++ ·)) ∧
      8 * out.length + b' = b + 6 * (p.filter fun c => decide (c ∈ alphabet)).length ∧
      b' = (4 - (q + (p.filter fun c => decide (c ∈ alphabet)).length) % 4) % 4 * 2 := by
  have hmap : ∀ r : Except PyErr (List Nat), r = r.map fun x => x := by intro r; cases r <;> rfl
  induction p with
  | nil =>
    intro q l b hb hq
    refine ⟨[], l, b, fun s => ?_, by simp, ?_⟩
    · simp only [List.nil_append, List.filter_nil, List.length_nil, Nat.add_zero, Nat.mod_eq_of_lt hq]
      exact hmap _
    · simp only [List.filter_nil, List.length_nil]; omega
  | cons c p ih =>
    intro q l b hb hq
    have hc : c ≠ 61 := fun e => h (by simp [e])
    have hp : 61 ∉ p := fun e => h (by simp [e])
    by_cases ha : c ∈ alphabet
    · have e : ((c :: p).filter fun c => decide (c ∈ alphabet)).length = (p.filter fun c => decide (c ∈ alphabet)).length + 1 := by
        simp [ha]
      obtain ⟨v, hv⟩ := Option.isSome_iff_exists.mp ((value_iff c).mpr ha)
      have eq : (q + ((c :: p).filter fun c => decide (c ∈ alphabet)).length) % 4 =
          ((q + 1) % 4 + (p.filter fun c => decide (c ∈ alphabet)).length) % 4 := by rw [e]; omega
      by_cases h8 : 8 ≤ b + 6
      · obtain ⟨out, l', b', h1, h2, h3⟩ := ih hp ((q + 1) % 4) ((l * 64 + v) % 2 ^ (b - 2)) (b - 2) (by omega) (by omega)
        refine ⟨((l * 64 + v) / 2 ^ (b - 2) % 256) :: out, l', b', fun s => ?_, ?_, ?_⟩
        · rw [eq, List.cons_append, a2bGo, if_neg hc, hv]
          simp only [h8, if_true]
          rw [h1]
          cases a2bGo (((q + 1) % 4 + (p.filter fun c => decide (c ∈ alphabet)).length) % 4) l' b' s <;> rfl
        · rw [e, List.length_cons]; omega
        · rw [eq]; exact h3
      · obtain ⟨out, l', b', h1, h2, h3⟩ := ih hp ((q + 1) % 4) (l * 64 + v) (b + 6) (by omega) (by omega)
        refine ⟨out, l', b', fun s => ?_, ?_, ?_⟩
        · rw [eq, List.cons_append, a2bGo, if_neg hc, hv]
          simp only [h8, if_false]
          rw [h1]
        · rw [e]; omega
        · rw [eq]; exact h3
    · have e : ((c :: p).filter fun c => decide (c ∈ alphabet)) = p.filter fun c => decide (c ∈ alphabet) := by simp [ha]
      have hv : value c = none := by
        cases hv : value c with
        | none => rfl
        | some v => exact absurd ((value_iff c).mp (by rw [hv]; rfl)) ha
      obtain ⟨out, l', b', h1, h2, h3⟩ := ih hp q l b hb hq
      refine ⟨out, l', b', fun s => ?_, by rw [e]; exact h2, by rw [e]; exact h3⟩
      rw [e, List.cons_append, a2bGo, if_neg hc, hv]
      exact h1 s

theorem nextValid_filter (s : List Nat) : nextValid s = (s.filter fun c => decide (c ∈ alphabet ∨ c = 61)).head? := by
  unfold nextValid
  rw [List.head?_filter]
  congr 1
  funext c
  rw [Bool.eq_iff_iff]
  simp only [Bool.or_eq_true, beq_iff_eq, decide_eq_true_eq, value_iff]

/-- **C136.** The first `=` of a text ends it after two letters of a group of four if another `=` comes next, and after three in any
case; then all before it has been read, in whole bytes, and nothing after it matters. Anywhere else it is as if it were not there. -/
theorem first_equals (p : List Nat) (h : 61 ∉ p) :
    let n := (p.filter fun c => decide (c ∈ alphabet)).length
    let twice (s : List Nat) : Prop := (s.filter fun c => decide (c ∈ alphabet ∨ c = 61)).head? = some 61
    (∃ out, out.length = n * 6 / 8 ∧ ∀ s, n % 4 = 3 ∨ n % 4 = 2 ∧ twice s → a2b (p ++ 61 :: s) = .ok out) ∧
    (∀ s, n % 4 < 2 ∨ n % 4 = 2 ∧ ¬ twice s → a2b (p ++ 61 :: s) = a2b (p ++ s)) := by
  obtain ⟨out, l', b', h1, h2, h3⟩ := go_prefix p h 0 0 0 rfl (by decide)
  simp only [Nat.zero_add] at h1 h2 h3
  generalize (p.filter fun c => decide (c ∈ alphabet)).length = n at h1 h2 h3 ⊢
  simp only
  unfold a2b
  refine ⟨⟨out, by omega, fun s hn => ?_⟩, fun s hn => ?_⟩
  · rw [← nextValid_filter] at hn
    rw [h1, a2bGo, if_pos rfl, if_neg]
    · simp [Except.map]
    · rintro (hx | ⟨hx, hy⟩)
      · omega
      · rcases hn with hn | ⟨_, hn⟩
        · omega
        · exact hy hn
  · rw [← nextValid_filter] at hn
    rw [h1, h1, a2bGo, if_pos rfl, if_pos hn]

/-- **C136.**  A text without `=` is refused, with `binascii.Error`, exactly if the number of its letters is not a multiple of four. -/
theorem incomplete_refused (s : List Nat) (h : 61 ∉ s) :
    ((s.filter fun c => decide (c ∈ alphabet)).length % 4 ≠ 0 ↔ a2b s = .error (.other "binascii.Error")) := by
  have e : (s.filter fun c => decide (c ∈ alphabet ∨ c = 61)) = s.filter fun c => decide (c ∈ alphabet) := by
    apply List.filter_congr
    intro c hc
    have : c ≠ 61 := fun e => h (e ▸ hc)
    simp [this]
  rw [junk_ignored, e]
  have := go_letters (s.filter fun c => decide (c ∈ alphabet)) (fun c hc => by simpa using (List.mem_filter.mp hc).2) 0 0 0 rfl
    (by decide)
  rw [Nat.zero_add] at this
  unfold a2b
  rw [← not_iff_not, not_not, ← this.1]
  constructor
  · rintro ⟨r, hr⟩ he; rw [hr] at he; cases he
  · intro hne
    cases hg : a2bGo 0 0 0 (s.filter fun c => decide (c ∈ alphabet)) with
    | ok r => exact ⟨r, rfl⟩
    | error e => exact absurd (by rw [hg, this.2 e hg]) hne

/-- **C136.**  Every byte string survives, also in a box that crosses the wire. -/
theorem base64_survives (o : Bool) (s : List Nat) (h : ∀ c ∈ s, c < 256) : Survives (base64Binary2 o) (.str s) := by
  have hall : s.all (· < 256) = true := by simpa using h
  have hs := text_shape s h
  have hd : (Base64.a2b (toStr s)).map Obj.str = .ok (.str s) := by rw [toStr_b2a s h, a2b_b2a s h]; rfl
  refine ⟨.text (toStr s), toStr s, if_pos hall, rfl, ?_, ⟨.str s, hd, .str s⟩, ⟨.str s, hd, .str s⟩⟩
  intro c hc
  have : c < 128 := by
    rcases hs.2 c hc with hc | rfl
    · exact (alphabet_small c hc).1
    · decide
  unfold IsScalar
  omega

/-- …and so does every list of byte strings that is not empty, if the delimiter of the `ListOf` has some other character (and does
not overlap itself). -/
theorem base64_lists (o : Bool) (delimiter : List Nat) (hub : Unbordered delimiter) (hsc : ∀ ch ∈ delimiter, IsScalar ch)
    (hd : ∃ c ∈ delimiter, c ∉ alphabet ∧ c ≠ 61) (l : List (List Nat)) (hl : l ≠ []) (h : ∀ s ∈ l, ∀ c ∈ s, c < 256) :
    Survives (listOf (base64Binary2 o) delimiter) (.list (l.map .str)) := by
  obtain ⟨c, hc, hc1, hc2⟩ := hd
  refine listOf_survives_partial _ delimiter (List.ne_nil_of_mem hc) hub hsc _ (by simpa using hl) ?_
  intro x hx
  obtain ⟨s, hs, rfl⟩ := List.mem_map.mp hx
  refine ⟨base64_survives o s (h s hs), toStr s, ?_, ?_⟩
  · have hall : s.all (· < 256) = true := by simpa using h s hs
    exact if_pos hall
  · intro hin
    rcases (text_shape s (h s hs)).2 c (hin.subset hc) with h' | h'
    · exact hc1 h'
    · exact hc2 h'

/-- Concrete: `'\x00\xff'` is written `AP8=`; `ListOf` with its usual delimiter; the letters of `Q U J D` with a line feed. -/
example : toStr [0, 255] = [65, 80, 56, 61] ∧ a2b [65, 80, 56, 61] = .ok [0, 255] := by
  rw [toStr_b2a _ (by decide)]; exact ⟨rfl, rfl⟩
example : Survives (listOf (base64Binary2 false) [44, 32]) (.list ([[0, 255], [], [10]].map .str)) :=
  base64_lists false [44, 32] (by decide) (by decide) ⟨44, by decide, by decide, by decide⟩ [[0, 255], [], [10]] (by decide) (by decide)
example : a2b [81, 85, 10, 74, 68] = .ok [65, 66, 67] ∧ a2b [81, 85, 74] = .error (.other "binascii.Error") := ⟨rfl, rfl⟩
/-- After one letter, or after two and before a third, `=` does not count. -/
example : a2b [81, 61, 85, 74, 68] = a2b [81, 85, 74, 68] ∧ a2b [81, 85, 61, 74, 68] = a2b [81, 85, 74, 68] :=
  ⟨(first_equals [81] (by decide)).2 [85, 74, 68] (by decide), (first_equals [81, 85] (by decide)).2 [74, 68] (by decide)⟩
/-- `=` ends the text: what follows is not read. -/
example : a2b [65, 80, 56, 61, 65, 65, 65, 65] = .ok [0, 255] := rfl

end Verif.JuiceBase64
