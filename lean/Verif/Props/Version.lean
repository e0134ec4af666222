import Verif.Model.Version
/-!
# C67: `asTwistedVersion` reads the first three numbers
-/
namespace Verif.Version
open Verif.Py

/-- A number in decimal digits. -/
def Number (s : Str) : Prop := s ≠ [] ∧ ∀ c ∈ s, 48 ≤ c ∧ c ≤ 57

theorem number_class {s : Str} (h : Number s) : ∀ c ∈ s, inClass c = true := by
  intro c hc
  have := h.2 c hc
  simp [inClass, isDigit, this.1, this.2]

theorem number_nodot {s : Str} (h : Number s) : ¬ [46] <:+: s := by
  intro hi
  have := h.2 46 (hi.subset (by simp))
  omega

theorem takeWhile_append (p : Nat → Bool) (a b : Str) (h : ∀ c ∈ a, p c = true) :
    (a ++ b).takeWhile p = a ++ b.takeWhile p := by
  induction a with
  | nil => rfl
  | cons c a ih =>
    rw [List.cons_append, List.takeWhile_cons_of_pos (h c (by simp)), ih fun x hx => h x (List.mem_cons_of_mem _ hx)]
    rfl

theorem int_number {s : Str} (h : Number s) : int s = .ok (digitsVal s) := by simp [int, h.1]

/-- The third part and what follows. -/
theorem third_part (c suffix : Str) (hc : Number c) (hs : ∀ x, suffix.head? = some x → ¬ (48 ≤ x ∧ x ≤ 57)) :
    ∃ rest, splitSep [46] (c ++ suffix.takeWhile inClass) = c :: rest := by
  cases hsuf : suffix.takeWhile inClass with
  | nil =>
    refine ⟨[], ?_⟩
    rw [List.append_nil]
    have := splitGo_last [46] [] c (number_nodot hc)
    simpa [splitSep] using this
  | cons x t =>
    have hx : x = 46 := by
      cases suffix with
      | nil => cases hsuf
      | cons y suffix =>
        by_cases hy : inClass y = true
        · rw [List.takeWhile_cons_of_pos hy] at hsuf
          cases hsuf
          have := hs x rfl
          simp only [inClass, isDigit, Bool.or_eq_true, Bool.and_eq_true, decide_eq_true_eq, beq_iff_eq] at hy
          rcases hy with hy | hy
          · exact absurd hy this
          · exact hy
        · rw [List.takeWhile_cons_of_neg hy] at hsuf; cases hsuf
    subst hx
    refine ⟨splitGo [46] [] 0 t, ?_⟩
    have := splitGo_part [46] (by simp) (by decide) [] c t (number_nodot hc)
    rw [show c ++ 46 :: t = c ++ [46] ++ t by simp]
    simpa [splitSep] using this

/-- **C67.**  If the text begins with three numbers separated by dots, the version has these three numbers, whatever
follows (but not another digit of the third). -/
theorem version_three (package a b c suffix : Str) (ha : Number a) (hb : Number b) (hc : Number c)
    (hs : ∀ x, suffix.head? = some x → ¬ (48 ≤ x ∧ x ≤ 57)) :
    asTwistedVersion package (a ++ [46] ++ b ++ [46] ++ c ++ suffix) =
      .ok ⟨package, digitsVal a, digitsVal b, digitsVal c⟩ := by
  have hl : leading (a ++ [46] ++ b ++ [46] ++ c ++ suffix) =
      a ++ [46] ++ (b ++ [46] ++ (c ++ suffix.takeWhile inClass)) := by
    unfold leading
    rw [takeWhile_append]
    · simp
    · intro x hx
      simp only [List.mem_append, List.mem_singleton] at hx
      rcases hx with (((h | h) | h) | h) | h
      · exact number_class ha x h
      · subst h; rfl
      · exact number_class hb x h
      · subst h; rfl
      · exact number_class hc x h
  obtain ⟨rest, hr⟩ := third_part c suffix hc hs
  have h1 := splitGo_part [46] (by simp) (by decide) [] a (b ++ [46] ++ (c ++ suffix.takeWhile inClass)) (number_nodot ha)
  have h2 := splitGo_part [46] (by simp) (by decide) [] b (c ++ suffix.takeWhile inClass) (number_nodot hb)
  unfold asTwistedVersion
  rw [hl, splitSep, h1, h2]
  unfold splitSep at hr
  rw [hr]
  simp only [List.nil_append, List.take_succ_cons, List.take_zero]
  simp [ints, int_number ha, int_number hb, int_number hc]

theorem mem_digits {s : Str} (h : ∀ c ∈ s, inClass c = true) {p : Str} (hp : p ∈ splitSep [46] s) :
    ∀ c ∈ p, 48 ≤ c ∧ c ≤ 57 := by
  intro c hc
  have hns := splitSep_parts [46] (by simp) s p hp
  have hj := joinSep_splitSep [46] (by simp) s
  have hcs : c ∈ s := by
    rw [← hj]
    have : ∀ ps : List Str, p ∈ ps → c ∈ joinSep [46] ps := by
      intro ps
      induction ps with
      | nil => simp
      | cons q ps ih =>
        intro hm
        cases ps with
        | nil => simp at hm; subst hm; exact hc
        | cons r ps =>
          rw [joinSep_cons_cons]
          rcases List.mem_cons.mp hm with rfl | hm
          · simp [hc]
          · simp only [List.mem_append]; exact Or.inr (ih hm)
    exact this _ hp
  have := h c hcs
  simp only [inClass, isDigit, Bool.or_eq_true, Bool.and_eq_true, decide_eq_true_eq, beq_iff_eq] at this
  rcases this with h | h
  · exact h
  · subst h
    exfalso
    apply hns
    obtain ⟨x, y, rfl⟩ := List.append_of_mem hc
    exact ⟨x, y, by simp⟩

theorem int_ok {s : Str} {n : Nat} (h : int s = .ok n) : s ≠ [] ∧ n = digitsVal s := by
  unfold int at h
  split at h
  · cases h
  · rename_i hs; cases h; exact ⟨hs, rfl⟩

theorem ints_ok : ∀ (ss : List Str) (ns : List Nat), ints ss = .ok ns → (∀ s ∈ ss, s ≠ []) ∧ ns = ss.map digitsVal := by
  intro ss
  induction ss with
  | nil => intro ns h; cases h; simp
  | cons s ss ih =>
    intro ns h
    rw [ints] at h
    cases h1 : int s with
    | error e => rw [h1] at h; cases h
    | ok n =>
      rw [h1] at h
      cases h2 : ints ss with
      | error e => rw [h2] at h; cases h
      | ok m =>
        rw [h2] at h
        cases h
        obtain ⟨a, b⟩ := ih m h2
        obtain ⟨c, d⟩ := int_ok h1
        refine ⟨?_, by rw [d, b]; rfl⟩
        intro x hx
        rcases List.mem_cons.mp hx with rfl | hx
        exacts [c, a x hx]

theorem joinSep_flatten (n : Str) (p : List Str) : joinSep [46] (n :: p) = n ++ (p.map (46 :: ·)).flatten := by
  induction p generalizing n with
  | nil => simp [joinSep]
  | cons m p ih => rw [joinSep_cons_cons, ih]; simp

/-- Only such texts are accepted. -/
theorem version_only (package s : Str) (v : Version) (h : asTwistedVersion package s = .ok v) :
    ∃ a b c suffix, Number a ∧ Number b ∧ Number c ∧ (∀ x, suffix.head? = some x → ¬ (48 ≤ x ∧ x ≤ 57)) ∧
      s = a ++ [46] ++ b ++ [46] ++ c ++ suffix ∧ v = ⟨package, digitsVal a, digitsVal b, digitsVal c⟩ := by
  unfold asTwistedVersion at h
  have hcl : ∀ c ∈ leading s, inClass c = true := fun c hc => List.all_eq_true.mp (List.all_takeWhile (p := inClass) (l := s)) c hc
  have hj := joinSep_splitSep [46] (by simp) (leading s)
  have hd : ∀ p ∈ splitSep [46] (leading s), ∀ c ∈ p, 48 ≤ c ∧ c ≤ 57 := fun p hp => mem_digits hcl hp
  have hls : leading s ++ s.dropWhile inClass = s := List.takeWhile_append_dropWhile
  have hnext : ∀ x, (s.dropWhile inClass).head? = some x → inClass x = false := by
    intro x hx
    have := List.head?_dropWhile_not inClass s
    rw [hx] at this
    simpa using this
  match hs : splitSep [46] (leading s) with
  | [] => exact absurd hs (splitSep_ne_nil _ (by simp) _)
  | [p] =>
    rw [hs] at h
    cases hi : ints ([p].take 3) with
    | error e => rw [hi] at h; cases h
    | ok ns =>
      rw [hi, (ints_ok _ _ hi).2] at h
      cases h
  | [p, q] =>
    rw [hs] at h
    cases hi : ints ([p, q].take 3) with
    | error e => rw [hi] at h; cases h
    | ok ns =>
      rw [hi, (ints_ok _ _ hi).2] at h
      cases h
  | a :: b :: c :: rest =>
    rw [hs] at h hj hd
    cases hi : ints ((a :: b :: c :: rest).take 3) with
    | error e => rw [hi] at h; cases h
    | ok ns =>
      rw [hi] at h
      obtain ⟨h1, h2⟩ := ints_ok _ _ hi
      subst h2
      simp only [List.take_succ_cons, List.take_zero, List.map_cons, List.map_nil, Except.ok.injEq] at h
      subst h
      have num : ∀ x ∈ [a, b, c], Number x := by
        intro x hx
        refine ⟨h1 x (by simpa using hx), hd x ?_⟩
        simp only [List.mem_cons, List.not_mem_nil, or_false] at hx
        rcases hx with rfl | rfl | rfl <;> simp
      refine ⟨a, b, c, (rest.map (46 :: ·)).flatten ++ s.dropWhile inClass, num a (by simp), num b (by simp), num c (by simp),
        ?_, ?_, rfl⟩
      · intro x hx
        cases rest with
        | nil =>
          have := hnext x hx
          intro hx2
          simp [inClass, isDigit, hx2.1, hx2.2] at this
        | cons r rs =>
          simp at hx
          omega
      · rw [joinSep_flatten] at hj
        calc s = leading s ++ s.dropWhile inClass := hls.symm
          _ = _ := by rw [← hj]; simp

/-- The numbers that were written are the numbers read. -/
theorem version_numbers (package : Str) (a b c : Nat) (suffix : Str)
    (hs : ∀ x, suffix.head? = some x → ¬ (48 ≤ x ∧ x ≤ 57)) :
    asTwistedVersion package (natStr a ++ [46] ++ natStr b ++ [46] ++ natStr c ++ suffix) = .ok ⟨package, a, b, c⟩ := by
  have num : ∀ n, Number (natStr n) := fun n => ⟨natStr_ne_nil n, fun c hc => by
    have := natStr_isDigit n c hc
    simpa [isDigit] using this⟩
  rw [version_three package _ _ _ suffix (num a) (num b) (num c) hs]
  simp [digitsVal_natStr]

/-- `0.6.0rc1` and `10.2.33.4+g1` -/
example : asTwistedVersion [120] [48, 46, 54, 46, 48, 114, 99, 49] = .ok ⟨[120], 0, 6, 0⟩ := rfl
example : asTwistedVersion [120] [49, 48, 46, 50, 46, 51, 51, 46, 52, 43, 103, 49] = .ok ⟨[120], 10, 2, 33⟩ := rfl
/-- `1.2`: too few; `1.2.`: an empty number -/
example : asTwistedVersion [120] [49, 46, 50] = .error .typeError := rfl
example : asTwistedVersion [120] [49, 46, 50, 46] = .error .valueError := rfl

end Verif.Version
