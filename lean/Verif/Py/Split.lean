import Verif.Py.Core
import Mathlib.Data.List.Infix
/-!
# Python primitives: `s.split(sep)` and `sep.join(parts)`
-/
namespace Verif.Py
variable {α : Type} [DecidableEq α]

/-- The scan of `s.split(sep)`: the part read so far, and how many characters of a separator just found are still to
be skipped. -/
def splitGo (sep : List α) : List α → Nat → List α → List (List α)
  | cur, _, [] => [cur]
  | cur, k + 1, _ :: s => splitGo sep cur k s
  | cur, 0, c :: s =>
    if sep.isPrefixOf (c :: s) then cur :: splitGo sep [] (sep.length - 1) s else splitGo sep (cur ++ [c]) 0 s

/-- `s.split(sep)` for a non-empty separator. -/
def splitSep (sep s : List α) : List (List α) := splitGo sep [] 0 s

/-- `sep.join(parts)` -/
def joinSep (sep : List α) : List (List α) → List α
  | [] => []
  | [p] => p
  | p :: q :: ps => p ++ sep ++ joinSep sep (q :: ps)

/-- No proper non-empty prefix of `sep` is also a suffix of it. -/
def Unbordered (sep : List α) : Prop := ∀ k, 0 < k → k < sep.length → sep.take k ≠ sep.drop (sep.length - k)

instance (sep : List α) : Decidable (Unbordered sep) :=
  decidable_of_iff (∀ k, k < sep.length → 0 < k → sep.take k ≠ sep.drop (sep.length - k))
    ⟨fun h k h1 h2 => h k h2 h1, fun h k h1 h2 => h k h2 h1⟩

omit [DecidableEq α] in
theorem joinSep_cons_cons (sep p q : List α) (ps : List (List α)) :
    joinSep sep (p :: q :: ps) = p ++ sep ++ joinSep sep (q :: ps) := rfl

theorem splitGo_skip (sep cur t s : List α) : splitGo sep cur t.length (t ++ s) = splitGo sep cur 0 s := by
  induction t with
  | nil => rfl
  | cons c t ih => rw [List.cons_append, List.length_cons, splitGo]; exact ih

/-- A part without the separator is read up to the separator that follows it. -/
theorem splitGo_part (sep : List α) (hne : sep ≠ []) (hb : Unbordered sep) (cur p rest : List α) (hp : ¬ sep <:+: p) :
    splitGo sep cur 0 (p ++ sep ++ rest) = (cur ++ p) :: splitGo sep [] 0 rest := by
  induction p generalizing cur with
  | nil =>
    cases sep with
    | nil => exact absurd rfl hne
    | cons c sep =>
      rw [List.nil_append, List.cons_append, splitGo, if_pos (by rw [List.isPrefixOf_iff_prefix]; exact ⟨rest, rfl⟩)]
      rw [List.length_cons, Nat.add_sub_cancel, splitGo_skip, List.append_nil]
  | cons c p ih =>
    have hp' : ¬ sep <:+: p := fun h => hp (h.trans (List.infix_cons (List.infix_refl p)))
    rw [List.cons_append, List.cons_append, splitGo, if_neg, ih _ hp', List.append_assoc, List.singleton_append]
    rw [List.isPrefixOf_iff_prefix]
    intro hpre
    obtain ⟨t, ht⟩ := hpre
    have ht' : sep ++ t = (c :: p) ++ sep ++ rest := by rw [ht]; simp
    by_cases hlen : sep.length ≤ (c :: p).length
    · apply hp
      have : sep <+: c :: p := by
        rw [List.append_assoc] at ht'
        exact List.prefix_of_prefix_length_le ⟨t, ht'⟩ ⟨_, rfl⟩ hlen
      exact this.isInfix
    · have hlen' : (c :: p).length < sep.length := by omega
      refine hb (sep.length - (c :: p).length) (by omega) (by simp only [List.length_cons]; omega) ?_
      have h1 := congrArg (List.drop (c :: p).length) ht'
      rw [List.append_assoc, List.drop_left, List.drop_append_of_le_length (by omega)] at h1
      have h2 := congrArg (List.take (sep.length - (c :: p).length)) h1
      rw [List.take_append_of_le_length (by simp), List.take_append_of_le_length (by omega)] at h2
      rw [show sep.length - (sep.length - (c :: p).length) = (c :: p).length from by omega]
      rw [← h2, List.take_of_length_le (by simp)]

theorem splitGo_last (sep : List α) (cur p : List α) (hp : ¬ sep <:+: p) : splitGo sep cur 0 p = [cur ++ p] := by
  induction p generalizing cur with
  | nil => simp [splitGo]
  | cons c p ih =>
    have hp' : ¬ sep <:+: p := fun h => hp (h.trans (List.infix_cons (List.infix_refl p)))
    rw [splitGo, if_neg, ih _ hp', List.append_assoc, List.singleton_append]
    rw [List.isPrefixOf_iff_prefix]
    exact fun h => hp h.isInfix

/-- Splitting what was joined gives the parts back. -/
theorem splitSep_joinSep (sep : List α) (hne : sep ≠ []) (hb : Unbordered sep) (ps : List (List α)) (hps : ps ≠ [])
    (h : ∀ p ∈ ps, ¬ sep <:+: p) : splitSep sep (joinSep sep ps) = ps := by
  induction ps with
  | nil => exact absurd rfl hps
  | cons p ps ih =>
    cases ps with
    | nil => unfold splitSep joinSep; rw [splitGo_last _ _ _ (h p (by simp))]; simp
    | cons q ps =>
      unfold splitSep at *
      rw [joinSep_cons_cons, splitGo_part sep hne hb _ _ _ (h p (by simp)), ih (by simp)
        (fun x hx => h x (List.mem_cons_of_mem _ hx)), List.nil_append]

/-- Joining what was split gives the text back. -/
theorem joinSep_splitGo (sep : List α) (hne : sep ≠ []) (s cur : List α) :
    joinSep sep (splitGo sep cur 0 s) = cur ++ s ∧ splitGo sep cur 0 s ≠ [] := by
  induction hn : s.length using Nat.strongRecOn generalizing s cur with
  | ind n ih =>
    subst hn
    cases s with
    | nil => simp [splitGo, joinSep]
    | cons c s =>
      rw [splitGo]
      split
      · rename_i hpre
        rw [List.isPrefixOf_iff_prefix] at hpre
        obtain ⟨t, ht⟩ := hpre
        cases sep with
        | nil => exact absurd rfl hne
        | cons d sep =>
          simp only [List.cons_append, List.cons.injEq] at ht
          obtain ⟨rfl, rfl⟩ := ht
          rw [List.length_cons, Nat.add_sub_cancel, splitGo_skip]
          obtain ⟨h1, h2⟩ := ih t.length (by simp; omega) t [] rfl
          cases hg : splitGo (d :: sep) [] 0 t with
          | nil => exact absurd hg h2
          | cons x xs =>
            rw [hg] at h1
            rw [joinSep_cons_cons, h1]
            simp
      · obtain ⟨h1, h2⟩ := ih s.length (by simp) s (cur ++ [c]) rfl
        exact ⟨by rw [h1]; simp, h2⟩

theorem joinSep_splitSep (sep : List α) (hne : sep ≠ []) (s : List α) : joinSep sep (splitSep sep s) = s := by
  have := (joinSep_splitGo sep hne s []).1
  simpa [splitSep] using this

theorem splitSep_ne_nil (sep : List α) (hne : sep ≠ []) (s : List α) : splitSep sep s ≠ [] :=
  (joinSep_splitGo sep hne s []).2

/-- The separator does not occur in a part. -/
theorem splitGo_parts (sep : List α) (hne : sep ≠ []) (s cur : List α) :
    ∃ p ps, splitGo sep cur 0 s = (cur ++ p) :: ps ∧ p <+: s ∧ ¬ sep <:+: p ∧ ∀ x ∈ ps, ¬ sep <:+: x := by
  induction hn : s.length using Nat.strongRecOn generalizing s cur with
  | ind n ih =>
    subst hn
    have hnil : ¬ sep <:+: ([] : List α) := fun h => hne (by simpa using h)
    cases s with
    | nil => exact ⟨[], [], by simp [splitGo], List.nil_prefix, hnil, by simp⟩
    | cons c s =>
      rw [splitGo]
      split
      · rename_i hpre
        rw [List.isPrefixOf_iff_prefix] at hpre
        obtain ⟨t, ht⟩ := hpre
        cases sep with
        | nil => exact absurd rfl hne
        | cons d sep =>
          simp only [List.cons_append, List.cons.injEq] at ht
          obtain ⟨rfl, rfl⟩ := ht
          rw [List.length_cons, Nat.add_sub_cancel, splitGo_skip]
          obtain ⟨p, ps, h1, _, h3, h4⟩ := ih t.length (by simp; omega) t [] rfl
          refine ⟨[], p :: ps, by rw [h1]; simp, List.nil_prefix, hnil, ?_⟩
          intro x hx
          rcases List.mem_cons.mp hx with rfl | hx
          exacts [h3, h4 x hx]
      · rename_i hpre
        rw [List.isPrefixOf_iff_prefix] at hpre
        obtain ⟨p, ps, h1, h2, h3, h4⟩ := ih s.length (by simp) s (cur ++ [c]) rfl
        refine ⟨c :: p, ps, by rw [h1]; simp, List.cons_prefix_cons.mpr ⟨rfl, h2⟩, ?_, h4⟩
        intro hi
        rcases List.infix_cons_iff.mp hi with hp | hi
        · exact hpre (hp.trans (List.cons_prefix_cons.mpr ⟨rfl, h2⟩))
        · exact h3 hi

theorem splitSep_parts (sep : List α) (hne : sep ≠ []) (s : List α) : ∀ x ∈ splitSep sep s, ¬ sep <:+: x := by
  obtain ⟨p, ps, h1, _, h3, h4⟩ := splitGo_parts sep hne s []
  unfold splitSep
  rw [h1]
  intro x hx
  rcases List.mem_cons.mp hx with rfl | hx
  exacts [by simpa using h3, h4 x hx]

example : splitSep [44, 32] [97, 44, 32, 98, 44, 44, 32] = [[97], [98, 44], []] := by decide
example : Unbordered [44, 32] := by decide

end Verif.Py
