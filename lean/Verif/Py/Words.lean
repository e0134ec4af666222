import Verif.Py.Core
/-!
# Python primitives: `s.split()`

The words of a text, separated by runs of white space.  What counts as white space differs between `str` and `bytes`, so it
is a parameter.
-/
namespace Verif.Py

/-- The scan of `s.split()`, with the word read so far. -/
def wordsGo (sp : Nat → Bool) : List Nat → List Nat → List (List Nat)
  | cur, [] => if cur = [] then [] else [cur]
  | cur, c :: s =>
    if sp c then (if cur = [] then wordsGo sp [] s else cur :: wordsGo sp [] s) else wordsGo sp (cur ++ [c]) s

/-- `s.split()` -/
def words (sp : Nat → Bool) (s : List Nat) : List (List Nat) := wordsGo sp [] s

/-- White space of `bytes`: tab, line feed, vertical tab, form feed, carriage return, space. -/
def isByteSpace (c : Nat) : Bool := (9 ≤ c && c ≤ 13) || c == 32

variable (sp : Nat → Bool)

theorem wordsGo_word (cur w s : List Nat) (h : ∀ c ∈ w, sp c = false) :
    wordsGo sp cur (w ++ s) = wordsGo sp (cur ++ w) s := by
  induction w generalizing cur with
  | nil => simp
  | cons c w ih =>
    rw [List.cons_append, wordsGo, if_neg (by simp [h c (by simp)]), ih _ fun x hx => h x (List.mem_cons_of_mem _ hx)]
    simp

/-- Leading white space does not matter. -/
theorem words_pad (p s : List Nat) (h : ∀ c ∈ p, sp c = true) : words sp (p ++ s) = words sp s := by
  unfold words
  induction p with
  | nil => rfl
  | cons c p ih =>
    rw [List.cons_append, wordsGo, if_pos (h c (by simp)), if_pos rfl]
    exact ih fun x hx => h x (List.mem_cons_of_mem _ hx)

/-- A word followed by white space. -/
theorem words_cons (w p s : List Nat) (hw : ∀ c ∈ w, sp c = false) (hne : w ≠ []) (hp : ∀ c ∈ p, sp c = true)
    (hpne : p ≠ []) : words sp (w ++ (p ++ s)) = w :: words sp s := by
  cases p with
  | nil => exact absurd rfl hpne
  | cons c p =>
    rw [words, wordsGo_word sp [] w _ hw, List.nil_append, List.cons_append, wordsGo, if_pos (hp c (by simp)), if_neg hne]
    exact congrArg _ (words_pad sp p s fun x hx => hp x (List.mem_cons_of_mem _ hx))

/-- A last word. -/
theorem words_last (w : List Nat) (hw : ∀ c ∈ w, sp c = false) (hne : w ≠ []) : words sp w = [w] := by
  have := wordsGo_word sp [] w [] hw
  rw [List.append_nil, List.nil_append] at this
  rw [words, this, wordsGo, if_neg hne]

/-- A text that consists of the given words, each followed by the given white space. -/
def layout : List (List Nat × List Nat) → List Nat
  | [] => []
  | (w, p) :: r => w ++ (p ++ layout r)

/-- Every word is a word, every pad but possibly the last is not empty. -/
def LayoutOK : List (List Nat × List Nat) → Prop
  | [] => True
  | (w, p) :: r => (∀ c ∈ w, sp c = false) ∧ w ≠ [] ∧ (∀ c ∈ p, sp c = true) ∧ (r ≠ [] → p ≠ []) ∧ LayoutOK r

/-- The words of a text laid out in any way. -/
theorem words_layout (r : List (List Nat × List Nat)) (h : LayoutOK sp r) : words sp (layout r) = r.map Prod.fst := by
  induction r with
  | nil => rfl
  | cons x r ih =>
    obtain ⟨w, p⟩ := x
    obtain ⟨h1, h2, h3, h4, h5⟩ := h
    rw [layout, List.map_cons, ← ih h5]
    by_cases hp : p = []
    · have : r = [] := Classical.byContradiction fun hr => h4 hr hp
      subst this hp
      simp only [layout, List.append_nil]
      rw [words_last sp w h1 h2]; rfl
    · exact words_cons sp w p _ h1 h2 h3 hp

/-- Every result of `split()` is a non-empty word. -/
theorem mem_words (cur s : List Nat) (hc : ∀ c ∈ cur, sp c = false) (w : List Nat) (h : w ∈ wordsGo sp cur s) :
    w ≠ [] ∧ ∀ c ∈ w, sp c = false := by
  induction s generalizing cur with
  | nil =>
    rw [wordsGo] at h
    split at h
    · simp at h
    · rename_i hne; rw [List.mem_singleton] at h; subst h; exact ⟨hne, hc⟩
  | cons c s ih =>
    rw [wordsGo] at h
    split at h
    · split at h
      · exact ih [] (by simp) h
      · rename_i hne
        rcases List.mem_cons.mp h with rfl | h
        · exact ⟨hne, hc⟩
        · exact ih [] (by simp) h
    · rename_i hs
      refine ih _ ?_ h
      intro x hx
      rcases List.mem_append.mp hx with hx | hx
      · exact hc x hx
      · rw [List.mem_singleton] at hx; subst hx; simpa using hs

end Verif.Py
