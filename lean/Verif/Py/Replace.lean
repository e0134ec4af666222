import Verif.Py.Core
import Mathlib.Data.List.Infix
/-!
# Python primitives: `s.replace(old, new)` and `s.strip()`
-/
namespace Verif.Py
variable {α : Type} [DecidableEq α]

/-- The scan of `s.replace(old, new)`; the number says how many characters of a match just found are still to be skipped. -/
def replaceGo (old new : List α) : Nat → List α → List α
  | _, [] => []
  | k + 1, _ :: s => replaceGo old new k s
  | 0, c :: s =>
    if old.isPrefixOf (c :: s) then new ++ replaceGo old new (old.length - 1) s else c :: replaceGo old new 0 s

/-- `s.replace(old, new)` for a non-empty `old`. -/
def strReplace (old new s : List α) : List α := replaceGo old new 0 s

theorem replaceGo_skip (old new t s : List α) : replaceGo old new t.length (t ++ s) = replaceGo old new 0 s := by
  induction t with
  | nil => rfl
  | cons c t ih => rw [List.cons_append, List.length_cons, replaceGo]; exact ih

/-- A match is replaced. -/
theorem strReplace_match (old new s : List α) (hne : old ≠ []) :
    strReplace old new (old ++ s) = new ++ strReplace old new s := by
  cases old with
  | nil => exact absurd rfl hne
  | cons c old =>
    unfold strReplace
    rw [List.cons_append, replaceGo, if_pos (by rw [List.isPrefixOf_iff_prefix]; exact ⟨s, rfl⟩), List.length_cons,
      Nat.add_sub_cancel, replaceGo_skip]

/-- Text that does not have the first character of `old` is kept. -/
theorem strReplace_keep (c : α) (old new p s : List α) (hp : c ∉ p) :
    strReplace (c :: old) new (p ++ s) = p ++ strReplace (c :: old) new s := by
  induction p with
  | nil => rfl
  | cons d p ih =>
    simp only [List.mem_cons, not_or] at hp
    unfold strReplace at *
    rw [List.cons_append, replaceGo, if_neg, ih hp.2, List.cons_append]
    simp [List.isPrefixOf, hp.1]

/-- A text in which `old` does not occur is unchanged. -/
theorem strReplace_absent (old new s : List α) (h : ¬ old <:+: s) : strReplace old new s = s := by
  unfold strReplace
  induction s with
  | nil => rfl
  | cons c s ih =>
    rw [replaceGo, if_neg, ih fun hi => h (hi.trans (List.infix_cons (List.infix_refl s)))]
    rw [List.isPrefixOf_iff_prefix]
    exact fun hp => h hp.isInfix

/-- `s.strip()`, for a given notion of white space. -/
def stripBy (sp : α → Bool) (s : List α) : List α := ((s.dropWhile sp).reverse.dropWhile sp).reverse

omit [DecidableEq α] in
theorem dropWhile_pad (sp : α → Bool) (p s : List α) (hp : ∀ c ∈ p, sp c = true) (hs : ∀ c, s.head? = some c → sp c = false) :
    (p ++ s).dropWhile sp = s := by
  induction p with
  | nil =>
    cases s with
    | nil => rfl
    | cons c s => rw [List.nil_append, List.dropWhile_cons_of_neg (by simp [hs c rfl])]
  | cons d p ih =>
    rw [List.cons_append, List.dropWhile_cons_of_pos (hp d (by simp))]
    exact ih fun c hc => hp c (List.mem_cons_of_mem _ hc)

omit [DecidableEq α] in
/-- Stripping removes the white space around a text that neither begins nor ends with some. -/
theorem stripBy_pad (sp : α → Bool) (p n q : List α) (hp : ∀ c ∈ p, sp c = true) (hq : ∀ c ∈ q, sp c = true)
    (h1 : ∀ c, n.head? = some c → sp c = false) (h2 : ∀ c, n.getLast? = some c → sp c = false) :
    stripBy sp (p ++ n ++ q) = n := by
  unfold stripBy
  cases n with
  | nil =>
    have : ∀ s : List α, (∀ c ∈ s, sp c = true) → s.dropWhile sp = [] := by
      intro s hs
      have := dropWhile_pad sp s [] hs (by simp)
      simpa using this
    rw [List.append_nil, this (p ++ q) (by intro c hc; rcases List.mem_append.mp hc with h | h; exacts [hp c h, hq c h])]
    rfl
  | cons d n =>
    rw [List.append_assoc, dropWhile_pad sp p _ hp (by intro c hc; simp only [List.cons_append, List.head?_cons, Option.some.injEq] at hc; subst hc; exact h1 _ rfl)]
    rw [List.reverse_append, dropWhile_pad sp q.reverse _ (by simpa using hq), List.reverse_reverse]
    intro c hc
    rw [List.head?_reverse] at hc
    exact h2 c hc

end Verif.Py
