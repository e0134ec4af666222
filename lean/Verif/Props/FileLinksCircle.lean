import Verif.Props.FileLinks
/-!
# C118: removing and copying a directory with a link to itself in it
-/
namespace Verif.FileLinks
open Verif.Py Verif.Py.Path Verif.FilePath

/-- A directory `d` with a link to `d` in it. -/
def selfLinked (d c : Str) : Node := .dir [(d, .dir [(c, .other)])]

/-- The text of that link. -/
def selfLink (d c : Str) : Links := fun q => if q = [d, c] then some [d] else none

theorem selfLinked_resolve (d c : Str) (n k : Nat) :
    resolve (selfLink d c) (selfLinked d c) false n (d :: List.replicate k c) = if k ≤ n then some [d] else none := by
  have hl1 : lookup (selfLinked d c) [d] = some (.dir [(c, .other)]) := by simp [selfLinked, lookup, Dict.get?]
  have hl : lookup (selfLinked d c) [d, c] = some .other := by simp [selfLinked, lookup, Dict.get?]
  have hk1 : linkAt (selfLink d c) (selfLinked d c) [d] = none := by unfold linkAt; rw [hl1]
  have hk : linkAt (selfLink d c) (selfLinked d c) [d, c] = some [d] := by unfold linkAt; rw [hl]; simp [selfLink]
  induction n generalizing k with
  | zero =>
    rw [resolve_eq, follow]
    simp only [List.nil_append, hl1, hk1]
    cases k with
    | zero => rfl
    | succ k =>
      rw [List.replicate_succ, follow]
      simp [hl, hk]
  | succ n ih =>
    rw [resolve_eq, follow]
    simp only [List.nil_append, hl1, hk1]
    cases k with
    | zero => rfl
    | succ k =>
      rw [List.replicate_succ, follow]
      simp only [List.cons_append, List.nil_append, hl, hk]
      rw [ih k]
      by_cases h : k ≤ n <;> simp [h]

theorem append_replicate (d c : Str) (k : Nat) : d :: List.replicate k c ++ [c] = d :: List.replicate (k + 1) c := by
  rw [List.cons_append, ← List.replicate_succ']

theorem selfLinked_place (d c : Str) (n k : Nat) (fs : Node) :
    place (selfLink d c) n fs (d :: List.replicate (k + 1) c) =
      (resolve (selfLink d c) fs false n (d :: List.replicate k c)).map (· ++ [c]) := by
  rw [← append_replicate, place_snoc]

/-- With the link gone, no path goes through it. -/
theorem emptied_place (d c : Str) (n k : Nat) :
    place (selfLink d c) n (.dir [(d, .dir [])]) (d :: List.replicate (k + 1) c) = if k = 0 then some [d, c] else none := by
  have hl1 : lookup (.dir [(d, .dir [])]) [d] = some (.dir []) := by simp [lookup, Dict.get?]
  have hk1 : linkAt (selfLink d c) (.dir [(d, .dir [])]) [d] = none := by unfold linkAt; rw [hl1]
  have hl : lookup (.dir [(d, .dir [])]) [d, c] = none := by simp [lookup, Dict.get?]
  rw [selfLinked_place, resolve_eq, follow]
  simp only [List.nil_append, hl1, hk1]
  cases k with
  | zero => rfl
  | succ k =>
    rw [List.replicate_succ, follow]
    simp [hl]

/-- **C118** fails of `remove`, in a circle: of a directory with nothing in it but a link to itself, however many links may be
followed, the link is removed, by the longest path that leads to it; then the shorter ones lead nowhere, `OSError` is raised, and
the directory stays. -/
theorem remove_circle_fails (d c : Str) (n : Nat) :
    remove (selfLink d c) (n + 1) (n + 3) (selfLinked d c) [d] = some (.dir [(d, .dir [])], some osError) := by
  have hlast : remove (selfLink d c) (n + 1) 1 (selfLinked d c) (d :: List.replicate (n + 2) c) = some (.dir [(d, .dir [])], none) := by
    have hs : stat (selfLink d c) (n + 1) (selfLinked d c) (d :: List.replicate (n + 2) c) = none := by
      unfold stat; rw [selfLinked_resolve, if_neg (by omega)]
    have hr : osRemove (selfLinked d c) [d, c] = .ok (.dir [(d, .dir [])]) := by
      simp [osRemove, selfLinked, lookup, del, Dict.get?, Dict.erase, Dict.set]
    rw [remove, hs]
    dsimp only
    rw [selfLinked_place, selfLinked_resolve, if_pos (by omega)]
    simp only [Option.map_some, List.cons_append, List.nil_append, hr]
  have main : ∀ j k, k + j = n + 1 → remove (selfLink d c) (n + 1) (j + 2) (selfLinked d c) (d :: List.replicate k c) =
      some (.dir [(d, .dir [])], some osError) := by
    intro j
    induction j with
    | zero =>
      intro k hk
      obtain rfl : k = n + 1 := by omega
      have hs : stat (selfLink d c) (n + 1) (selfLinked d c) (d :: List.replicate (n + 1) c) = some (.dir [(c, .other)]) := by
        unfold stat; rw [selfLinked_resolve, if_pos (by omega)]; simp [selfLinked, lookup, Dict.get?]
      rw [remove, hs]
      simp only [List.map_cons, List.map_nil, copyChildren, append_replicate]
      rw [hlast]
      dsimp only
      rw [emptied_place]
      by_cases h0 : n = 0
      · rw [if_pos h0]
        simp [rmdir, lookup, Dict.get?]
      · rw [if_neg h0]
    | succ j ih =>
      intro k hk
      have hs : stat (selfLink d c) (n + 1) (selfLinked d c) (d :: List.replicate k c) = some (.dir [(c, .other)]) := by
        unfold stat; rw [selfLinked_resolve, if_pos (by omega)]; simp [selfLinked, lookup, Dict.get?]
      rw [remove, hs]
      simp only [List.map_cons, List.map_nil, copyChildren, append_replicate]
      rw [ih (k + 1) (by omega)]
  have := main (n + 1) 0 (by omega)
  simpa using this

/-- `remove` of the directory `d` (100) with the link `d/c`, with the 40 links of Linux. -/
example : remove (selfLink [100] [99]) 40 42 (selfLinked [100] [99]) [[100]] = some (.dir [([100], .dir [])], some osError) :=
  remove_circle_fails [100] [99] 39

/-! ## Copying -/

/-- Directories in one another. -/
def tower (c : Str) : Nat → Node
  | 0 => .dir []
  | k + 1 => .dir [(c, tower c k)]

/-- The directory `d` with the link, and what `k` steps of copying have made at `e`. -/
def copied (d c e : Str) : Nat → Node
  | 0 => selfLinked d c
  | k + 1 => .dir [(d, .dir [(c, .other)]), (e, tower c k)]

theorem tower_top (c : Str) (k : Nat) : lookup (tower c k) (List.replicate k c) = some (.dir []) := by
  induction k with
  | zero => rfl
  | succ k ih => simpa [tower, List.replicate_succ, lookup, Dict.get?] using ih

theorem tower_above (c : Str) (k : Nat) : lookup (tower c k) (List.replicate (k + 1) c) = none := by
  induction k with
  | zero => simp [tower, lookup, Dict.get?]
  | succ k ih =>
    rw [List.replicate_succ]
    simpa [tower, lookup, Dict.get?] using ih

theorem tower_put (c : Str) (k : Nat) : put (tower c k) (List.replicate (k + 1) c) (.dir []) = some (tower c (k + 1)) := by
  induction k with
  | zero => simp [tower, put, Dict.set]
  | succ k ih =>
    rw [List.replicate_succ, List.replicate_succ, tower, put]
    · simp only [Dict.get?, ← List.replicate_succ, if_true, ih, Dict.set]
      simp [tower]
    · simp

/-- The link is followed as long as it may be, whatever else there is. -/
theorem copied_resolve (d c e : Str) (m n k : Nat) :
    resolve (selfLink d c) (copied d c e m) false n (d :: List.replicate k c) = if k ≤ n then some [d] else none := by
  have hl1 : lookup (copied d c e m) [d] = some (.dir [(c, .other)]) := by
    cases m <;> simp [copied, selfLinked, lookup, Dict.get?]
  have hl : lookup (copied d c e m) [d, c] = some .other := by
    cases m <;> simp [copied, selfLinked, lookup, Dict.get?]
  have hk1 : linkAt (selfLink d c) (copied d c e m) [d] = none := linkAt_dir hl1
  have hk : linkAt (selfLink d c) (copied d c e m) [d, c] = some [d] := by unfold linkAt; rw [hl]; simp [selfLink]
  induction n generalizing k with
  | zero =>
    rw [resolve_eq, follow]
    simp only [List.nil_append, hl1, hk1]
    cases k with
    | zero => rfl
    | succ k =>
      rw [List.replicate_succ, follow]
      simp [hl, hk]
  | succ n ih =>
    rw [resolve_eq, follow]
    simp only [List.nil_append, hl1, hk1]
    cases k with
    | zero => rfl
    | succ k =>
      rw [List.replicate_succ, follow]
      simp only [List.cons_append, List.nil_append, hl, hk]
      rw [ih k]
      by_cases h : k ≤ n <;> simp [h]

theorem copied_stat (d c e : Str) (m n k : Nat) (hk : k ≤ n) :
    stat (selfLink d c) n (copied d c e m) (d :: List.replicate k c) = some (.dir [(c, .other)]) := by
  unfold stat
  rw [copied_resolve d c e, if_pos hk]
  cases m <;> simp [copied, selfLinked, lookup, Dict.get?]

/-- The next directory of the copy is not there yet, and can be made. -/
theorem copied_mkdir (d c e : Str) (he : e ≠ d) (n k : Nat) :
    stat (selfLink d c) n (copied d c e k) (e :: List.replicate k c) = none ∧
    mkdirAt (selfLink d c) n (copied d c e k) (e :: List.replicate k c) = .ok (copied d c e (k + 1)) := by
  have hde : ¬ d = e := fun h => he h.symm
  cases k with
  | zero =>
    have h1 : lookup (selfLinked d c) [e] = none := by simp [selfLinked, lookup, Dict.get?, hde]
    constructor
    · unfold stat
      rw [resolve_eq]
      simp [follow, copied, h1]
    · have hp : place (selfLink d c) n (selfLinked d c) [e] = some [e] :=
        place_phys (d := []) e (es := [(d, .dir [(c, .other)])]) rfl
      have hput : put (selfLinked d c) [e] (.dir []) = some (copied d c e 1) := by
        simp [selfLinked, put, Dict.set, hde, copied, tower]
      simp only [copied, List.replicate_zero] at hput ⊢
      simp only [mkdirAt, hp, mkdir, h1, hput]
  | succ k =>
    have hsub : ∀ p, lookup (copied d c e (k + 1)) (e :: p) = lookup (tower c k) p := by
      intro p
      simp [copied, lookup, Dict.get?, hde]
    have ht : lookup (copied d c e (k + 1)) (e :: List.replicate k c) = some (.dir []) := by rw [hsub, tower_top]
    have ha : lookup (copied d c e (k + 1)) (e :: List.replicate (k + 1) c) = none := by rw [hsub, tower_above]
    have hr := resolve_phys (L := selfLink d c) (new := false) (n := n) ht (linkAt_dir ht)
    constructor
    · unfold stat
      rw [← append_replicate] at ha ⊢
      rw [(resolve_snoc n _ _ c hr).1 ha]
    · have hp : place (selfLink d c) n (copied d c e (k + 1)) (e :: List.replicate (k + 1) c) = some (e :: List.replicate (k + 1) c) := by
        rw [← append_replicate]
        exact place_phys c ht
      have hput : put (copied d c e (k + 1)) (e :: List.replicate (k + 1) c) (.dir []) = some (copied d c e (k + 2)) := by
        rw [copied, put]
        · simp only [Dict.get?, hde, if_false, if_true, tower_put, Dict.set]
          rfl
        · simp
      simp only [mkdirAt, hp, mkdir, ha, hput]

/-- **C118** fails of `copyTo`, in a circle: of a directory with nothing in it but a link to itself, `copyTo` makes as many
directories in one another as links may be followed, and one more; then `NotImplementedError` is raised.  With 40 as the limit these
are 41 directories. -/
theorem copy_circle_fails (d c e : Str) (he : e ≠ d) (n k : Nat) :
    copyTo (selfLink d c) n k (n + 2) (selfLinked d c) [d] [e] =
      some (.dir [(d, .dir [(c, .other)]), (e, tower c n)], some .notImplementedError) := by
  have main : ∀ j m, m + j = n + 1 →
      copyTo (selfLink d c) n k (j + 1) (copied d c e m) (d :: List.replicate m c) (e :: List.replicate m c) =
        some (copied d c e (n + 1), some .notImplementedError) := by
    intro j
    induction j with
    | zero =>
      intro m hm
      obtain rfl : m = n + 1 := by omega
      apply copy_dangling_fails
      unfold stat
      rw [copied_resolve d c e, if_neg (by omega)]
    | succ j ih =>
      intro m hm
      obtain ⟨h1, h2⟩ := copied_mkdir d c e he n m
      rw [copyTo, copied_stat d c e m n m (by omega)]
      dsimp only
      rw [h1]
      dsimp only
      rw [h2]
      dsimp only
      rw [copied_stat d c e (m + 1) n m (by omega)]
      simp only [List.map_cons, List.map_nil, copyChildren, append_replicate]
      rw [ih (m + 1) (by omega)]
  exact main (n + 1) 0 (by omega)

/-- With two links allowed: `e/c/c` is made. -/
example : copyTo (selfLink [100] [99]) 2 4 4 (selfLinked [100] [99]) [[100]] [[101]] =
    some (.dir [([100], .dir [([99], .other)]), ([101], .dir [([99], .dir [([99], .dir [])])])], some .notImplementedError) :=
  copy_circle_fails [100] [99] [101] (by decide) 2 4

end Verif.FileLinks
