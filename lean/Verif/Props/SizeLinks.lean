import Verif.Model.SizeLinks
import Verif.Props.FileLinks
import Verif.Props.BenchmarkSize
/-!
# C145: the size of a tree with symbolic links
-/
namespace Verif.SizeLinks
open Verif.Py Verif.Py.Path Verif.FilePath Verif.FileLinks

/-- Specification: the path `cs`, seen from the place `done`, leads, over at most `n` links, to an entry that its directory does not have. -/
inductive Missing (L : Links) (fs : Node) : Nat → List Str → List Str → Prop where
  | gone (n : Nat) (done : List Str) (c : Str) (rest : List Str) (es : Dict Str Node) (h : lookup fs done = some (.dir es))
      (ha : lookup fs (done ++ [c]) = none) : Missing L fs n done (c :: rest)
  | step (n : Nat) (done : List Str) (c : Str) (rest : List Str) (h : (lookup fs (done ++ [c])).isSome)
      (hl : linkAt L fs (done ++ [c]) = none) (hm : Missing L fs n (done ++ [c]) rest) : Missing L fs n done (c :: rest)
  | link (n : Nat) (done : List Str) (c : Str) (rest t : List Str) (hl : linkAt L fs (done ++ [c]) = some t)
      (hm : Missing L fs n [] (t ++ rest)) : Missing L fs (n + 1) done (c :: rest)

/-- Specification: the size of what a path leads to, or the length of the text of a link that leads to a missing entry. -/
inductive PathSize (L : Links) (n : Nat) (fs : Node) (size : List Str → Nat) (text : List Str → Str) (p : List Str) : Nat → Prop where
  | leads (q : List Str) (h : FileLinks.resolve L fs false n p = some q) : PathSize L n fs size text p (size q)
  | dangling (dir : List Str) (c : Str) (d t : List Str) (hp : p = dir ++ [c]) (hd : FileLinks.resolve L fs false n dir = some d)
      (hl : linkAt L fs (d ++ [c]) = some t) (hm : Missing L fs n [] p) : PathSize L n fs size text p (text (d ++ [c])).length

theorem isSome_of_link {L : Links} {fs : Node} {q t : List Str} (h : linkAt L fs q = some t) : lookup fs q = some .other := by
  unfold linkAt at h
  split at h
  · assumption
  · cases h

theorem follow_eq (L : Links) (fs : Node) (r : List Str → Except Errno (List Str)) (r' : List Str → Option (List Str))
    (h : ∀ p q, r p = .ok q ↔ r' p = some q) (done cs q : List Str) :
    follow L fs r done cs = .ok q ↔ FileLinks.follow L fs false r' done cs = some q := by
  induction cs generalizing done with
  | nil => simp [follow, FileLinks.follow]
  | cons c cs ih =>
    rw [follow, FileLinks.follow]
    cases lookup fs (done ++ [c]) with
    | none => cases lookup fs done with
      | none => simp
      | some m => cases m <;> simp
    | some m =>
      cases linkAt L fs (done ++ [c]) with
      | none => exact ih _
      | some t => exact h _ _

theorem resolve_eq (L : Links) (fs : Node) (n : Nat) (p q : List Str) :
    resolve L fs n p = .ok q ↔ FileLinks.resolve L fs false n p = some q := by
  induction n generalizing p q with
  | zero => exact follow_eq L fs _ _ (by simp) [] p q
  | succ n ih => exact follow_eq L fs _ _ ih [] p q

theorem follow_missing (L : Links) (fs : Node) (n : Nat) (r : List Str → Except Errno (List Str))
    (h : ∀ p, r p = .error .enoent ↔ ∃ m, n = m + 1 ∧ Missing L fs m [] p) (done cs : List Str) :
    follow L fs r done cs = .error .enoent ↔ Missing L fs n done cs := by
  induction cs generalizing done with
  | nil =>
    constructor
    · intro hh; cases hh
    · intro hh; cases hh
  | cons c cs ih =>
    rw [follow]
    cases hl : lookup fs (done ++ [c]) with
    | none =>
      have hk : linkAt L fs (done ++ [c]) = none := by unfold linkAt; rw [hl]
      constructor
      · intro hh
        cases hd : lookup fs done with
        | none => rw [hd] at hh; cases hh
        | some m =>
          cases m with
          | dir es => exact .gone n done c cs es hd hl
          | file z => rw [hd] at hh; cases hh
          | other => rw [hd] at hh; cases hh
      · intro hh
        cases hh with
        | gone _ _ _ _ es hd _ => rw [hd]
        | step _ _ _ _ hs _ _ => rw [hl] at hs; cases hs
        | link m _ _ _ t hl' _ => rw [hk] at hl'; cases hl'
    | some m =>
      cases hk : linkAt L fs (done ++ [c]) with
      | none =>
        simp only
        rw [ih]
        constructor
        · exact fun hh => .step n done c cs (by rw [hl]; rfl) hk hh
        · intro hh
          cases hh with
          | gone _ _ _ _ es _ ha => rw [hl] at ha; cases ha
          | step _ _ _ _ _ _ hm => exact hm
          | link m _ _ _ t hl' _ => rw [hk] at hl'; cases hl'
      | some t =>
        simp only
        rw [h]
        constructor
        · rintro ⟨m, rfl, hm⟩
          exact .link m done c cs t hk hm
        · intro hh
          cases hh with
          | gone _ _ _ _ es _ ha => rw [hl] at ha; cases ha
          | step _ _ _ _ _ hl' _ => rw [hk] at hl'; cases hl'
          | link m _ _ _ t' hl' hm => rw [hk] at hl'; cases hl'; exact ⟨m, rfl, hm⟩

theorem resolve_missing (L : Links) (fs : Node) (n : Nat) (p : List Str) :
    resolve L fs n p = .error .enoent ↔ Missing L fs n [] p := by
  induction n generalizing p with
  | zero => exact follow_missing L fs 0 _ (by simp) [] p
  | succ n ih =>
    refine follow_missing L fs (n + 1) _ (fun q => ?_) [] p
    rw [ih]
    constructor
    · exact fun hh => ⟨n, rfl, hh⟩
    · rintro ⟨m, e, hh⟩; cases e; exact hh

theorem one_ok (L : Links) (n : Nat) (fs : Node) (size : List Str → Nat) (text : List Str → Str) (p : List Str) (s : Nat) :
    getOneSize (statOf L n fs size p) (linkText L n fs text p) = .ok s ↔ PathSize L n fs size text p s := by
  constructor
  · intro h
    unfold statOf at h
    cases hr : resolve L fs n p with
    | ok q =>
      rw [hr] at h
      cases h
      exact .leads q ((resolve_eq L fs n p q).mp hr)
    | error e =>
      rw [hr] at h
      cases e with
      | enoent =>
        simp only [getOneSize] at h
        have hm := (resolve_missing L fs n p).mp hr
        unfold linkText place at h
        cases hg : p.getLast? with
        | none =>
          rw [List.getLast?_eq_none_iff] at hg
          subst hg
          cases hm
        | some c =>
          rw [hg] at h
          simp only at h
          have hp : p = p.dropLast ++ [c] := by
            have hne : p ≠ [] := by rintro rfl; cases hg
            rw [List.getLast?_eq_some_getLast hne] at hg
            cases hg
            exact (List.dropLast_concat_getLast hne).symm
          cases hd : FileLinks.resolve L fs false n p.dropLast with
          | none => rw [hd] at h; cases h
          | some d =>
            rw [hd] at h
            simp only at h
            cases hl : linkAt L fs (d ++ [c]) with
            | none => rw [hl] at h; cases h
            | some t =>
              rw [hl] at h
              cases h
              exact .dangling p.dropLast c d t hp hd hl hm
      | enotdir => cases h
      | eloop => cases h
  · intro h
    cases h with
    | leads q h => unfold statOf; rw [(resolve_eq L fs n p q).mpr h]; rfl
    | dangling dir c d t hp hd hl hm =>
      unfold statOf linkText place
      rw [(resolve_missing L fs n p).mpr hm, hp]
      simp [hd, hl, getOneSize]

theorem one_error (L : Links) (n : Nat) (fs : Node) (size : List Str → Nat) (text : List Str → Str) (p : List Str) :
    (∃ s, getOneSize (statOf L n fs size p) (linkText L n fs text p) = .ok s) ∨
      getOneSize (statOf L n fs size p) (linkText L n fs text p) = .error osError := by
  unfold statOf
  cases resolve L fs n p with
  | ok q => exact Or.inl ⟨_, rfl⟩
  | error e =>
    cases e with
    | enoent =>
      simp only [getOneSize]
      cases linkText L n fs text p with
      | none => exact Or.inr rfl
      | some t => exact Or.inl ⟨_, rfl⟩
    | enotdir => exact Or.inr rfl
    | eloop => exact Or.inr rfl

theorem sumSizes_osError (one : List Str → Except PyErr Nat) (l : List (List Str)) (acc : Nat)
    (hall : ∀ q, (∃ s, one q = .ok s) ∨ one q = .error osError) (q : List Str) (hq : q ∈ l) (h : one q = .error osError) :
    sumSizes one l acc = .error osError := by
  induction l generalizing acc with
  | nil => cases hq
  | cons p l ih =>
    rw [sumSizes]
    rcases hall p with ⟨s, hs⟩ | hs
    · rw [hs]
      rcases List.mem_cons.mp hq with rfl | hq
      · rw [hs] at h; cases h
      · exact ih _ hq
    · rw [hs]

/-- **C145**: `getSize` ends, whatever the links.  It is the sum, over all paths that lead below the given one by the entries of
directories, links followed, of the sizes of what they lead to (of the text, for a link that leads to a missing entry), each path
counted once.

Missing: something to which several paths lead is counted for each (`counted_twice_fails`), and a link in a circle makes it raise
(`circle_fails`). -/
theorem size_links_partial (L : Links) (n : Nat) {fs : Node} (hg : Good fs) (p : List Str) (size : List Str → Nat)
    (text : List Str → Str) (s : List Str → Nat) (hs : ∀ q, Below L n fs p q → PathSize L n fs size text q (s q)) :
    ∃ (need : Nat) (all : List (List Str)), all.Nodup ∧ (∀ q, q ∈ all ↔ Below L n fs p q) ∧
      ∀ fuel, need ≤ fuel → getSize L n size text fuel fs p = some (.ok (all.map s).sum) := by
  obtain ⟨need, h⟩ := walk_links_partial L n hg p
  obtain ⟨all, -, -, hn, hm, -⟩ := h need (Nat.le_refl _)
  refine ⟨need, all, hn, hm, fun fuel hf => ?_⟩
  obtain ⟨l, h1, -, h2, h3, -⟩ := h fuel hf
  have hp : l.Perm all := (List.perm_ext_iff_of_nodup h2 hn).mpr fun q => by rw [h3, hm]
  simp only [getSize, h1]
  rw [sumSizes_ok _ s l 0 fun q hq => (one_ok L n fs size text q _).mpr (hs q ((h3 q).mp hq))]
  rw [Nat.zero_add, (hp.map s).sum_nat]

/-- **C145**: and if the size of any of these paths cannot be told, for a file is taken for a directory on the way, or there are too many
links, `OSError` is raised. -/
theorem size_links_raises (L : Links) (n : Nat) {fs : Node} (hg : Good fs) (p : List Str) (size : List Str → Nat)
    (text : List Str → Str) (q : List Str) (hq : Below L n fs p q) (hs : ∀ s, ¬ PathSize L n fs size text q s) :
    ∃ need, ∀ fuel, need ≤ fuel → getSize L n size text fuel fs p = some (.error osError) := by
  obtain ⟨need, h⟩ := walk_links_partial L n hg p
  refine ⟨need, fun fuel hf => ?_⟩
  obtain ⟨l, h1, -, -, h3, -⟩ := h fuel hf
  simp only [getSize, h1, Option.some.injEq]
  refine sumSizes_osError _ l 0 (fun q => one_error L n fs size text q) q ((h3 q).mpr hq) ?_
  rcases one_error L n fs size text q with ⟨s, hh⟩ | hh
  · exact absurd ((one_ok L n fs size text q s).mp hh) (hs s)
  · exact hh

/-- **C145**: where every path leads somewhere and no two lead to the same, everything to which they lead is counted exactly once. -/
theorem size_once_partial (L : Links) (n : Nat) {fs : Node} (hg : Good fs) (p : List Str) (size : List Str → Nat)
    (text : List Str → Str) (hs : ∀ q, Below L n fs p q → FileLinks.resolve L fs false n q ≠ none)
    (hd : ∀ q q', Below L n fs p q → Below L n fs p q' → FileLinks.resolve L fs false n q = FileLinks.resolve L fs false n q' → q = q') :
    ∃ (need : Nat) (places : List (List Str)), places.Nodup ∧
      (∀ r, r ∈ places ↔ ∃ q, Below L n fs p q ∧ FileLinks.resolve L fs false n q = some r) ∧
      ∀ fuel, need ≤ fuel → getSize L n size text fuel fs p = some (.ok (places.map size).sum) := by
  have hr : ∀ q, Below L n fs p q →
      FileLinks.resolve L fs false n q = some ((FileLinks.resolve L fs false n q).getD []) := by
    intro q hq
    cases h : FileLinks.resolve L fs false n q with
    | none => exact absurd h (hs q hq)
    | some r => rfl
  obtain ⟨need, all, h1, h2, h3⟩ := size_links_partial L n hg p size text
    (fun q => size ((FileLinks.resolve L fs false n q).getD [])) fun q hq => .leads _ (hr q hq)
  refine ⟨need, all.map fun q => (FileLinks.resolve L fs false n q).getD [], ?_, ?_, ?_⟩
  · rw [List.nodup_iff_pairwise_ne, List.pairwise_map]
    refine h1.imp_of_mem ?_
    intro a b ha hb hab he
    refine hab (hd a b ((h2 a).mp ha) ((h2 b).mp hb) ?_)
    rw [hr a ((h2 a).mp ha), hr b ((h2 b).mp hb), he]
  · intro r
    rw [List.mem_map]
    constructor
    · rintro ⟨q, hq, rfl⟩
      exact ⟨q, (h2 q).mp hq, hr q ((h2 q).mp hq)⟩
    · rintro ⟨q, hq, he⟩
      exact ⟨q, (h2 q).mpr hq, by rw [he]; rfl⟩
  · intro fuel hf
    rw [h3 fuel hf, List.map_map]
    rfl

/-- **C145** fails: of a directory with a link to it beside it, everything is counted twice. -/
theorem counted_twice_fails (n : Nat) (z : List Nat) (size : List Str → Nat) (text : List Str → Str) :
    getSize (fun q => if q = [[108]] then some [[100]] else none) (n + 1) size text 4
        (.dir [([100], .dir [([102], .file z)]), ([108], .other)]) [] =
      some (.ok (size [] + 2 * (size [[100]] + size [[100], [102]]))) := by
  have key : getSize (fun q => if q = [[108]] then some [[100]] else none) (n + 1) size text 4
        (.dir [([100], .dir [([102], .file z)]), ([108], .other)]) [] =
      some (.ok (0 + size [] + size [[100]] + size [[100], [102]] + size [[100]] + size [[100], [102]])) := by
    cases n <;> rfl
  rw [key]
  congr 2
  omega

theorem circle_loop (c : Str) (n k : Nat) :
    resolve (circleLink c) (circle c) n (List.replicate k c) = if k ≤ n then .ok [] else .error .eloop := by
  have hl : lookup (circle c) [c] = some .other := by simp [circle, lookup, Dict.get?]
  have hk : linkAt (circleLink c) (circle c) [c] = some [] := by unfold linkAt; rw [hl]; simp [circleLink]
  induction n generalizing k with
  | zero =>
    cases k with
    | zero => rfl
    | succ k =>
      rw [resolve, List.replicate_succ, follow]
      simp [hl, hk]
  | succ n ih =>
    cases k with
    | zero => rfl
    | succ k =>
      rw [resolve, List.replicate_succ, follow]
      simp only [List.nil_append, hl, hk]
      rw [ih k]
      by_cases h : k ≤ n <;> simp [h]

/-- **C145** fails: the size of a directory with nothing in it but a link to itself cannot be told. -/
theorem circle_fails (c : Str) (n : Nat) (size : List Str → Nat) (text : List Str → Str) :
    getSize (circleLink c) n size text (n + 2) (circle c) [] = some (.error osError) := by
  unfold getSize
  rw [(walk_circle_fails c n).1]
  simp only [Option.some.injEq]
  refine sumSizes_osError _ _ 0 (fun q => one_error _ _ _ _ _ q) (List.replicate (n + 1) c)
    (List.mem_map.mpr ⟨n + 1, by simp, rfl⟩) ?_
  unfold statOf
  rw [circle_loop, if_neg (by omega)]
  rfl

/-! ## Examples -/

/-- A directory with a file of 3 bytes, a link to it and a dangling link of 5 characters. -/
example : getSize (fun q => if q = [[98]] then some [[97]] else if q = [[99]] then some [[120]] else none) 40
    (fun q => if q = [] then 4096 else 3) (fun _ => [1, 2, 3, 4, 5]) 3
    (.dir [([97], .file [7, 7, 7]), ([98], .other), ([99], .other)]) [] = some (.ok 4107) := rfl

/-- The dangling link meets the specification, and a link through a file has no size. -/
example : PathSize (fun q => if q = [[99]] then some [[120]] else none) 1 (.dir [([99], .other)]) (fun _ => 0) (fun _ => [1, 2])
    [[99]] 2 :=
  .dangling [] [99] [] [[120]] rfl rfl rfl (.link 0 [] [99] [] [[120]] rfl (.gone 0 [] [120] [] _ rfl rfl))

example (s : Nat) : ¬ PathSize (fun q => if q = [[99]] then some [[97], [120]] else none) 1
    (.dir [([97], .file []), ([99], .other)]) (fun _ => 0) (fun _ => [1, 2]) [[99]] s := by
  rw [← one_ok]
  intro h
  cases h

end Verif.SizeLinks
