import Verif.Model.BenchmarkSize
import Verif.Props.FilePathOps
/-!
# C93: `getSize` counts everything once
-/
namespace Verif.FilePath
open Verif.Py Verif.Py.Path

/-- The size of one path: what `stat` says, or the length of the text of a dangling link. -/
inductive SizeOf (stat : List Str → StatOf) (link : List Str → Option Str) (q : List Str) : Nat → Prop
  | stat {n : Nat} : stat q = .size n → SizeOf stat link q n
  | dangling {text : Str} : stat q = .enoent → link q = some text → SizeOf stat link q text.length

theorem getOneSize_spec (stat : List Str → StatOf) (link : List Str → Option Str) (q : List Str) (n : Nat) :
    getOneSize (stat q) (link q) = .ok n ↔ SizeOf stat link q n := by
  constructor
  · intro h
    cases hs : stat q with
    | size m => rw [hs] at h; cases h; exact .stat hs
    | enoent =>
      cases hl : link q with
      | none => rw [hs, hl] at h; cases h
      | some t => rw [hs, hl] at h; cases h; exact .dangling hs hl
    | error e => rw [hs] at h; cases h
  · intro h
    cases h with
    | stat hs => rw [hs]; rfl
    | dangling hs hl => rw [hs, hl]; rfl

theorem sumSizes_ok (one : List Str → Except PyErr Nat) (size : List Str → Nat) (l : List (List Str)) (acc : Nat)
    (h : ∀ q ∈ l, one q = .ok (size q)) : sumSizes one l acc = .ok (acc + (l.map size).sum) := by
  induction l generalizing acc with
  | nil => rfl
  | cons p l ih =>
    rw [sumSizes, h p (by simp)]
    simp only
    rw [ih _ fun q hq => h q (List.mem_cons_of_mem _ hq), List.map_cons, List.sum_cons, Nat.add_assoc]

theorem sumSizes_error (one : List Str → Except PyErr Nat) (l : List (List Str)) (acc : Nat) (q : List Str) (hq : q ∈ l)
    (h : ∀ n, one q ≠ .ok n) : ∃ e, sumSizes one l acc = .error e := by
  induction l generalizing acc with
  | nil => cases hq
  | cons p l ih =>
    rw [sumSizes]
    cases hp : one p with
    | error e => exact ⟨e, rfl⟩
    | ok n =>
      rcases List.mem_cons.mp hq with rfl | hq
      · exact absurd hp (h n)
      · exact ih _ hq

/-- **C93**: the size of a path is the sum of the sizes of everything at or below it, each counted once, in whatever order they
are listed. -/
theorem getSize_sum {fs : Node} (hg : Good fs) (p : List Str) {m : Node} (hl : lookup fs p = some m)
    (stat : List Str → StatOf) (link : List Str → Option Str) (size : List Str → Nat)
    (hsize : ∀ q, p <+: q → (lookup fs q).isSome → SizeOf stat link q (size q))
    (all : List (List Str)) (hnd : all.Nodup) (hall : ∀ q, q ∈ all ↔ p <+: q ∧ (lookup fs q).isSome) :
    ∃ need, ∀ fuel, need ≤ fuel → getSize stat link fuel fs p = some (.ok (all.map size).sum) := by
  obtain ⟨need, h⟩ := walk_exact hg p hl
  refine ⟨need, fun fuel hf => ?_⟩
  obtain ⟨l, h1, h2, -, h3, -⟩ := h fuel hf
  have hp : l.Perm all := (List.perm_ext_iff_of_nodup h2 hnd).mpr fun q => by rw [h3, hall]
  simp only [getSize, h1]
  rw [sumSizes_ok _ size l 0 fun q hq => (getOneSize_spec stat link q _).mpr (hsize q ((h3 q).mp hq).1 ((h3 q).mp hq).2)]
  rw [Nat.zero_add, (hp.map size).sum_nat]

/-- **C93**: if the size of anything at or below the path cannot be told, no size is returned. -/
theorem getSize_raises {fs : Node} (hg : Good fs) (p : List Str) {m : Node} (hl : lookup fs p = some m)
    (stat : List Str → StatOf) (link : List Str → Option Str) (q : List Str) (hq : p <+: q) (hs : (lookup fs q).isSome)
    (hn : ∀ n, ¬ SizeOf stat link q n) :
    ∃ need, ∀ fuel, need ≤ fuel → ∃ e, getSize stat link fuel fs p = some (.error e) := by
  obtain ⟨need, h⟩ := walk_exact hg p hl
  refine ⟨need, fun fuel hf => ?_⟩
  obtain ⟨l, h1, h2, -, h3, -⟩ := h fuel hf
  obtain ⟨e, he⟩ := sumSizes_error (fun q => getOneSize (stat q) (link q)) l 0 q ((h3 q).mpr ⟨hq, hs⟩)
    fun n hc => hn n ((getOneSize_spec stat link q n).mp hc)
  exact ⟨e, by simp only [getSize, h1, he]⟩

/-- A path at which there is nothing: the walk yields it, and its size cannot be told. -/
theorem getSize_absent (fs : Node) (p : List Str) (h : lookup fs p = none) (stat : List Str → StatOf)
    (link : List Str → Option Str) (hs : stat p = .enoent) (hn : link p = none) (fuel : Nat) :
    getSize stat link (fuel + 1) fs p = some (.error osError) := by
  simp only [getSize, walk_absent fuel fs p h, sumSizes, hs, hn, getOneSize]

theorem Target.stat_ne_lnk (t : Target) : t.stat ≠ some .lnk := by
  induction t with
  | link t ih => exact ih
  | _ => simp [Target.stat]

/-- `islink` is never true, not even of a symbolic link: `restat` uses `stat`, not `lstat`. -/
theorem islink_fails (t : Target) : islink t = false := by
  unfold islink
  have := t.stat_ne_lnk
  cases h : t.stat with
  | none => rfl
  | some m => rw [h] at this; simpa using this

example : islink (.link .file) = false := rfl

/-- A directory of 4096 bytes with a file of 3, a directory of 512 and a dangling link of 5 characters. -/
example : getSize
    (fun q => if q = [] then .size 4096 else if q = [[97]] then .size 3 else if q = [[98]] then .size 512 else .enoent)
    (fun q => if q = [[99]] then some [1, 2, 3, 4, 5] else none) 3
    (.dir [([97], .file [1, 2, 3]), ([98], .dir []), ([99], .other)]) [] = some (.ok 4616) := rfl

end Verif.FilePath
