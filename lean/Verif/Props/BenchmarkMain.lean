import Verif.Model.BenchmarkMain
import Verif.Props.FilePathDirs
/-!
# C108 — running a benchmark cleans up and ends
-/
namespace Verif.Benchmark.Main
open Verif.Py Verif.FilePath Verif.Benchmark

/-! ## The loop -/

theorem loop_other (name : Str) (sector : Int) (s : Loop) (pre evs : List Ev) (h : ∀ e ∈ pre, e = .other) :
    loop name sector s (pre ++ evs) = loop name sector s evs := by
  induction pre with
  | nil => rfl
  | cons e pre ih =>
    obtain rfl := h e (by simp)
    exact ih fun e he => h e (by simp [he])

/-- **C108.** Whatever comes of the child, `bench` calls `reactor.stop()` just once, when the Deferred is fired, and returns; it
has written the reports and has logged what went wrong. -/
theorem bench_stops_partial (name : Str) (sector : Int) (pre post : List Ev) (h : ∀ e ∈ pre, e = .other) (b : Bench) (o : Outcome) :
    ∃ s, bench name sector .pending (pre ++ .finished b o :: post) = .returned s post ∧ s.stops = 1 ∧ s.refused = 0 ∧
      s.reports = (later name sector b o).1 ∧
      (∀ e, Logged.raised e ∈ s.logged ↔ (later name sector b o).2 = some e) ∧
      (∀ n, Logged.result n ∈ s.logged ↔ o = .failure n) := by
  refine ⟨_, loop_other name sector _ pre _ h, rfl, rfl, rfl, fun e => ?_, fun n => ?_⟩
  · cases h2 : (later name sector b o).2 with
    | none => cases o <;> simp [fire, h2]
    | some e' => cases o <;> simp [fire, h2, eq_comm]
  · cases h2 : (later name sector b o).2 with
    | none => cases o <;> simp [fire, h2, eq_comm]
    | some e' => cases o <;> simp [fire, h2, eq_comm]

/-- **C108.** Until then it runs. -/
theorem bench_waits (name : Str) (sector : Int) (evs : List Ev) (h : ∀ e ∈ evs, e = .other) :
    ∃ s, bench name sector .pending evs = .waiting s ∧ s.stops = 0 := by
  refine ⟨⟨[], [], 0, 0⟩, ?_, rfl⟩
  have := loop_other name sector ⟨[], [], 0, 0⟩ evs [] h
  rw [List.append_nil] at this
  exact this

/-- **C108 is false of a function whose Deferred has been fired already**: `reactor.stop()` raises, as the reactor does not run
yet, and `bench` never returns, whatever happens. -/
theorem bench_fired_fails (name : Str) (sector : Int) (b : Bench) (o : Outcome) (evs : List Ev) :
    ∃ s, bench name sector (.fired b o) evs = .waiting s ∧ s.refused = 1 := by
  refine ⟨fire name sector false ⟨[], [], 0, 0⟩ b o, ?_, rfl⟩
  have := loop_other name sector (fire name sector false ⟨[], [], 0, 0⟩ b o) (evs.filter fun e => e == .other) [] (by simp)
  rw [List.append_nil] at this
  exact this

/-! ## The child -/

/-- **C108.** The child runs the interpreter on the arguments in the working directory; the channel that `start()` and `stop()`
write to is read by the parent, the one that they read is written by it. -/
theorem spawned (executable : Str) (path : List Str) (args : List Str) :
    let s := runner executable path args
    s.executable = executable ∧ s.argv.head? = some executable ∧ s.argv.drop 2 = args ∧ s.path = path ∧
      s.childFDs.get? 3 = some .r ∧ s.childFDs.get? 4 = some .w ∧ s.childFDs.get? 0 = some .w ∧
      (∀ fd, fd = 1 ∨ fd = 2 → s.childFDs.get? fd = some .r) := by
  refine ⟨rfl, rfl, rfl, rfl, rfl, rfl, rfl, ?_⟩
  rintro fd (rfl | rfl) <;> rfl

/-! ## `main` -/

theorem makedirs_inv {fs fs1 : Node} {tmp : List Str} (hm : makedirs fs tmp = (fs1, none)) :
    lookup fs tmp = none ∧ ∀ q, ¬ q <+: tmp → lookup fs1 q = lookup fs q := by
  have hn : lookup fs tmp = none ∧ WayIsFree fs tmp := by
    apply Classical.byContradiction
    intro h
    have : lookup fs tmp ≠ none ∨ ¬ WayIsFree fs tmp := by
      by_cases h1 : lookup fs tmp = none
      · exact Or.inr fun h2 => h ⟨h1, h2⟩
      · exact Or.inl h1
    rw [makedirs_refuses fs tmp this] at hm
    cases hm
  obtain ⟨fs', h1, -, h3⟩ := makedirs_makes fs tmp hn.1 hn.2
  obtain rfl : fs' = fs1 := by rw [h1] at hm; exact (Prod.mk.inj hm).1
  exact ⟨hn.1, h3⟩

/-- **C108.** Whatever the benchmark did to the file system, and whether it raised or not, afterwards there is nothing at the
path of the temporary directory, as before, and everything beside it is as the benchmark left it; what the benchmark raised,
`main` raises.  It must have left something at that path (`main_gone_fails`). -/
theorem main_cleans_partial (fs fs1 : Node) (cwd : List Str) (name : Str) (run : Node → Node × Option PyErr)
    (hm : makedirs fs (cwd ++ [name]) = (fs1, none)) (hg : Good (run fs1).1) (hleft : lookup (run fs1).1 (cwd ++ [name]) ≠ none) :
    ∃ need fs3, (∀ fuel, need ≤ fuel → main fuel fs (cwd ++ [name]) run = some (fs3, (run fs1).2)) ∧
      (∀ q, cwd ++ [name] <+: q → lookup fs3 q = none ∧ lookup fs q = none) ∧
      (∀ q, ¬ cwd ++ [name] <+: q → ¬ q <+: cwd ++ [name] → lookup fs3 q = lookup (run fs1).1 q) := by
  cases hl : lookup (run fs1).1 (cwd ++ [name]) with
  | none => exact absurd hl hleft
  | some m =>
    obtain ⟨es2, hd⟩ : ∃ es2, lookup (run fs1).1 cwd = some (.dir es2) := by
      rw [lookup_append] at hl
      cases hx : lookup (run fs1).1 cwd with
      | none => rw [hx] at hl; cases hl
      | some k =>
        rw [hx] at hl
        cases k with
        | dir es2 => exact ⟨es2, rfl⟩
        | file z => cases hl
        | other => cases hl
    obtain ⟨need, fs3, h4, h5, h6, -⟩ := remove_exact hg cwd name hd hl
    refine ⟨need, fs3, fun fuel hf => ?_, fun q hq => ⟨h5 q hq, lookup_prefix hq (makedirs_inv hm).1⟩, h6⟩
    simp only [main, hm, h4 fuel hf]

/-- **C108.** So what the benchmark did not change is as it was before `main`. -/
theorem main_keeps_partial (fs fs1 : Node) (cwd : List Str) (name : Str) (run : Node → Node × Option PyErr)
    (hm : makedirs fs (cwd ++ [name]) = (fs1, none)) (hg : Good (run fs1).1) (hleft : lookup (run fs1).1 (cwd ++ [name]) ≠ none) :
    ∃ need fs3, (∀ fuel, need ≤ fuel → main fuel fs (cwd ++ [name]) run = some (fs3, (run fs1).2)) ∧
      ∀ q, ¬ q <+: cwd → (lookup (run fs1).1 q = lookup fs1 q ∨ cwd ++ [name] <+: q) → lookup fs3 q = lookup fs q := by
  obtain ⟨need, fs3, h1, h2, h3⟩ := main_cleans_partial fs fs1 cwd name run hm hg hleft
  refine ⟨need, fs3, h1, fun q hq hk => ?_⟩
  by_cases hb : cwd ++ [name] <+: q
  · rw [(h2 q hb).1, (h2 q hb).2]
  · have hnp : ¬ q <+: cwd ++ [name] := by
      intro h
      rcases prefix_snoc h with rfl | h
      · exact hb (List.prefix_refl _)
      · exact hq h
    rw [h3 q hb hnp, hk.resolve_right hb, (makedirs_inv hm).2 q hnp]

/-- **C108.** If the name is taken, nothing is run, changed or removed. -/
theorem main_taken (fuel : Nat) (fs : Node) (tmp : List Str) (run : Node → Node × Option PyErr) (h : lookup fs tmp ≠ none) :
    main fuel fs tmp run = some (fs, some osError) := by
  simp only [main, makedirs_refuses fs tmp (Or.inl h)]

/-- **C108 is false of a benchmark that removes its working directory**: `main` raises although nothing went wrong. -/
theorem main_gone_fails (fuel : Nat) (fs fs1 : Node) (tmp : List Str) (run : Node → Node × Option PyErr)
    (hm : makedirs fs tmp = (fs1, none)) (hr : (run fs1).2 = none) (hl : lookup (run fs1).1 tmp = none) :
    main (fuel + 1) fs tmp run = some ((run fs1).1, some osError) := by
  simp only [main, hm, remove_absent fuel _ _ hl]

/-- **C108 is false of a script named by a relative path**: the child looks for it in the new, empty directory, where there is
nothing. -/
theorem relative_script_fails (fs fs1 : Node) (tmp : List Str) (hm : makedirs fs tmp = (fs1, none)) (script : List Str)
    (hs : script ≠ []) : lookup fs1 (seen tmp false script) = none := by
  obtain ⟨hn, h3⟩ := makedirs_inv hm
  rw [seen, if_neg (by simp), h3, lookup_prefix (List.prefix_append _ _) hn]
  intro h
  have := h.length_le
  cases script with
  | nil => exact hs rfl
  | cons c t => simp at this

/-- **C108.** A script named by an absolute path is seen where it was, unless it was at or above the temporary directory. -/
theorem absolute_script (fs fs1 : Node) (tmp : List Str) (hm : makedirs fs tmp = (fs1, none)) (script : List Str)
    (hs : ¬ script <+: tmp) : lookup fs1 (seen tmp true script) = lookup fs script :=
  (makedirs_inv hm).2 script hs

/-! ## Examples -/

/-- A run in `/w` with a temporary directory `t`: the benchmark leaves a file `f` in it and one `output` beside it, and raises. -/
def exampleRun (n : Node) : Node × Option PyErr :=
  match put n [[119], [116], [102]] (.file [1]) with
  | none => (n, none)
  | some n1 =>
    match put n1 [[119], [111]] (.file [2]) with
    | none => (n, none)
    | some n2 => (n2, some .runtimeError)

example : main 5 (.dir [([119], .dir [])]) [[119], [116]] exampleRun =
    some (.dir [([119], .dir [([111], .file [2])])], some .runtimeError) := by rfl

end Verif.Benchmark.Main
