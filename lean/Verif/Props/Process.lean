import Verif.Model.Process
import Mathlib.Data.List.Dedup
/-!
# C61: `spawnProcess` composes PYTHONPATH and does not touch the caller's environment
-/
namespace Verif.Process
open Verif.Py Verif.Py.Path

/-- What `list(set(xs))` promises. -/
def World.SetOrder (w : World) : Prop := ∀ xs : List Str, (w.order xs).Nodup ∧ ∀ x, x ∈ w.order xs ↔ x ∈ xs

/-- `dir` is the directory that holds the package, in the sense of `imp.find_module`. -/
def DirOf (w : World) (pkg dir : Str) : Prop := ∃ file, w.find pkg = .ok (some file) ∧ (split file).1 = dir

/-- What the code takes for the system library: everything whose name starts with that of `lib`. -/
def InLibText (w : World) (dir : Str) : Prop := ∃ rest, dir = join w.pfx [sLib] ++ rest

/-- What the property means by the system library: the directory itself and what is below it. -/
def InLib (w : World) (dir : Str) : Prop :=
  dir = join w.pfx [sLib] ∨ ∃ rest, dir = join w.pfx [sLib] ++ [47] ++ rest

/-- The entries of a search path; an absent variable has none. -/
def entries : Option Str → List Str
  | none => []
  | some v => splitSep [58] v

theorem startsWith_iff (s p : Str) : startsWith s p = true ↔ ∃ rest, s = p ++ rest := by
  rw [startsWith, List.isPrefixOf_iff_prefix]
  exact ⟨fun ⟨t, h⟩ => ⟨t, h.symm⟩, fun ⟨t, h⟩ => ⟨t, h.symm⟩⟩

theorem packageDirs_spec (w : World) (pkgs dirs : List Str) (h : packageDirs w pkgs = .ok dirs) :
    (∀ p ∈ pkgs, ∃ d, DirOf w p d) ∧ ∀ d, d ∈ dirs ↔ ¬ InLibText w d ∧ ∃ p ∈ pkgs, DirOf w p d := by
  induction pkgs generalizing dirs with
  | nil => cases h; simp
  | cons p ps ih =>
    rw [packageDirs] at h
    cases hf : w.find p with
    | error e => rw [hf] at h; cases h
    | ok o =>
      cases o with
      | none => rw [hf] at h; cases h
      | some file =>
        rw [hf] at h
        have hp : ∀ d, DirOf w p d ↔ d = (split file).1 := fun d =>
          ⟨fun ⟨f, h1, h2⟩ => by rw [hf] at h1; cases h1; exact h2.symm, fun e => ⟨file, hf, e.symm⟩⟩
        simp only at h
        split at h
        · rename_i hs
          obtain ⟨h1, h2⟩ := ih dirs h
          refine ⟨fun q hq => ?_, fun d => ?_⟩
          · rcases List.mem_cons.mp hq with rfl | hq
            · exact ⟨_, file, hf, rfl⟩
            · exact h1 q hq
          · rw [h2]
            refine and_congr_right fun hn => ⟨fun ⟨q, hq, hd⟩ => ⟨q, List.mem_cons_of_mem _ hq, hd⟩, fun ⟨q, hq, hd⟩ => ?_⟩
            rcases List.mem_cons.mp hq with rfl | hq
            · rw [hp] at hd; subst hd
              exact absurd ((startsWith_iff _ _).mp hs) hn
            · exact ⟨q, hq, hd⟩
        · rename_i hs
          cases hr : packageDirs w ps with
          | error e => rw [hr] at h; cases h
          | ok ds =>
            rw [hr] at h; cases h
            obtain ⟨h1, h2⟩ := ih ds hr
            refine ⟨fun q hq => ?_, fun d => ?_⟩
            · rcases List.mem_cons.mp hq with rfl | hq
              · exact ⟨_, file, hf, rfl⟩
              · exact h1 q hq
            · rw [List.mem_cons, h2]
              constructor
              · rintro (rfl | ⟨hn, q, hq, hd⟩)
                · exact ⟨fun hc => hs ((startsWith_iff _ _).mpr hc), p, by simp, file, hf, rfl⟩
                · exact ⟨hn, q, List.mem_cons_of_mem _ hq, hd⟩
              · rintro ⟨hn, q, hq, hd⟩
                rcases List.mem_cons.mp hq with rfl | hq
                · exact Or.inl ((hp d).mp hd)
                · exact Or.inr ⟨hn, q, hq, hd⟩

theorem splitGo_app (xs : Str) (hx : 58 ∉ xs) (cur ys : Str) :
    splitGo [58] cur 0 (xs ++ [58] ++ ys) = (cur ++ xs) :: splitGo [58] [] 0 ys :=
  splitGo_part [58] (by simp) (by decide) cur xs ys (fun h => hx (h.subset (by simp)))

/-- Splitting a search path in front of which entries have been put. -/
theorem split_join (ds : List Str) (hd : ∀ d ∈ ds, 58 ∉ d) (v : Str) :
    splitSep [58] (joinSep [58] (ds ++ splitSep [58] v)) = ds ++ splitSep [58] v := by
  induction ds with
  | nil => rw [List.nil_append, joinSep_splitSep [58] (by simp)]
  | cons d ds ih =>
    have ih := ih fun x hx => hd x (List.mem_cons_of_mem _ hx)
    have hne : ds ++ splitSep [58] v ≠ [] := fun h => splitSep_ne_nil [58] (by simp) v (List.append_eq_nil_iff.mp h).2
    obtain ⟨q, qs, hq⟩ := List.exists_cons_of_ne_nil hne
    rw [List.cons_append, hq, joinSep_cons_cons, ← hq, splitSep, splitGo_app d (hd d (by simp)), List.nil_append]
    exact congrArg _ ih

/-- **C61**, for package directories whose names contain no `:`, and an environment that has PYTHONPATH.

The child gets the caller's arguments and a new mapping; that mapping agrees with the given one on every other key, and its
PYTHONPATH consists of the directories of the requested packages that do not start with the text of the system library's
name, each once, followed by the entries the variable had.

Missing: the directories the property calls "outside the system library" (see `library_fails`), and environments without
PYTHONPATH (see `absent_fails` and `absent_partial`). -/
theorem spawn_partial (w : World) (hw : w.SetOrder) (c : Spawn) (pkgs : List Str) (st : Store) (env : Env)
    (he : st[c.env]? = some env) (s : Spawn) (st' : Store) (h : spawnProcess w c pkgs st = (.ok s, st')) (v : Str)
    (hv : env.get? sPythonPath = some v) (hc : ∀ p ∈ pkgs, ∀ d, DirOf w p d → 58 ∉ d) :
    s = { c with env := s.env } ∧ st.length ≤ s.env ∧
    ∃ child, st'[s.env]? = some child ∧ (∀ k, k ≠ sPythonPath → child.get? k = env.get? k) ∧
      ∃ ds : List Str, entries (child.get? sPythonPath) = ds ++ entries (some v) ∧ ds.Nodup ∧
        ∀ d, d ∈ ds ↔ ¬ InLibText w d ∧ ∃ p ∈ pkgs, DirOf w p d := by
  rw [spawnProcess, he] at h
  simp only at h
  cases hp : packageDirs w pkgs with
  | error e => rw [hp] at h; simp at h
  | ok dirs =>
    rw [hp] at h
    simp only [Prod.mk.injEq, Except.ok.injEq] at h
    obtain ⟨rfl, rfl⟩ := h
    obtain ⟨_, h2⟩ := packageDirs_spec w pkgs dirs hp
    refine ⟨rfl, by simp, env.set sPythonPath (pythonPath w dirs env), ?_, fun k hk => ?_, w.order dirs, ?_, (hw dirs).1,
      fun d => ?_⟩
    · simp
    · exact Dict.get?_set_other _ _ _ _ (Ne.symm hk)
    · rw [Dict.get?_set_same, entries, entries, pythonPath, hv, Option.getD_some, split_join]
      intro d hd
      obtain ⟨_, p, hp, hd⟩ := (h2 d).mp (((hw dirs).2 d).mp hd)
      exact hc p hp d hd
    · rw [(hw dirs).2, h2]

/-- Without PYTHONPATH in the environment, the child's has one empty entry more than the property says. -/
theorem absent_partial (w : World) (hw : w.SetOrder) (c : Spawn) (pkgs : List Str) (st : Store) (env : Env)
    (he : st[c.env]? = some env) (s : Spawn) (st' : Store) (h : spawnProcess w c pkgs st = (.ok s, st'))
    (hv : env.get? sPythonPath = none) (hc : ∀ p ∈ pkgs, ∀ d, DirOf w p d → 58 ∉ d) :
    ∃ child, st'[s.env]? = some child ∧ (∀ k, k ≠ sPythonPath → child.get? k = env.get? k) ∧
      ∃ ds : List Str, entries (child.get? sPythonPath) = ds ++ [[]] ∧ ds.Nodup ∧
        ∀ d, d ∈ ds ↔ ¬ InLibText w d ∧ ∃ p ∈ pkgs, DirOf w p d := by
  rw [spawnProcess, he] at h
  simp only at h
  cases hp : packageDirs w pkgs with
  | error e => rw [hp] at h; simp at h
  | ok dirs =>
    rw [hp] at h
    simp only [Prod.mk.injEq, Except.ok.injEq] at h
    obtain ⟨rfl, rfl⟩ := h
    obtain ⟨_, h2⟩ := packageDirs_spec w pkgs dirs hp
    refine ⟨env.set sPythonPath (pythonPath w dirs env), ?_, fun k hk => ?_, w.order dirs, ?_, (hw dirs).1, fun d => ?_⟩
    · simp
    · exact Dict.get?_set_other _ _ _ _ (Ne.symm hk)
    · rw [Dict.get?_set_same, entries, pythonPath, hv, Option.getD_none, split_join]
      · rfl
      intro d hd
      obtain ⟨_, p, hp, hd⟩ := (h2 d).mp (((hw dirs).2 d).mp hd)
      exact hc p hp d hd
    · rw [(hw dirs).2, h2]

/-- It fails exactly when a package has no file, and then nothing is spawned. -/
theorem spawn_ok_iff (w : World) (c : Spawn) (pkgs : List Str) (st : Store) (he : c.env < st.length) :
    (∃ s, (spawnProcess w c pkgs st).1 = .ok s) ↔ ∀ p ∈ pkgs, ∃ d, DirOf w p d := by
  have key : (∃ ds, packageDirs w pkgs = .ok ds) ↔ ∀ p ∈ pkgs, ∃ d, DirOf w p d := by
    refine ⟨fun ⟨ds, h⟩ => (packageDirs_spec w pkgs ds h).1, fun h => ?_⟩
    induction pkgs with
    | nil => exact ⟨[], rfl⟩
    | cons p ps ih =>
      obtain ⟨d, file, hf, _⟩ := h p (by simp)
      obtain ⟨ds, hds⟩ := ih fun q hq => h q (List.mem_cons_of_mem _ hq)
      rw [packageDirs, hf, hds]
      simp only
      split <;> exact ⟨_, rfl⟩
  rw [← key, spawnProcess, List.getElem?_eq_getElem he]
  simp only
  cases packageDirs w pkgs <;> simp

/-- **C61**: no mapping that existed before is modified, whether or not the call succeeds. -/
theorem spawn_frame (w : World) (c : Spawn) (pkgs : List Str) (st : Store) (r : Nat) (hr : r < st.length) :
    (spawnProcess w c pkgs st).2[r]? = st[r]? := by
  rw [spawnProcess]
  cases st[c.env]? with
  | none => rfl
  | some env =>
    simp only
    cases packageDirs w pkgs with
    | error e => simp [List.getElem?_append_left hr]
    | ok ds =>
      simp only [List.length_append, List.length_singleton, Nat.add_sub_cancel]
      rw [List.getElem?_set_ne (by omega), List.getElem?_append_left hr]

theorem spawn_length (w : World) (c : Spawn) (pkgs : List Str) (st : Store) :
    st.length ≤ (spawnProcess w c pkgs st).2.length := by
  rw [spawnProcess]
  cases st[c.env]? with
  | none => simp
  | some env => simp only; cases packageDirs w pkgs <;> simp

/-- **C61**: no sequence of calls, of either function, modifies a mapping; in particular not the shared default. -/
theorem calls_frame (w : World) (cs : List (Bool × Spawn × List Str)) (st : Store) (r : Nat) (hr : r < st.length) :
    (calls w cs st).2[r]? = st[r]? := by
  induction cs generalizing st with
  | nil => rfl
  | cons x cs ih =>
    obtain ⟨b, c, pkgs⟩ := x
    rw [calls]
    cases b with
    | false =>
      simp only [Bool.false_eq_true, if_false]
      rw [ih _ (Nat.lt_of_lt_of_le hr (spawn_length w c pkgs st)), spawn_frame w c pkgs st r hr]
    | true =>
      simp only [if_true, spawnPythonProcess]
      rw [ih _ (Nat.lt_of_lt_of_le hr (spawn_length w _ pkgs st)), spawn_frame w _ pkgs st r hr]

/-- `spawnPythonProcess` runs the interpreter with everything else as given. -/
theorem spawnPython_executable (w : World) (c : Spawn) (pkgs : List Str) (st : Store) (s : Spawn) (st' : Store)
    (h : spawnPythonProcess w c pkgs st = (.ok s, st')) : s = { c with executable := w.executable, env := s.env } := by
  rw [spawnPythonProcess, spawnProcess] at h
  simp only at h
  cases he : st[c.env]? with
  | none => rw [he] at h; simp at h
  | some env =>
    rw [he] at h
    cases hp : packageDirs w pkgs with
    | error e => rw [hp] at h; simp at h
    | ok ds => rw [hp] at h; simp at h; rw [← h.1]

/-! ## Where the code differs from the property, and examples -/

/-- `/usr`, `/x/a`, and a package `a` found as `/x/a`; the package `b` as `/usr/libx/b`. -/
def demo : World :=
  ⟨[47, 117, 115, 114], [112], fun p =>
    if p = [97] then .ok (some [47, 120, 47, 97])
    else if p = [98] then .ok (some [47, 117, 115, 114, 47, 108, 105, 98, 120, 47, 98])
    else .error (.other "ImportError"), List.dedup⟩

theorem demo_order : demo.SetOrder := fun xs => ⟨List.nodup_dedup xs, fun x => List.mem_dedup⟩

def call : Spawn := ⟨7, [112], [[112]], 0, none, none, none, 0⟩

/-- The hypotheses of `spawn_partial` are met, with a directory added once although it is asked for twice. -/
example : spawnProcess demo call [[97], [97]] [[(sPythonPath, [47, 121])]] =
    (.ok { call with env := 1 }, [[(sPythonPath, [47, 121])], [(sPythonPath, [47, 120, 58, 47, 121])]]) := rfl

/-- Without PYTHONPATH the child is given an empty entry, which Python takes for the current directory. -/
theorem absent_fails : ∃ s st', spawnProcess demo call [[97]] [[]] = (.ok s, st') ∧
    ∃ child, st'[s.env]? = some child ∧ entries (child.get? sPythonPath) = [[47, 120], []] ∧ entries none = [] :=
  ⟨{ call with env := 1 }, [[], [(sPythonPath, [47, 120, 58])]], rfl, _, rfl, by decide, rfl⟩

/-- A package in `/usr/libx` is left out, although that is not in `/usr/lib`. -/
theorem library_fails : ∃ d s st', DirOf demo [98] d ∧ ¬ InLib demo d ∧
    spawnProcess demo call [[98]] [[(sPythonPath, [47, 121])]] = (.ok s, st') ∧
    ∃ child, st'[s.env]? = some child ∧ entries (child.get? sPythonPath) = [[47, 121]] := by
  refine ⟨[47, 117, 115, 114, 47, 108, 105, 98, 120], { call with env := 1 },
    [[(sPythonPath, [47, 121])], [(sPythonPath, [47, 121])]], ⟨_, rfl, by decide⟩, ?_, rfl, _, rfl, by decide⟩
  rintro (h | ⟨rest, h⟩)
  · revert h; decide
  · simp [demo, join, join2, sLib, startsWith] at h

end Verif.Process
