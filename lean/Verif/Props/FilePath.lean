import Verif.Model.FilePath
import Verif.Lemmas.Path
/-!
# C71: `FilePath.child` never escapes its directory
-/
namespace Verif.FilePath
open Verif.Py Verif.Py.Path

/-- A directory: `n` slashes (one, or two as POSIX allows) and the components. -/
structure IsDir (n : Nat) (comps : List Str) : Prop where
  slashes : n = 1 ∨ n = 2
  names : ∀ c ∈ comps, Name c

theorem IsDir.snoc {n : Nat} {comps : List Str} (h : IsDir n comps) {c : Str} (hc : Name c) : IsDir n (comps ++ [c]) :=
  ⟨h.slashes, fun x hx => by
    rcases List.mem_append.mp hx with hx | hx
    · exact h.names x hx
    · rw [List.mem_singleton] at hx; subst hx; exact hc⟩

theorem IsDir.resolve {n : Nat} {comps : List Str} (h : IsDir n comps) (p : Str) : IsDir n (resolve comps (splitSep [47] p)) :=
  ⟨h.slashes, resolve_names comps _ h.names (splitSep_slashfree p)⟩

/-- Every `FilePath` has such a path, in a working directory that has one. -/
theorem filePath_isDir {m : Nat} {w : List Str} (hw : IsDir m w) (path : Str) :
    ∃ n comps, IsDir n comps ∧ filePath (canon m w) path = canon n comps := by
  obtain ⟨n, comps, h1, h2, h3⟩ := abspath_shape m hw.slashes w hw.names path
  exact ⟨n, comps, ⟨h1, h2⟩, h3⟩

/-- The path which `child` looks at. -/
theorem newpath_relative (cwd : Str) {n : Nat} {comps : List Str} (h : IsDir n comps) (x : Str) (hx : startsWith x [47] = false) :
    abspath cwd (join (canon n comps) [x]) = canon n (resolve comps (splitSep [47] x)) := by
  obtain ⟨h1, h2⟩ := normpath_join n h.slashes comps h.names x hx
  unfold abspath
  rw [isabs, h2, if_pos rfl, h1]

theorem startsWith_canon (n : Nat) (comps more : List Str) : startsWith (canon n (comps ++ more)) (canon n comps) = true := by
  rw [startsWith, List.isPrefixOf_iff_prefix]
  exact canon_prefix n comps more

theorem name_rel {c : Str} (h : Name c) : startsWith c [47] = false := by
  cases c with
  | nil => rfl
  | cons x c =>
    have := h.2.1
    simp only [List.mem_cons, not_or] at this
    simp [startsWith, List.isPrefixOf, this.1]

theorem normpath_name {c : Str} (h : Name c) : normpath c = c := by
  have hn : initialSlashes c = 0 := by
    have h1 := name_rel h
    have h2 : startsWith c [47, 47] = false := by
      cases c with
      | nil => rfl
      | cons x c =>
        have := h.2.1
        simp only [List.mem_cons, not_or] at this
        simp [startsWith, List.isPrefixOf, this.1]
    unfold initialSlashes
    rw [h2, h1]; rfl
  unfold normpath
  rw [if_neg h.1]
  have hc : normComps (decide ((0 : Nat) ≠ 0)) [] [c] = [c] := by
    rw [normComps, if_neg (by simp [h.1, h.2.2.1]), if_pos (Or.inl h.2.2.2)]; rfl
  simp only [hn, splitSep_name h.2.1, hc, joinSep, List.replicate_zero, List.nil_append]
  rw [if_neg h.1]

/-- The child with an ordinary name. -/
theorem child_name (cwd : Str) {n : Nat} {comps : List Str} (h : IsDir n comps) {c : Str} (hc : Name c) :
    child cwd (canon n comps) c = .ok (canon n (comps ++ [c])) := by
  unfold child
  simp only [normpath_name hc, if_neg hc.2.1]
  rw [newpath_relative cwd h c (name_rel hc), splitSep_name hc.2.1, resolve_of_names comps [c] (by simpa using hc),
    startsWith_canon]
  simp only [Bool.not_true, Bool.false_eq_true, if_false, filePath]
  rw [abspath_canon cwd n h.slashes _ (h.snoc hc).names]

/-- **C71**, `child`: whatever the name, the result is the directory itself or a direct child of it, and it is the place that
the name denotes when seen from the directory; otherwise `InsecurePath` is raised.  In particular `InsecurePath` is raised
for every absolute path and for every path that leads elsewhere.

Missing: paths with separators are accepted when they come down to a single step (`child_separator_fails`). -/
theorem child_partial (cwd : Str) {n : Nat} {comps : List Str} (h : IsDir n comps) (path : Str) :
    child cwd (canon n comps) path = .error insecure ∨
    startsWith path [47] = false ∧ ∃ dest, child cwd (canon n comps) path = .ok (canon n dest) ∧
      dest = resolve comps (splitSep [47] path) ∧ (dest = comps ∨ ∃ c, Name c ∧ dest = comps ++ [c]) := by
  unfold child
  simp only
  split
  · exact Or.inl rfl
  · rename_i hs
    obtain ⟨hrel, hcases⟩ := normpath_single path hs
    obtain ⟨hnrel, hres⟩ := resolve_normpath comps path hrel
    rw [newpath_relative cwd h _ hnrel]
    split
    · exact Or.inl rfl
    · rename_i hst
      right
      refine ⟨hrel, _, by rw [filePath, abspath_canon cwd n h.slashes _ (h.resolve _).names], hres, ?_⟩
      rcases hcases with e | e | e
      · left; rw [e, splitSep_name (by decide)]; rfl
      · by_cases hc : comps = []
        · left; rw [e, hc]; rfl
        · exfalso
          apply hst
          have e2 : resolve comps (splitSep [47] [46, 46]) = comps.dropLast := by rw [splitSep_name (by decide)]; rfl
          rw [e, e2]
          have := canon_length_dropLast n comps h.names hc
          cases hb : startsWith (canon n comps.dropLast) (canon n comps) with
          | false => rfl
          | true =>
            rw [startsWith, List.isPrefixOf_iff_prefix] at hb
            have := hb.length_le
            omega
      · right
        exact ⟨normpath path, e, by rw [splitSep_name hs, resolve_of_names comps [normpath path] (by simpa using e)]⟩

/-- A path that leads out of the directory, or further down than one step, is refused; so is every absolute one. -/
theorem child_refuses (cwd : Str) {n : Nat} {comps : List Str} (h : IsDir n comps) (path : Str)
    (hp : startsWith path [47] = true ∨
      (resolve comps (splitSep [47] path) ≠ comps ∧ ∀ c, resolve comps (splitSep [47] path) ≠ comps ++ [c])) :
    child cwd (canon n comps) path = .error insecure := by
  rcases child_partial cwd h path with h1 | ⟨h1, dest, _, h3, h4⟩
  · exact h1
  · exfalso
    rcases hp with hp | ⟨hp1, hp2⟩
    · rw [h1] at hp; cases hp
    · rcases h4 with h4 | ⟨c, _, h4⟩
      · exact hp1 (h3 ▸ h4)
      · exact hp2 c (h3 ▸ h4)

/-- `child('a/')` and `child('b/../a')` are accepted, although they contain separators. -/
theorem child_separator_fails :
    child [47] [47, 102] [97, 47] = .ok [47, 102, 47, 97] ∧
    child [47] [47, 102] [98, 47, 46, 46, 47, 97] = .ok [47, 102, 47, 97] := ⟨rfl, rfl⟩

/-- What `preauthChild` accepts, exactly: the place denoted (from the root if the path is absolute), if its *text* begins
with the text of the directory. -/
theorem preauth_exact (cwd : Str) {n : Nat} {comps : List Str} (h : IsDir n comps) (path : Str) :
    ∃ k dest, IsDir k dest ∧
      (startsWith path [47] = false → k = n ∧ dest = resolve comps (splitSep [47] path)) ∧
      (startsWith path [47] = true → dest = resolve [] (splitSep [47] path)) ∧
      preauthChild cwd (canon n comps) path =
        if canon n comps <+: canon k dest then .ok (canon k dest) else .error insecure := by
  have key : ∀ k dest, IsDir k dest → abspath cwd (join (canon n comps) [normpath path]) = canon k dest →
      preauthChild cwd (canon n comps) path = if canon n comps <+: canon k dest then .ok (canon k dest) else .error insecure := by
    intro k dest hk e
    unfold preauthChild
    simp only [e]
    by_cases hpre : canon n comps <+: canon k dest
    · rw [if_pos hpre, if_neg (by simp [startsWith, List.isPrefixOf_iff_prefix.mpr hpre]), filePath,
        abspath_canon cwd k hk.slashes _ hk.names]
    · have : startsWith (canon k dest) (canon n comps) = false := by
        cases hb : startsWith (canon k dest) (canon n comps) with
        | false => rfl
        | true => exact absurd (List.isPrefixOf_iff_prefix.mp hb) hpre
      rw [if_neg hpre, this]; rfl
  cases hrel : startsWith path [47] with
  | false =>
    obtain ⟨hnrel, hres⟩ := resolve_normpath comps path hrel
    refine ⟨n, resolve comps (splitSep [47] path), h.resolve _, fun _ => ⟨rfl, rfl⟩, fun e => (by cases e), key n _ (h.resolve _) ?_⟩
    rw [newpath_relative cwd h _ hnrel, hres]
  | true =>
    obtain ⟨h1, h2⟩ := normpath_absolute path hrel
    have hd : IsDir (initialSlashes path) (resolve [] (splitSep [47] path)) :=
      ⟨h1, resolve_names [] _ (by simp) (splitSep_slashfree path)⟩
    refine ⟨_, _, hd, fun e => (by cases e), fun _ => rfl, key _ _ hd ?_⟩
    rw [h2]
    have hj : join (canon n comps) [canon (initialSlashes path) (resolve [] (splitSep [47] path))] =
        canon (initialSlashes path) (resolve [] (splitSep [47] path)) := by
      rw [join, List.foldl_cons, List.foldl_nil, join2, canon_absolute _ h1, if_pos rfl]
    rw [hj, abspath_canon cwd _ h1 _ hd.names]

theorem resolve_down (dir cs : List Str) (h : ∀ c ∈ cs, c ≠ [46, 46]) (hs : ∀ c ∈ cs, 47 ∉ c) :
    ∃ more, (∀ c ∈ more, Name c) ∧ resolve dir cs = dir ++ more := by
  induction cs generalizing dir with
  | nil => exact ⟨[], by simp, by simp [resolve]⟩
  | cons c cs ih =>
    have ih := fun d => ih d (fun x hx => h x (List.mem_cons_of_mem _ hx)) fun x hx => hs x (List.mem_cons_of_mem _ hx)
    rw [resolve]
    split
    · exact ih dir
    · rename_i h1
      rw [if_neg (h c (by simp))]
      obtain ⟨more, h2, h3⟩ := ih (dir ++ [c])
      refine ⟨c :: more, ?_, by rw [h3]; simp⟩
      intro x hx
      rcases List.mem_cons.mp hx with rfl | hx
      · exact name_of_ne (hs x (by simp)) h1 (h x (by simp))
      · exact h2 x hx

/-- **C71**, `preauthChild`, for relative paths without `..`: the result is inside the directory.

Missing: in general only the text is compared, so that siblings whose names begin with the directory's name can be reached
(`preauth_escape_fails`). -/
theorem preauth_partial (cwd : Str) {n : Nat} {comps : List Str} (h : IsDir n comps) (path : Str)
    (hrel : startsWith path [47] = false) (hup : ∀ c ∈ splitSep [47] path, c ≠ [46, 46]) :
    ∃ more, (∀ c ∈ more, Name c) ∧ preauthChild cwd (canon n comps) path = .ok (canon n (comps ++ more)) := by
  obtain ⟨more, h1, h2⟩ := resolve_down comps (splitSep [47] path) hup (splitSep_slashfree path)
  obtain ⟨k, dest, _, h3, _, h4⟩ := preauth_exact cwd h path
  obtain ⟨rfl, rfl⟩ := h3 hrel
  rw [h2] at h4
  exact ⟨more, h1, by rw [h4, if_pos (canon_prefix _ _ _)]⟩

/-- Every relative path that leads to a place inside the directory is accepted, also one with `..`. -/
theorem preauth_inside (cwd : Str) {n : Nat} {comps : List Str} (h : IsDir n comps) (path : Str) (more : List Str)
    (hrel : startsWith path [47] = false) (hto : resolve comps (splitSep [47] path) = comps ++ more) :
    preauthChild cwd (canon n comps) path = .ok (canon n (comps ++ more)) := by
  obtain ⟨k, dest, _, h3, _, h4⟩ := preauth_exact cwd h path
  obtain ⟨rfl, rfl⟩ := h3 hrel
  rw [hto] at h4
  rw [h4, if_pos (canon_prefix _ _ _)]

/-- From `/foo`, `../foobar` and `/foobar` lead to `/foobar`. -/
theorem preauth_escape_fails :
    preauthChild [47] [47, 102, 111, 111] [46, 46, 47, 102, 111, 111, 98, 97, 114] = .ok [47, 102, 111, 111, 98, 97, 114] ∧
    preauthChild [47] [47, 102, 111, 111] [47, 102, 111, 111, 98, 97, 114] = .ok [47, 102, 111, 111, 98, 97, 114] := ⟨rfl, rfl⟩

/-- The parent of a child is the directory, and its base name is the name. -/
theorem child_parent (cwd : Str) {n : Nat} {comps : List Str} (h : IsDir n comps) {c : Str} (hc : Name c) :
    ∃ p, child cwd (canon n comps) c = .ok p ∧ parent cwd p = canon n comps ∧ basename p = c := by
  refine ⟨_, child_name cwd h hc, ?_, (basename_canon n h.slashes comps c hc.2.1).1⟩
  unfold parent
  rw [dirname_canon n h.slashes comps h.names c hc.2.1, filePath, abspath_canon cwd n h.slashes _ h.names]

/-- `childSearchPreauth` gives the first candidate that exists. -/
theorem childSearch_first (cwd : Str) (exists_ : Str → Bool) (self : Str) (cs : List Str) :
    childSearchPreauth cwd exists_ self cs =
      (cs.find? fun c => exists_ (join self [c])).map fun c => abspath cwd (join self [c]) := by
  induction cs with
  | nil => rfl
  | cons c cs ih =>
    rw [childSearchPreauth, List.find?_cons]
    cases exists_ (join self [c]) with
    | true => rfl
    | false => simpa using ih

example : IsDir 1 [[102], [111]] := ⟨Or.inl rfl, by simp [Name]⟩
example : child [47] [47, 102] [46, 46] = .error insecure := rfl
example : child [47] [47] [46, 46] = .ok [47] := rfl
example : child [47] [47, 102] [46, 46, 46] = .ok [47, 102, 47, 46, 46, 46] := rfl
example : preauthChild [47] [47, 102] [97, 47, 98] = .ok [47, 102, 47, 97, 47, 98] := rfl
example : preauthChild [47] [47, 102] [46, 46, 47, 98] = .error insecure := rfl

end Verif.FilePath
