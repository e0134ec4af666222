import Verif.Model.PluginPaths
import Verif.Lemmas.Path
/-!
# C75: plugin search paths exclude only real packages
-/
namespace Verif.PluginPaths
open Verif.Py Verif.Py.Path

/-- A component of a dotted name. -/
def Part (c : Str) : Prop := c ≠ [] ∧ 47 ∉ c ∧ 46 ∉ c

theorem Part.name {c : Str} (h : Part c) : Name c :=
  ⟨h.1, h.2.1, fun e => h.2.2 (by simp [e]), fun e => h.2.2 (by simp [e])⟩

theorem name_head {c : Str} (h : Name c) : startsWith c [47] = false := by
  cases c with
  | nil => exact absurd rfl h.1
  | cons x c =>
    have := h.2.1
    simp only [List.mem_cons, not_or] at this
    simp [startsWith, List.isPrefixOf, this.1]

/-- Joining a name to a path: the three things that `abspath` looks at. -/
theorem join2_name (x c : Str) (h : Name c) (dir : List Str) :
    isabs (join2 x c) = isabs x ∧ (isabs x = true → initialSlashes (join2 x c) = initialSlashes x) ∧
    resolve dir (splitSep [47] (join2 x c)) = resolve dir (splitSep [47] x) ++ [c] := by
  have hc := name_head h
  have hr : ∀ d, resolve d [c] = d ++ [c] := fun d => resolve_of_names d [c] (by simpa using h)
  obtain ⟨c0, c', rfl⟩ : ∃ c0 c', c = c0 :: c' := by
    cases c with
    | nil => exact absurd rfl h.1
    | cons a b => exact ⟨a, b, rfl⟩
  have h0 : ¬ 47 = c0 := by rintro rfl; simp [startsWith, List.isPrefixOf] at hc
  unfold join2
  rw [hc, if_neg (by simp)]
  split
  · rename_i hx
    rcases hx with hx | hx
    · subst hx
      refine ⟨by simp [isabs, startsWith, List.isPrefixOf, h0], (by intro h; cases h), ?_⟩
      rw [List.nil_append, splitSep_name h.2.1, hr, splitSep_nil, resolve, if_pos (Or.inl rfl)]
      rfl
    · obtain ⟨y, rfl⟩ : ∃ y, x = y ++ [47] := by
        rcases List.eq_nil_or_concat x with rfl | ⟨y, a, rfl⟩
        · cases hx
        · rw [List.concat_eq_append] at hx
          simp at hx
          exact ⟨y, by rw [List.concat_eq_append, hx]⟩
      refine ⟨?_, ?_, ?_⟩
      · cases y <;> simp [isabs, startsWith, List.isPrefixOf]
      · intro _
        match y with
        | [] => simp [initialSlashes, startsWith, List.isPrefixOf, h0]
        | [a] => simp [initialSlashes, startsWith, List.isPrefixOf, h0]
        | [a, b] => simp [initialSlashes, startsWith, List.isPrefixOf]
        | a :: b :: d :: y => simp [initialSlashes, startsWith, List.isPrefixOf]
      · rw [List.append_assoc, List.singleton_append, splitSep_slash, splitSep_slash, resolve_append, resolve_append,
          splitSep_name h.2.1, hr, splitSep_nil]
        rfl
  · rename_i hx
    rw [not_or] at hx
    refine ⟨?_, ?_, ?_⟩
    · cases x with
      | nil => exact absurd rfl hx.1
      | cons a x => simp [isabs, startsWith, List.isPrefixOf]
    · intro _
      match x with
      | [] => exact absurd rfl hx.1
      | [a] =>
        have : ¬ 47 = a := by rintro rfl; exact hx.2 rfl
        simp [initialSlashes, startsWith, List.isPrefixOf, this]
      | [a, b] =>
        have : ¬ 47 = b := by rintro rfl; exact hx.2 rfl
        simp [initialSlashes, startsWith, List.isPrefixOf, this]
      | a :: b :: d :: x => simp [initialSlashes, startsWith, List.isPrefixOf]
    · rw [List.append_assoc, List.singleton_append, splitSep_slash, resolve_append, splitSep_name h.2.1, hr]

theorem join_names (x : Str) (cs : List Str) (h : ∀ c ∈ cs, Name c) (dir : List Str) :
    isabs (join x cs) = isabs x ∧ (isabs x = true → initialSlashes (join x cs) = initialSlashes x) ∧
    resolve dir (splitSep [47] (join x cs)) = resolve dir (splitSep [47] x) ++ cs := by
  unfold join
  induction cs generalizing x with
  | nil => exact ⟨rfl, fun _ => rfl, by simp⟩
  | cons c cs ih =>
    obtain ⟨a1, a2, a3⟩ := join2_name x c (h c (by simp)) dir
    obtain ⟨b1, b2, b3⟩ := ih (join2 x c) fun y hy => h y (List.mem_cons_of_mem _ hy)
    rw [List.foldl_cons]
    refine ⟨by rw [b1, a1], fun hx => by rw [b2 (by rw [a1]; exact hx), a2 hx], by rw [b3, a3]; simp⟩

/-- Names joined to any path are below the directory that the path denotes. -/
theorem abspath_join (m : Nat) (hm : m = 1 ∨ m = 2) (cwd : List Str) (hc : ∀ c ∈ cwd, Name c) (x : Str) (cs : List Str)
    (h : ∀ c ∈ cs, Name c) (n : Nat) (hn : n = 1 ∨ n = 2) (comps : List Str) (hcm : ∀ c ∈ comps, Name c)
    (hx : abspath (canon m cwd) x = canon n comps) : abspath (canon m cwd) (join x cs) = canon n (comps ++ cs) := by
  unfold abspath at *
  cases hp : isabs x with
  | true =>
    obtain ⟨h1, h2, h3⟩ := join_names x cs h []
    rw [hp, if_pos rfl] at hx
    rw [h1, hp, if_pos rfl, (normpath_absolute _ (show startsWith (join x cs) [47] = true from h1.trans hp)).2, h2 hp, h3]
    rw [(normpath_absolute x hp).2] at hx
    obtain ⟨e1, e2⟩ := canon_injective _ _ (normpath_absolute x hp).1 hn _ _
      (resolve_names [] _ (by simp) (splitSep_slashfree x)) hcm hx
    rw [e1, e2]
  | false =>
    obtain ⟨h1, h2, h3⟩ := join_names x cs h cwd
    rw [hp, if_neg (by simp), (normpath_join m hm cwd hc x hp).1] at hx
    rw [h1, hp, if_neg (by simp), (normpath_join m hm cwd hc _ (h1.trans hp)).1, h3]
    obtain ⟨e1, e2⟩ := canon_injective _ _ hm hn _ _ (resolve_names cwd _ hc (splitSep_slashfree x)) hcm hx
    rw [e1, e2]

/-- The directory that a path denotes, in the working directory. -/
def Denotes (m : Nat) (cwd : List Str) (x : Str) (d : Nat × List Str) : Prop :=
  (d.1 = 1 ∨ d.1 = 2) ∧ (∀ c ∈ d.2, Name c) ∧ abspath (canon m cwd) x = canon d.1 d.2

theorem sInit_name : Name sInit := ⟨by decide, by decide, by decide, by decide⟩

/-- **C75.**  For every `sys.path` whose entries denote the directories `dirs`, the search paths of `p₁.….pₖ` are, in order,
the directories `d/p₁/…/pₖ` for those entries `d` for which there is no file `d/p₁/…/pₖ/__init__.py`.  (What exists depends
on the absolute path only, as it does unless `..` follows a symbolic link.) -/
theorem pluginPaths_exact (m : Nat) (hm : m = 1 ∨ m = 2) (cwd : List Str) (hc : ∀ c ∈ cwd, Name c)
    (sysPath : List Str) (dirs : List (Nat × List Str)) (hd : List.Forall₂ (Denotes m cwd) sysPath dirs)
    (parts : List Str) (hne : parts ≠ []) (hp : ∀ c ∈ parts, Part c)
    (exists_ isThere : Str → Bool) (hfs : ∀ p, exists_ p = isThere (abspath (canon m cwd) p)) :
    pluginPackagePaths (canon m cwd) sysPath exists_ (joinSep [46] parts) =
      (dirs.filter fun d => !isThere (canon d.1 (d.2 ++ parts ++ [sInit]))).map fun d => canon d.1 (d.2 ++ parts) := by
  have hsplit : splitSep [46] (joinSep [46] parts) = parts :=
    splitSep_joinSep [46] (by simp) (by decide) parts hne fun c hc hi => (hp c hc).2.2 (hi.subset (by simp))
  have hnames : ∀ c ∈ parts, Name c := fun c hc => (hp c hc).name
  unfold pluginPackagePaths
  simp only [hsplit]
  induction hd with
  | nil => rfl
  | @cons x d xs ds hxd _ ih =>
    obtain ⟨h1, h2, h3⟩ := hxd
    have e1 : exists_ (join x (parts ++ [sInit])) = isThere (canon d.1 (d.2 ++ parts ++ [sInit])) := by
      rw [hfs, abspath_join m hm cwd hc x (parts ++ [sInit]) _ d.1 h1 d.2 h2 h3, List.append_assoc]
      intro c hc
      rcases List.mem_append.mp hc with h | h
      · exact hnames c h
      · rw [List.mem_singleton] at h; subst h; exact sInit_name
    have e2 : abspath (canon m cwd) (join x parts) = canon d.1 (d.2 ++ parts) :=
      abspath_join m hm cwd hc x parts hnames d.1 h1 d.2 h2 h3
    rw [List.filter_cons, List.filter_cons, e1]
    split
    · rw [List.map_cons, List.map_cons, ih, e2]
    · exact ih

/-- Every entry denotes a directory. -/
theorem denotes_exists (m : Nat) (hm : m = 1 ∨ m = 2) (cwd : List Str) (hc : ∀ c ∈ cwd, Name c) (x : Str) :
    ∃ d, Denotes m cwd x d := by
  obtain ⟨n, comps, h1, h2, h3⟩ := abspath_shape m hm cwd hc x
  exact ⟨(n, comps), h1, h2, h3⟩

/-- In `/w`: `sys.path = ['', '/l', '/k/']`, with `/l/a/b/__init__.py` present: the paths of `a.b` are `/w/a/b`, `/k/a/b`. -/
example : pluginPackagePaths [47, 119] [[], [47, 108], [47, 107, 47]]
    (fun p => p == [47, 108, 47, 97, 47, 98, 47] ++ sInit) [97, 46, 98] =
    [[47, 119, 47, 97, 47, 98], [47, 107, 47, 97, 47, 98]] := by decide
example : Denotes 1 [[119]] [] (1, [[119]]) ∧ Denotes 1 [[119]] [47, 107, 47] (1, [[107]]) :=
  ⟨⟨Or.inl rfl, by simp [Name], by decide⟩, ⟨Or.inl rfl, by simp [Name], by decide⟩⟩

end Verif.PluginPaths
