import Verif.Props.FilePath
/-!
# C91: `siblingExtensionSearch` finds the first of the acceptable names in the directory
-/
namespace Verif.FilePath
open Verif.Py Verif.Py.Path

/-- The names that an extension accepts, in order, for a path whose name is `c`, in a directory with these names: with `*`
those that begin with the name and a dot, and always the name with the extension. -/
def accepted (names : List Str) (c ext : Str) : List Str :=
  (if ext = [42] then names.filter (fun x => (c ++ [46]).isPrefixOf x) else []) ++ [c ++ ext]

theorem name_ext {c : Str} (hc : Name c) {ext : Str} (he : 47 ∉ ext) : Name (c ++ ext) := by
  obtain ⟨h1, h2, h3, h4⟩ := hc
  refine ⟨by simp [h1], by simp [h2, he], fun e => ?_, fun e => ?_⟩
  · cases c with
    | nil => exact h1 rfl
    | cons a c =>
      simp only [List.cons_append, List.cons.injEq, List.append_eq_nil_iff] at e
      exact h3 (by rw [e.1, e.2.1])
  · cases c with
    | nil => exact h1 rfl
    | cons a c =>
      rw [List.cons_append, List.cons.injEq] at e
      cases c with
      | nil => exact h3 (by rw [e.1])
      | cons b c =>
        simp only [List.cons_append, List.cons.injEq, List.append_eq_nil_iff] at e
        exact h4 (by rw [e.1, e.2.1, e.2.2.1])

theorem canon_ext (n : Nat) (comps : List Str) (c ext : Str) : canon n (comps ++ [c]) ++ ext = canon n (comps ++ [c ++ ext]) := by
  rw [canon_snoc, canon_snoc]
  split <;> simp

/-- **C91**, `siblingExtension` with an extension without slashes: the name with the extension, in the same directory. -/
theorem siblingExtension_place (cwd : Str) {n : Nat} {comps : List Str} {c : Str} (h : IsDir n (comps ++ [c])) (ext : Str)
    (he : 47 ∉ ext) : siblingExtension cwd (canon n (comps ++ [c])) ext = canon n (comps ++ [c ++ ext]) := by
  have hc : Name c := h.names c (by simp)
  have hcomps : IsDir n comps := ⟨h.slashes, fun x hx => h.names x (by simp [hx])⟩
  rw [siblingExtension, filePath, canon_ext, abspath_canon cwd n h.slashes _ (hcomps.snoc (name_ext hc he)).names]

theorem anyExtension_first (cwd : Str) {n : Nat} {comps : List Str} {c : Str} (h : IsDir n (comps ++ [c])) (names : List Str)
    (hn : ∀ x ∈ names, Name x) :
    anyExtension cwd (canon n (comps ++ [c])) names =
      (names.find? fun x => (c ++ [46]).isPrefixOf x).map fun x => canon n (comps ++ [x]) := by
  have hc : Name c := h.names c (by simp)
  have hcomps : IsDir n comps := ⟨h.slashes, fun x hx => h.names x (by simp [hx])⟩
  induction names with
  | nil => rfl
  | cons x names ih =>
    have hx := hn x (by simp)
    rw [anyExtension, (basename_canon n h.slashes comps c hc.2.1).1, dirname_canon n h.slashes comps hcomps.names c hc.2.1,
      ih (fun y hy => hn y (by simp [hy])), List.find?_cons, startsWith]
    cases hp : (c ++ [46]).isPrefixOf x with
    | false => simp
    | true =>
      simp only [if_true, Option.map_some]
      rw [filePath, newpath_relative cwd hcomps x (name_rel hx), splitSep_name hx.2.1,
        resolve_of_names comps [x] (by simpa using hx)]

theorem find?_filter_mem (names : List Str) (f : Str → Bool) :
    (names.filter f).find? (fun x => decide (x ∈ names)) = names.find? f := by
  have key : ∀ l : List Str, (∀ x ∈ l, x ∈ names) → (l.filter f).find? (fun x => decide (x ∈ names)) = l.find? f := by
    intro l
    induction l with
    | nil => intro _; rfl
    | cons x l ih =>
      intro hl
      rw [List.filter_cons, List.find?_cons]
      cases hf : f x with
      | false => simp [ih fun y hy => hl y (by simp [hy])]
      | true => simp [hl x (by simp)]
  exact key names fun _ h => h

/-- **C91**: `siblingExtensionSearch` for extensions without slashes gives the first of the accepted names that is in the
directory, and `None` exactly if none is. -/
theorem search_first (cwd : Str) {n : Nat} {comps : List Str} {c : Str} (h : IsDir n (comps ++ [c])) (names : List Str)
    (hn : ∀ x ∈ names, Name x) (exists_ : Str → Bool)
    (hex : ∀ x, Name x → exists_ (canon n (comps ++ [x])) = decide (x ∈ names)) (exts : List Str) (he : ∀ e ∈ exts, 47 ∉ e) :
    siblingExtensionSearch cwd exists_ names (canon n (comps ++ [c])) exts =
      ((exts.flatMap (accepted names c)).find? fun x => decide (x ∈ names)).map fun x => canon n (comps ++ [x]) := by
  have hc : Name c := h.names c (by simp)
  have hcomps : IsDir n comps := ⟨h.slashes, fun x hx => h.names x (by simp [hx])⟩
  induction exts with
  | nil => rfl
  | cons ext exts ih =>
    have hext := he ext (by simp)
    have hname := name_ext hc hext
    simp only [siblingExtensionSearch, hex c hc, canon_ext, hex _ hname]
    rw [List.flatMap_cons, List.find?_append,
      ih fun e h' => he e (by simp [h']), anyExtension_first cwd h names hn, filePath,
      abspath_canon cwd n h.slashes _ (hcomps.snoc hname).names, accepted, List.find?_append]
    by_cases h0 : ext = []
    · subst h0
      by_cases hm : c ∈ names
      · simp [hm]
      · simp [hm]
    rw [if_neg (by simp [h0])]
    by_cases h1 : ext = [42]
    · subst h1
      simp only [if_true, find?_filter_mem]
      cases hf : names.find? (fun x => (c ++ [46]).isPrefixOf x) with
      | some x => simp
      | none =>
        by_cases hm : c ++ [42] ∈ names <;> simp [hm]
    · simp only [if_neg h1]
      by_cases hm : c ++ ext ∈ names <;> simp [hm]

/-- **C91**, so what is found is in the directory of the path and begins with its name. -/
theorem search_found (cwd : Str) {n : Nat} {comps : List Str} {c : Str} (h : IsDir n (comps ++ [c])) (names : List Str)
    (hn : ∀ x ∈ names, Name x) (exists_ : Str → Bool)
    (hex : ∀ x, Name x → exists_ (canon n (comps ++ [x])) = decide (x ∈ names)) (exts : List Str) (he : ∀ e ∈ exts, 47 ∉ e)
    (p : Str) (hp : siblingExtensionSearch cwd exists_ names (canon n (comps ++ [c])) exts = some p) :
    ∃ e, p = canon n (comps ++ [c ++ e]) ∧ c ++ e ∈ names ∧ (e ∈ exts ∨ [42] ∈ exts ∧ e.head? = some 46) := by
  rw [search_first cwd h names hn exists_ hex exts he] at hp
  cases hf : (exts.flatMap (accepted names c)).find? fun x => decide (x ∈ names) with
  | none => rw [hf] at hp; cases hp
  | some x =>
    rw [hf] at hp
    cases hp
    have hx : x ∈ names := by simpa using List.find?_some hf
    obtain ⟨ext, h1, h2⟩ := List.mem_flatMap.mp (List.mem_of_find?_eq_some hf)
    rw [accepted, List.mem_append, List.mem_singleton] at h2
    rcases h2 with h2 | rfl
    · split at h2
      · rename_i hs
        subst hs
        obtain ⟨t, rfl⟩ := List.isPrefixOf_iff_prefix.mp (List.mem_filter.mp h2).2
        exact ⟨46 :: t, by simp, by simpa using hx, Or.inr ⟨h1, rfl⟩⟩
      · cases h2
    · exact ⟨ext, rfl, hx, Or.inl h1⟩

/-- The documentation of `*` says that a path beginning with the path and a dot is acceptable.  When there is none, the path
followed by an asterisk is accepted too. -/
theorem search_star_fails :
    siblingExtensionSearch [47] (fun p => decide (p = [47, 97, 42])) [[97, 42]] [47, 97] [[42]] = some [47, 97, 42] := rfl

/-- An extension with slashes leads anywhere. -/
theorem search_slash_fails :
    siblingExtensionSearch [47] (fun p => decide (p = [47, 97, 47, 46, 46, 47, 98])) [] [47, 97] [[47, 46, 46, 47, 98]] =
      some [47, 98] := rfl

example : siblingExtensionSearch [47] (fun p => decide (p ∈ [[47, 97, 46, 98], [47, 98]])) [[97, 46, 98], [98]] [47, 97]
    [[], [46, 99], [42]] = some [47, 97, 46, 98] := rfl
example : siblingExtensionSearch [47] (fun p => decide (p ∈ [[47, 97], [47, 98]])) [[97], [98]] [47, 97]
    [[46, 99], []] = some [47, 97] := rfl
example : siblingExtensionSearch [47] (fun p => decide (p ∈ [[47, 97, 46]])) [[97, 46]] [47, 97] [[46, 99]] = none := rfl

end Verif.FilePath
