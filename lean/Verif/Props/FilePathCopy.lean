import Verif.Lemmas.FilePath
/-!
# C72: `FilePath.copyTo` reproduces the tree
-/
namespace Verif.FilePath
open Verif.Py Verif.Py.Path

/-- Trees of regular files and directories.  The names in a directory are distinct. -/
inductive Tree : Node → Prop
  | file (content : List Nat) : Tree (.file content)
  | dir (es : Dict Str Node) (names : (es.map Prod.fst).Nodup) (sub : ∀ e ∈ es, Tree e.2) : Tree (.dir es)

/-- **C72** on the level of the whole file system: for a sufficient bound on depth and file size, copying a tree to an absent
place in an existing directory, not inside the tree, has the effect of putting the tree there. -/
theorem copyTo_put (k : Nat) (hk : 0 < k) {m : Node} (ht : Tree m) :
    ∃ need, ∀ fuel, need ≤ fuel → ∀ fs src dst fs', lookup fs src = some m → lookup fs dst = none → ¬ src <+: dst →
      put fs dst m = some fs' → copyTo k fuel fs src dst = some (fs', none) := by
  induction ht with
  | file content =>
    refine ⟨content.length + 2, fun fuel hf fs src dst fs' hs hd hpre hput => ?_⟩
    obtain ⟨fuel, rfl⟩ : ∃ f, fuel = f + 1 := ⟨fuel - 1, by omega⟩
    obtain ⟨fs1, h1⟩ : ∃ fs1, put fs dst (.file []) = some fs1 := by
      rw [← Option.isSome_iff_exists, put_isSome fs dst (.file []) (.file content), hput]; rfl
    have hpre2 : ¬ dst <+: src := fun h => by rw [lookup_prefix h hd] at hs; cases hs
    have h2 : lookup fs1 src = some (.file content) := by rw [put_other h1 hpre2 hpre, hs]
    have hopen : openW fs dst = .ok fs1 := by simp only [openW, hd, h1]
    simp only [copyTo, hs, hopen, h2]
    rw [copyLoop_spec k hk fuel content [] (by omega)]
    simp only [List.nil_append, put_put h1, hput]
  | dir es names sub ih =>
    -- one bound for all the children
    obtain ⟨need, hneed⟩ : ∃ need, ∀ e ∈ es, ∀ fuel, need ≤ fuel → ∀ fs src dst fs', lookup fs src = some e.2 →
        lookup fs dst = none → ¬ src <+: dst → put fs dst e.2 = some fs' → copyTo k fuel fs src dst = some (fs', none) := by
      clear names sub
      induction es with
      | nil => exact ⟨0, by simp⟩
      | cons e es ihl =>
        obtain ⟨n1, h1⟩ := ih e (by simp)
        obtain ⟨n2, h2⟩ := ihl fun x hx => ih x (List.mem_cons_of_mem _ hx)
        refine ⟨max n1 n2, fun x hx fuel hf => ?_⟩
        rcases List.mem_cons.mp hx with rfl | hx
        · exact h1 fuel (by omega)
        · exact h2 x hx fuel (by omega)
    refine ⟨need + 1, fun fuel hf fs src dst fs' hs hd hpre hput => ?_⟩
    obtain ⟨fuel, rfl⟩ : ∃ f, fuel = f + 1 := ⟨fuel - 1, by omega⟩
    have hpre2 : ¬ dst <+: src := fun h => by rw [lookup_prefix h hd] at hs; cases hs
    have hany : ∀ x, ∃ fs1, put fs dst x = some fs1 := fun x => by
      rw [← Option.isSome_iff_exists, put_isSome fs dst x (.dir es), hput]; rfl
    obtain ⟨fs1, h1⟩ := hany (.dir [])
    have hmk : mkdir fs dst = .ok fs1 := by simp only [mkdir, hd, h1]
    have h2 : lookup fs1 src = some (.dir es) := by rw [put_other h1 hpre2 hpre, hs]
    simp only [copyTo, hs, hd, hmk, h2]
    -- the loop
    have loop : ∀ todo done : Dict Str Node, es = done ++ todo → ∀ fsi, put fs dst (.dir done) = some fsi →
        copyChildren (fun fs c => copyTo k fuel fs (src ++ [c]) (dst ++ [c])) fsi (todo.map Prod.fst) = some (fs', none) := by
      intro todo
      induction todo with
      | nil =>
        intro done he fsi hi
        rw [List.append_nil] at he
        subst he
        rw [hput] at hi
        cases hi
        rfl
      | cons e todo iht =>
        intro done he fsi hi
        obtain ⟨c, m⟩ := e
        have hsi : lookup fsi src = some (.dir es) := by rw [put_other hi hpre2 hpre, hs]
        have hdi : lookup fsi dst = some (.dir done) := put_get hi
        have hc : c ∉ Dict.keys done := by
          rw [he, List.map_append, List.nodup_append] at names
          intro hc
          exact names.2.2 c hc c (by simp) rfl
        have hmem : (c, m) ∈ es := by rw [he]; simp
        have hci : lookup fsi (src ++ [c]) = some m := by rw [lookup_child hsi, Dict.get?_of_mem names hmem]
        have hcd : lookup fsi (dst ++ [c]) = none := by rw [lookup_child hdi, Dict.get?_eq_none_iff]; exact hc
        have hcp : ¬ src ++ [c] <+: dst ++ [c] := by
          intro h
          rcases List.prefix_concat_iff.mp h with h | h
          · exact hpre ⟨[], by rw [List.append_nil]; exact List.append_cancel_right h⟩
          · exact hpre (List.IsPrefix.trans (List.prefix_append _ _) h)
        have hsub := put_sub hi c m
        rw [Dict.set_of_not_mem m hc] at hsub
        obtain ⟨fsn, hn⟩ := hany (.dir (done ++ [(c, m)]))
        have hrec := hneed (c, m) hmem fuel (by omega) fsi (src ++ [c]) (dst ++ [c]) fsn hci hcd hcp (by rw [hsub, hn])
        simp only [List.map_cons, copyChildren, hrec]
        exact iht (done ++ [(c, m)]) (by rw [he]; simp) fsn hn
    exact loop es [] rfl fs1 h1

/-- **C72**: copying a tree to an absent name in an existing directory that is not inside the tree ends without an error; the
same tree is then at the destination, and everything that is neither at, above nor below the destination is as before, in
particular the source.

Missing: copying a directory into itself (`copy_into_itself_fails`), and the exhaustion of space, descriptors or permissions. -/
theorem copyTo_partial (k : Nat) (hk : 0 < k) {m : Node} (ht : Tree m) (fs : Node) (src parent : List Str) (name : Str)
    (es : Dict Str Node) (hs : lookup fs src = some m) (hp : lookup fs parent = some (.dir es))
    (hd : lookup fs (parent ++ [name]) = none) (hin : ¬ src <+: parent ++ [name]) :
    ∃ need fs', (∀ fuel, need ≤ fuel → copyTo k fuel fs src (parent ++ [name]) = some (fs', none)) ∧
      (∀ p, lookup fs' (parent ++ [name] ++ p) = lookup fs (src ++ p)) ∧
      (∀ q, ¬ parent ++ [name] <+: q → ¬ q <+: parent ++ [name] → lookup fs' q = lookup fs q) ∧
      (∀ p, lookup fs' (src ++ p) = lookup fs (src ++ p)) := by
  obtain ⟨need, hneed⟩ := copyTo_put k hk ht
  obtain ⟨fs', hput⟩ := put_into hp name m
  have ho : ∀ q, ¬ parent ++ [name] <+: q → ¬ q <+: parent ++ [name] → lookup fs' q = lookup fs q :=
    fun q h1 h2 => put_other hput h1 h2
  have hsrc : lookup fs' src = some m := by
    rw [ho src (fun h => ?_) hin, hs]
    rw [lookup_prefix h hd] at hs
    cases hs
  refine ⟨need, fs', fun fuel hf => hneed fuel hf fs src _ fs' hs hd hin hput, fun p => ?_, ho, fun p => ?_⟩
  · rw [lookup_append, put_get hput, lookup_append, hs]
  · rw [lookup_append, hsrc, lookup_append, hs]

/-- Copying a file onto a different existing file replaces its contents. -/
theorem copyTo_replaces (k : Nat) (hk : 0 < k) (fs fs' : Node) (src dst : List Str) (content old : List Nat)
    (hs : lookup fs src = some (.file content)) (hd : lookup fs dst = some (.file old)) (hne : src ≠ dst)
    (hput : put fs dst (.file content) = some fs') :
    ∀ fuel, content.length + 2 ≤ fuel → copyTo k fuel fs src dst = some (fs', none) := by
  intro fuel hf
  obtain ⟨fuel, rfl⟩ : ∃ f, fuel = f + 1 := ⟨fuel - 1, by omega⟩
  have below : ∀ p q : List Str, ∀ x y, lookup fs p = some (.file x) → lookup fs q = some (.file y) → p ≠ q → ¬ p <+: q := by
    rintro p q x y hx hy hpq ⟨t, rfl⟩
    rw [lookup_append, hx] at hy
    cases t with
    | nil => exact hpq (by simp)
    | cons a t => cases hy
  obtain ⟨fs1, h1⟩ : ∃ fs1, put fs dst (.file []) = some fs1 := by
    rw [← Option.isSome_iff_exists, put_isSome fs dst (.file []) (.file content), hput]; rfl
  have h2 : lookup fs1 src = some (.file content) := by
    rw [put_other h1 (below _ _ _ _ hd hs (Ne.symm hne)) (below _ _ _ _ hs hd hne), hs]
  have hopen : openW fs dst = .ok fs1 := by simp only [openW, hd, h1]
  simp only [copyTo, hs, hopen, h2]
  rw [copyLoop_spec k hk fuel content [] (by omega)]
  simp only [List.nil_append, put_put h1, hput]

/-- Anything that is neither a file nor a directory, or does not exist, is refused and nothing is changed. -/
theorem copyTo_refused (k fuel : Nat) (fs : Node) (src dst : List Str)
    (hs : lookup fs src = none ∨ lookup fs src = some .other) :
    copyTo k (fuel + 1) fs src dst = some (fs, some .notImplementedError) := by
  rcases hs with hs | hs <;> simp only [copyTo, hs]

/-- Copying a directory into itself never ends: however much depth is granted, it is not enough.  (In reality the copying is
ended by the limit on the length of a path or on recursion.) -/
theorem copy_into_itself_fails (k fuel : Nat) (fs : Node) (src : List Str) (name : Str)
    (hs : lookup fs src = some (.dir [])) : copyTo k fuel fs src (src ++ [name]) = none := by
  induction fuel generalizing fs src with
  | zero => rfl
  | succ fuel ih =>
    obtain ⟨fs1, h1⟩ := put_into hs name (.dir [])
    have hd : lookup fs (src ++ [name]) = none := by rw [lookup_child hs]; rfl
    have hmk : mkdir fs (src ++ [name]) = .ok fs1 := by simp only [mkdir, hd, h1]
    have h2 : lookup fs1 src = some (.dir [(name, .dir [])]) := by
      have e := put_sub (es := []) (p := src) (n := fs) (n' := fs) (by
        have := put_back fs src (.dir []) hs
        exact this) name (.dir [])
      rw [e] at h1
      exact put_get h1
    have h3 : lookup fs1 (src ++ [name]) = some (.dir []) := put_get h1
    simp only [copyTo, hs, hd, hmk, h2, List.map_cons, List.map_nil, copyChildren]
    rw [ih fs1 (src ++ [name]) h3]

/-- Beside the property: copying a file onto itself empties it, since the destination is opened first. -/
theorem copy_self_empties (k fuel : Nat) (hk : 0 < k) (fs fs' : Node) (src : List Str) (content : List Nat)
    (hs : lookup fs src = some (.file content)) (hput : put fs src (.file []) = some fs') :
    copyTo k (fuel + 2) fs src src = some (fs', none) := by
  have hopen : openW fs src = .ok fs' := by simp only [openW, hs, hput]
  simp only [copyTo, hs, hopen, put_get hput]
  rw [copyLoop_spec k hk (fuel + 1) [] [] (by simp)]
  simp only [List.nil_append, put_put hput, hput]

/-- A tree with a file larger than the chunk size, an empty one and an empty directory. -/
def sample : Node := .dir [([97], .file [1, 2, 3, 4]), ([98], .dir [([99], .file []), ([100], .dir [])])]

theorem sample_tree : Tree sample := by
  refine .dir _ (by decide) ?_
  intro e he
  simp only [List.mem_cons, List.not_mem_nil, or_false] at he
  rcases he with rfl | rfl
  · exact .file _
  · refine .dir _ (by decide) ?_
    intro e he
    simp only [List.mem_cons, List.not_mem_nil, or_false] at he
    rcases he with rfl | rfl
    · exact .file _
    · exact .dir _ (by decide) (by simp)

example : copyTo 2 10 (.dir [([115], sample)]) [[115]] [[116]] = some (.dir [([115], sample), ([116], sample)], none) := rfl

end Verif.FilePath
