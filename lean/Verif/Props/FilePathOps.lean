import Verif.Lemmas.FilePathOps
import Verif.Props.FilePath
/-!
# C78–C81: removing, walking, setting contents, moving, and the cached answers
-/
namespace Verif.FilePath
open Verif.Py Verif.Py.Path

/-! ## C78: `remove` -/

theorem remove_del {m : Node} (hm : Good m) :
    ∃ need, ∀ fuel, need ≤ fuel → ∀ fs p fs', lookup fs p = some m → del fs p = some fs' → remove fuel fs p = some (fs', none) := by
  induction hm with
  | file content =>
    refine ⟨1, fun fuel hf fs p fs' hl hd => ?_⟩
    obtain ⟨fuel, rfl⟩ : ∃ f, fuel = f + 1 := ⟨fuel - 1, by omega⟩
    simp only [remove, osRemove, hl, hd]
  | other =>
    refine ⟨1, fun fuel hf fs p fs' hl hd => ?_⟩
    obtain ⟨fuel, rfl⟩ : ∃ f, fuel = f + 1 := ⟨fuel - 1, by omega⟩
    simp only [remove, osRemove, hl, hd]
  | dir es names sub ih =>
    obtain ⟨need, hneed⟩ : ∃ need, ∀ e ∈ es, ∀ fuel, need ≤ fuel → ∀ fs p fs', lookup fs p = some e.2 → del fs p = some fs' →
        remove fuel fs p = some (fs', none) := by
      clear names sub
      induction es with
      | nil => exact ⟨0, by simp⟩
      | cons e es ihl =>
        obtain ⟨n1, h1⟩ := ih e (by simp)
        obtain ⟨n2, h2⟩ := ihl fun x hx => ih x (List.mem_cons_of_mem _ hx)
        refine ⟨max n1 n2, fun x hx fuel hf => ?_⟩
        rcases List.mem_cons.mp hx with rfl | hx
        · exact h1 fuel (by omega)
        · exact h2 x hx fuel (by omega)
    refine ⟨need + 1, fun fuel hf fs p fs' hl hd => ?_⟩
    obtain ⟨fuel, rfl⟩ : ∃ f, fuel = f + 1 := ⟨fuel - 1, by omega⟩
    have hp : p ≠ [] := by rintro rfl; cases fs <;> simp [del] at hd
    have hback := put_back fs p _ hl
    have hany : ∀ x, ∃ fs1, put fs p x = some fs1 := fun x => by
      rw [← Option.isSome_iff_exists, put_isSome fs p x (.dir es), hback]; rfl
    have loop : ∀ todo : Dict Str Node, (∀ e ∈ todo, e ∈ es) → ∀ fsi, put fs p (.dir todo) = some fsi →
        ∃ fsl, put fs p (.dir []) = some fsl ∧
          copyChildren (fun fs c => remove fuel fs (p ++ [c])) fsi (todo.map Prod.fst) = some (fsl, none) := by
      intro todo
      induction todo with
      | nil => intro _ fsi hi; exact ⟨fsi, hi, rfl⟩
      | cons e todo iht =>
        intro hsub fsi hi
        obtain ⟨c, m⟩ := e
        obtain ⟨fsn, hn⟩ := hany (.dir todo)
        have hcl : lookup fsi (p ++ [c]) = some m := by
          rw [lookup_child (put_get hi)]
          simp [Dict.get?]
        have hrec := hneed (c, m) (hsub _ (by simp)) fuel (by omega) fsi (p ++ [c]) fsn hcl (by rw [del_sub hi, hn])
        obtain ⟨fsl, h1, h2⟩ := iht (fun x hx => hsub x (List.mem_cons_of_mem _ hx)) fsn hn
        exact ⟨fsl, h1, by simp only [List.map_cons, copyChildren, hrec]; exact h2⟩
    obtain ⟨fsl, h1, h2⟩ := loop es (fun _ h => h) fs hback
    have h3 : del fsl p = some fs' := by rw [del_put h1 hl hp, hd]
    simp only [remove, hl, h2, rmdir, put_get h1, h3]

/-- **C78**: `remove` of whatever is at a path (other than the root) ends without an error; then nothing is at the path or below
it, everything that is neither at, above nor below the path is as before, and the directory that held it has lost just that
entry. -/
theorem remove_exact {fs : Node} (hg : Good fs) (dir : List Str) (c : Str) {m : Node} {es : Dict Str Node}
    (hd : lookup fs dir = some (.dir es)) (hl : lookup fs (dir ++ [c]) = some m) :
    ∃ need fs', (∀ fuel, need ≤ fuel → remove fuel fs (dir ++ [c]) = some (fs', none)) ∧
      (∀ q, dir ++ [c] <+: q → lookup fs' q = none) ∧
      (∀ q, ¬ dir ++ [c] <+: q → ¬ q <+: dir ++ [c] → lookup fs' q = lookup fs q) ∧
      ∃ es', lookup fs' dir = some (.dir es') ∧ ∀ d, d ∈ es'.map Prod.fst ↔ d ∈ es.map Prod.fst ∧ d ≠ c := by
  obtain ⟨need, hneed⟩ := remove_del (hg.lookup hl)
  obtain ⟨fs', hf⟩ := del_some hl (by simp)
  exact ⟨need, fs', fun fuel h => hneed fuel h fs _ fs' hl hf, fun q hq => lookup_prefix hq (del_get hg hf),
    fun q h1 h2 => del_other hf h1 h2, _, del_parent hf hd, fun d => Dict.mem_keys_erase (hg.lookup hd).names c d⟩

/-- Removing what is not there raises and changes nothing. -/
theorem remove_absent (fuel : Nat) (fs : Node) (p : List Str) (h : lookup fs p = none) :
    remove (fuel + 1) fs p = some (fs, some osError) := by
  have hd : del fs p = none := by
    clear fuel
    induction p generalizing fs with
    | nil => rw [lookup_nil] at h; cases h
    | cons c p ih =>
      cases fs with
      | file z => simp [del]
      | other => simp [del]
      | dir es =>
        rw [lookup_dir] at h
        cases hg : Dict.get? es c with
        | none =>
          cases p with
          | nil => rw [del_one, hg]; rfl
          | cons d p => rw [del_cons, hg]; rfl
        | some k =>
          rw [hg, Option.bind_some] at h
          cases p with
          | nil => rw [lookup_nil] at h; cases h
          | cons d p => rw [del_cons, hg, Option.bind_some, ih k h]; rfl
  simp only [remove, h, osRemove, hd]

example : remove 9 (.dir [([97], .dir [([98], .file [1]), ([99], .dir [([100], .other)])]), ([101], .file [])]) [[97]] =
    some (.dir [([101], .file [])], none) := rfl

/-! ## C79: `walk` -/

theorem walk_all {m : Node} (hm : Good m) :
    ∃ need, ∀ fuel, need ≤ fuel → ∀ fs p, lookup fs p = some m → ∃ l, walk fuel fs p = some l ∧
      (∀ q, q ∈ l ↔ p <+: q ∧ (lookup fs q).isSome) ∧ l.Pairwise (fun a b => ¬ b <+: a) := by
  have leaf : ∀ x : Node, (∀ es, x ≠ .dir es) → ∀ fuel, 1 ≤ fuel → ∀ fs p, lookup fs p = some x → ∃ l, walk fuel fs p = some l ∧
      (∀ q, q ∈ l ↔ p <+: q ∧ (lookup fs q).isSome) ∧ l.Pairwise (fun a b => ¬ b <+: a) := by
    intro x hx fuel hf fs p hl
    obtain ⟨fuel, rfl⟩ : ∃ f, fuel = f + 1 := ⟨fuel - 1, by omega⟩
    refine ⟨[p], ?_, fun q => ?_, by simp⟩
    · rw [walk, hl]
      cases x with
      | dir es => exact absurd rfl (hx es)
      | file z => rfl
      | other => rfl
    · rw [List.mem_singleton]
      constructor
      · rintro rfl; exact ⟨List.prefix_rfl, by rw [hl]; rfl⟩
      · rintro ⟨⟨t, rfl⟩, h⟩
        cases t with
        | nil => simp
        | cons a t =>
          rw [lookup_append, hl] at h
          cases x with
          | dir es => exact absurd rfl (hx es)
          | file z => cases h
          | other => cases h
  induction hm with
  | file content => exact ⟨1, leaf _ (by simp)⟩
  | other => exact ⟨1, leaf _ (by simp)⟩
  | dir es names sub ih =>
    obtain ⟨need, hneed⟩ : ∃ need, ∀ e ∈ es, ∀ fuel, need ≤ fuel → ∀ fs p, lookup fs p = some e.2 → ∃ l, walk fuel fs p = some l ∧
      (∀ q, q ∈ l ↔ p <+: q ∧ (lookup fs q).isSome) ∧ l.Pairwise (fun a b => ¬ b <+: a) := by
      clear names sub
      induction es with
      | nil => exact ⟨0, by simp⟩
      | cons e es ihl =>
        obtain ⟨n1, h1⟩ := ih e (by simp)
        obtain ⟨n2, h2⟩ := ihl fun x hx => ih x (List.mem_cons_of_mem _ hx)
        refine ⟨max n1 n2, fun x hx fuel hf => ?_⟩
        rcases List.mem_cons.mp hx with rfl | hx
        · exact h1 fuel (by omega)
        · exact h2 x hx fuel (by omega)
    refine ⟨need + 1, fun fuel hf fs p hl => ?_⟩
    obtain ⟨fuel, rfl⟩ : ∃ f, fuel = f + 1 := ⟨fuel - 1, by omega⟩
    have loop : ∀ todo : Dict Str Node, (∀ e ∈ todo, e ∈ es) → (todo.map Prod.fst).Nodup → ∃ l,
        walkChildren (fun c => walk fuel fs (p ++ [c])) (todo.map Prod.fst) = some l ∧
        (∀ q, q ∈ l ↔ (∃ e ∈ todo, p ++ [e.1] <+: q) ∧ (lookup fs q).isSome) ∧ l.Pairwise (fun a b => ¬ b <+: a) := by
      intro todo
      induction todo with
      | nil => intro _ _; exact ⟨[], rfl, by simp, by simp⟩
      | cons e todo iht =>
        intro hsub hnd
        obtain ⟨c, m⟩ := e
        rw [List.map_cons, List.nodup_cons] at hnd
        have hcl : lookup fs (p ++ [c]) = some m := by rw [lookup_child hl, Dict.get?_of_mem names (hsub (c, m) (by simp))]
        obtain ⟨l1, a1, a2, a3⟩ := hneed (c, m) (hsub _ (by simp)) fuel (by omega) fs (p ++ [c]) hcl
        obtain ⟨l2, b1, b2, b3⟩ := iht (fun x hx => hsub x (List.mem_cons_of_mem _ hx)) hnd.2
        refine ⟨l1 ++ l2, by simp only [List.map_cons, walkChildren, a1, b1], fun q => ?_, ?_⟩
        · rw [List.mem_append, a2, b2]
          simp only [List.mem_cons, exists_eq_or_imp]
          constructor
          · rintro (⟨h1, h2⟩ | ⟨h1, h2⟩)
            · exact ⟨Or.inl h1, h2⟩
            · exact ⟨Or.inr h1, h2⟩
          · rintro ⟨h1 | h1, h2⟩
            · exact Or.inl ⟨h1, h2⟩
            · exact Or.inr ⟨h1, h2⟩
        · rw [List.pairwise_append]
          refine ⟨a3, b3, fun a ha b hb hba => ?_⟩
          obtain ⟨ha1, _⟩ := (a2 a).mp ha
          obtain ⟨⟨e, he, hb1⟩, _⟩ := (b2 b).mp hb
          have := hb1.trans hba
          have hpre := List.prefix_of_prefix_length_le this ha1 (by simp)
          have heq := hpre.eq_of_length (by simp)
          have : e.1 = c := by simpa using heq
          exact hnd.1 (List.mem_map.mpr ⟨e, he, this⟩)
    obtain ⟨l, h1, h2, h3⟩ := loop es (fun _ h => h) names
    refine ⟨p :: l, by simp only [walk, hl, h1], fun q => ?_, ?_⟩
    · rw [List.mem_cons, h2]
      constructor
      · rintro (rfl | ⟨⟨e, _, h⟩, hs⟩)
        · exact ⟨List.prefix_rfl, by rw [hl]; rfl⟩
        · exact ⟨(List.prefix_append _ _).trans h, hs⟩
      · rintro ⟨⟨t, rfl⟩, hs⟩
        cases t with
        | nil => left; simp
        | cons c t =>
          right
          refine ⟨?_, hs⟩
          rw [lookup_append, hl, Option.bind_some, lookup_dir] at hs
          cases hg : Dict.get? es c with
          | none => rw [hg] at hs; cases hs
          | some k => exact ⟨(c, k), Dict.mem_of_get? hg, t, by simp⟩
    · rw [List.pairwise_cons]
      refine ⟨fun b hb hbp => ?_, h3⟩
      obtain ⟨⟨e, _, h⟩, _⟩ := (h2 b).mp hb
      have := (h.trans hbp).length_le
      rw [List.length_append, List.length_singleton] at this
      omega

/-- **C79**: `walk` yields the paths of everything at or below the path, each exactly once, and nothing after what is inside
it. -/
theorem walk_exact {fs : Node} (hg : Good fs) (p : List Str) {m : Node} (hl : lookup fs p = some m) :
    ∃ need, ∀ fuel, need ≤ fuel → ∃ l, walk fuel fs p = some l ∧ l.Nodup ∧ l.head? = some p ∧
      (∀ q, q ∈ l ↔ p <+: q ∧ (lookup fs q).isSome) ∧ l.Pairwise (fun a b => ¬ b <+: a) := by
  obtain ⟨need, h⟩ := walk_all (hg.lookup hl)
  refine ⟨need, fun fuel hf => ?_⟩
  obtain ⟨l, h1, h2, h3⟩ := h fuel hf fs p hl
  refine ⟨l, h1, h3.imp (fun {a b} h e => h (by rw [e])), ?_, h2, h3⟩
  have hp : p ∈ l := (h2 p).mpr ⟨List.prefix_rfl, by rw [hl]; rfl⟩
  cases l with
  | nil => cases hp
  | cons a l =>
    rcases List.mem_cons.mp hp with e | e
    · rw [e]; rfl
    · exact absurd ((h2 a).mp (by simp)).1 ((List.pairwise_cons.mp h3).1 p e)

/-- A path at which there is nothing is yielded all the same. -/
theorem walk_absent (fuel : Nat) (fs : Node) (p : List Str) (h : lookup fs p = none) : walk (fuel + 1) fs p = some [p] := by
  simp only [walk, h]

example : walk 9 (.dir [([97], .dir [([98], .file [1]), ([99], .dir [([100], .other)])]), ([101], .file [])]) [[97]] =
    some [[[97]], [[97], [98]], [[97], [99]], [[97], [99], [100]]] := rfl

/-! ## C80: `setContent` and `moveTo` -/

/-- The sibling's path: the extension is appended to the last component. -/
theorem siblingExtension_canon (cwd : Str) {n : Nat} {comps : List Str} (h : IsDir n comps) {c : Str} (hc : Name c) (ext : Str)
    (he : 47 ∉ ext) : siblingExtension cwd (canon n (comps ++ [c])) ext = canon n (comps ++ [c ++ ext]) := by
  have hce : Name (c ++ ext) := by
    obtain ⟨h1, h2, h3, h4⟩ := hc
    refine ⟨by simp [h1], by simp [h2, he], ?_, ?_⟩
    · intro e
      cases c with
      | nil => exact h1 rfl
      | cons a c =>
        simp only [List.cons_append, List.cons.injEq, List.append_eq_nil_iff] at e
        exact h3 (by rw [e.1, e.2.1])
    · intro e
      cases c with
      | nil => exact h1 rfl
      | cons a c =>
        cases c with
        | nil =>
          simp only [List.cons_append, List.cons.injEq] at e
          exact h3 (by rw [e.1])
        | cons b c =>
          simp only [List.cons_append, List.cons.injEq, List.append_eq_nil_iff] at e
          exact h4 (by rw [e.1, e.2.1, e.2.2.1])
  have e : canon n (comps ++ [c]) ++ ext = canon n (comps ++ [c ++ ext]) := by
    rw [canon_snoc, canon_snoc]
    split <;> simp
  rw [siblingExtension, filePath, e, abspath_canon cwd n h.slashes _ (h.snoc hce).names]

theorem apart {dir : List Str} {a b : Str} (h : a ≠ b) : ¬ dir ++ [a] <+: dir ++ [b] := by
  intro hp
  have := hp.eq_of_length (by simp)
  exact h (by simpa using this)

theorem writeSibling_put (fs : Node) (dir : List Str) (name ext : Str) (content : List Nat) (i : Nat) {es : Dict Str Node}
    (hd : lookup fs dir = some (.dir es))
    (hsib : lookup fs (dir ++ [name ++ ext]) = none ∨ ∃ x, lookup fs (dir ++ [name ++ ext]) = some (.file x)) :
    ∃ fs1, writeSibling fs dir name ext content i = .ok fs1 ∧ put fs (dir ++ [name ++ ext]) (.file (content.take i)) = some fs1 := by
  obtain ⟨fs0, h0⟩ := put_into hd (name ++ ext) (.file [])
  obtain ⟨fs1, h1⟩ := put_into hd (name ++ ext) (.file (content.take i))
  have ho : openW fs (dir ++ [name ++ ext]) = .ok fs0 := by
    rcases hsib with h | ⟨x, h⟩ <;> simp only [openW, h, h0]
  exact ⟨fs1, by simp only [writeSibling, ho, put_put h0, h1], h1⟩

/-- **C80**, atomicity: however much of the new contents has been written, until the renaming the path holds what it held. -/
theorem setContent_before (fs : Node) (dir : List Str) (name ext : Str) (content : List Nat) (i : Nat) (hext : ext ≠ [])
    (fs1 : Node) (h : writeSibling fs dir name ext content i = .ok fs1) :
    lookup fs1 (dir ++ [name]) = lookup fs (dir ++ [name]) := by
  have hne : name ++ ext ≠ name := fun e => hext (by simpa using e)
  unfold writeSibling at h
  split at h
  · cases h
  · rename_i fs0 ho
    split at h
    · rename_i fs2 hp
      cases h
      rw [put_other hp (apart hne) (apart (Ne.symm hne))]
      unfold openW at ho
      split at ho
      · cases ho
      · cases ho
      · split at ho
        · rename_i hp0
          cases ho
          rw [put_other hp0 (apart hne) (apart (Ne.symm hne))]
        · cases ho
    · cases h

/-- **C80**, `setContent` in an existing directory, where neither the path nor the sibling is a directory or special: no error;
the path then holds the contents, the sibling is gone, and all else is as before. -/
theorem setContent_partial {fs : Node} (hg : Good fs) (dir : List Str) (name ext : Str) (content : List Nat) (hext : ext ≠ [])
    {es : Dict Str Node} (hd : lookup fs dir = some (.dir es))
    (hsib : lookup fs (dir ++ [name ++ ext]) = none ∨ ∃ x, lookup fs (dir ++ [name ++ ext]) = some (.file x))
    (hself : lookup fs (dir ++ [name]) = none ∨ ∃ x, lookup fs (dir ++ [name]) = some (.file x)) :
    ∃ fs', setContent fs dir name content ext = (fs', none) ∧ getContent fs' (dir ++ [name]) = .ok content ∧
      lookup fs' (dir ++ [name ++ ext]) = none ∧
      ∀ q, ¬ dir ++ [name] <+: q → ¬ q <+: dir ++ [name] → ¬ dir ++ [name ++ ext] <+: q → ¬ q <+: dir ++ [name ++ ext] →
        lookup fs' q = lookup fs q := by
  have hne : name ++ ext ≠ name := fun e => hext (by simpa using e)
  obtain ⟨fs1, hw, hp1⟩ := writeSibling_put fs dir name ext content content.length hd hsib
  rw [List.take_length] at hp1
  have hl1 := put_get hp1
  have hself1 : lookup fs1 (dir ++ [name]) = lookup fs (dir ++ [name]) := put_other hp1 (apart hne) (apart (Ne.symm hne))
  obtain ⟨fs2, hd2⟩ := del_some hl1 (by simp)
  have hdir1 : lookup fs1 dir = some (.dir (Dict.set es (name ++ ext) (.file content))) := by
    rw [put_sub (put_back fs dir _ hd)] at hp1
    exact put_get hp1
  obtain ⟨fs3, hp3⟩ := put_into (del_parent hd2 hdir1) name (.file content)
  have hmay : mayReplace (.file content) (lookup fs1 (dir ++ [name])) = true := by
    rw [hself1]
    rcases hself with h | ⟨x, h⟩ <;> rw [h] <;> rfl
  have hren : rename fs1 (dir ++ [name ++ ext]) (dir ++ [name]) = .ok fs3 := by
    have h1 : dir ++ [name ++ ext] ≠ dir ++ [name] := fun e => hne (by simpa using e)
    have h2 : (dir ++ [name ++ ext]).isPrefixOf (dir ++ [name]) = false := by
      cases hb : (dir ++ [name ++ ext]).isPrefixOf (dir ++ [name]) with
      | false => rfl
      | true => exact absurd (List.isPrefixOf_iff_prefix.mp hb) (apart hne)
    simp only [rename, hl1, if_neg h1, h2, hmay, hd2, hp3, Bool.false_eq_true, if_false, reduceCtorEq]
  have hg1 : Good fs1 := hg.put (.file _) hp1
  refine ⟨fs3, by simp only [setContent, hw, hren], by rw [getContent, put_get hp3], ?_, fun q a b c d => ?_⟩
  · rw [put_other hp3 (apart (Ne.symm hne)) (apart hne), del_get hg1 hd2]
  · rw [put_other hp3 a b, del_other hd2 c d, put_other hp1 c d]

/-- Missing from `setContent_partial`: over a directory the renaming is refused, the contents are not set, and the sibling is
left behind. -/
theorem setContent_directory_fails :
    setContent (.dir [([97], .dir [])]) [] [97] [7] [46] = (.dir [([97], .dir []), ([97, 46], .file [7])], some osError) := rfl

/-- **C80**, `moveTo` on one device, to an absent name in an existing directory that is not inside what is moved: everything
that was at the source is then at the destination, nothing is at the source, and all else is as before. -/
theorem moveTo_partial {fs : Node} (hg : Good fs) (src parent : List Str) (name : Str) {m : Node} {es : Dict Str Node}
    (hs : lookup fs src = some m) (hroot : src ≠ []) (hp : lookup fs parent = some (.dir es))
    (hd : lookup fs (parent ++ [name]) = none) (hin : ¬ src <+: parent ++ [name]) :
    ∃ fs', moveTo true fs src (parent ++ [name]) = (fs', none) ∧
      (∀ p, lookup fs' (parent ++ [name] ++ p) = lookup fs (src ++ p)) ∧
      (∀ p, lookup fs' (src ++ p) = none) ∧
      ∀ q, ¬ src <+: q → ¬ q <+: src → ¬ parent ++ [name] <+: q → ¬ q <+: parent ++ [name] → lookup fs' q = lookup fs q := by
  obtain ⟨fs1, hd1⟩ := del_some hs hroot
  obtain ⟨es', hp1⟩ := del_keeps hd1 (fun h => hin (h.trans (List.prefix_append _ _))) hp
  obtain ⟨fs2, hp2⟩ := put_into hp1 name m
  have hnot : ¬ parent ++ [name] <+: src := fun h => by rw [lookup_prefix h hd] at hs; cases hs
  have hren : rename fs src (parent ++ [name]) = .ok fs2 := by
    have h1 : src ≠ parent ++ [name] := fun e => hin (by rw [e])
    have h2 : src.isPrefixOf (parent ++ [name]) = false := by
      cases hb : src.isPrefixOf (parent ++ [name]) with
      | false => rfl
      | true => exact absurd (List.isPrefixOf_iff_prefix.mp hb) hin
    have h3 : mayReplace m none = true := by cases m <;> rfl
    simp only [rename, hs, if_neg h1, h2, hd, h3, hd1, hp2, Bool.false_eq_true, if_false, reduceCtorEq]
  refine ⟨fs2, by simp only [moveTo, hren, if_true], fun p => ?_, fun p => ?_, fun q a b c d => ?_⟩
  · rw [lookup_append, put_get hp2, lookup_append, hs]
  · refine lookup_prefix (List.prefix_append _ _) ?_
    rw [put_other hp2 hnot hin, del_get hg hd1]
  · rw [put_other hp2 c d, del_other hd1 a b]

/-- **C80**: where `moveTo` would have to put a directory in the place of a file, a file in the place of a directory, or
anything in the place of a directory that is not empty, it fails and changes nothing. -/
theorem moveTo_refused (fs : Node) (src dst : List Str) {m d : Node} (hs : lookup fs src = some m) (hd : lookup fs dst = some d)
    (hne : src ≠ dst)
    (h : (∃ es, m = .dir es) ∧ (∀ es, d ≠ .dir es) ∨ (∃ es, d = .dir es ∧ (es ≠ [] ∨ ∀ es', m ≠ .dir es'))) :
    moveTo true fs src dst = (fs, some osError) := by
  have hm : mayReplace m (some d) = false := by
    rcases h with ⟨⟨es, rfl⟩, hd'⟩ | ⟨es, rfl, h⟩
    · cases d with
      | dir es => exact absurd rfl (hd' es)
      | _ => rfl
    · cases es with
      | cons e es => rfl
      | nil =>
        rcases h with h | h
        · exact absurd rfl h
        · cases m with
          | dir es => exact absurd rfl (h es)
          | _ => rfl
  have hr : rename fs src dst = .error osError := by
    simp only [rename, hs, hd, hm, if_neg hne, if_true]
    split <;> rfl
  simp only [moveTo, hr, if_true]

/-- Missing from `moveTo_partial`: between devices nothing is ever moved. -/
theorem moveTo_device_fails (fs : Node) (src dst : List Str) : moveTo false fs src dst = (fs, some .attributeError) := rfl

theorem sampleGood : Good (.dir [([97], .file [1]), ([98], .dir [])]) :=
  .dir _ (by unfold Dict.WF; decide) fun e he => by
    simp only [List.mem_cons, List.not_mem_nil, or_false] at he
    rcases he with rfl | rfl
    · exact .file _
    · exact .dir _ Dict.WF.nil (by simp)

example : setContent (.dir [([97], .file [1]), ([98], .dir [])]) [] [97] [7, 8] [46] =
    (.dir [([97], .file [7, 8]), ([98], .dir [])], none) := rfl
example : moveTo true (.dir [([97], .file [1]), ([98], .dir [])]) [[97]] [[98], [99]] =
    (.dir [([98], .dir [([99], .file [1])])], none) := rfl

/-! ## C81: cached answers -/

/-- The true answer. -/
def truth (now : Option Kind) : Query → Bool
  | .exists => now.isSome
  | .isdir => now == some .dir
  | .isfile => now == some .file
  | .restat => now.isSome

/-- The answers to a sequence of queries, each made in a given state of the file system. -/
def answers : Stat → List (Option Kind × Query) → List Bool
  | _, [] => []
  | s, (now, q) :: h => (query now s q).2 :: answers (query now s q).1 h

theorem query_known (now : Option Kind) (q : Query) (s : Stat) (hs : s = .unset ∨ s = restat now) :
    query now s q = ((query now s q).1, truth now q) ∧ (query now s q).1 = restat now := by
  rcases hs with rfl | rfl
  · cases now with
    | none => cases q <;> exact ⟨rfl, rfl⟩
    | some k => cases k <;> cases q <;> exact ⟨rfl, rfl⟩
  · cases now with
    | none => cases q <;> exact ⟨rfl, rfl⟩
    | some k => cases k <;> cases q <;> exact ⟨rfl, rfl⟩

/-- **C81**, while what is at the path does not change: every answer of a fresh `FilePath` is true. -/
theorem stat_partial (now : Option Kind) (qs : List Query) (s : Stat) (hs : s = .unset ∨ s = restat now) :
    answers s (qs.map fun q => (now, q)) = qs.map (truth now) := by
  induction qs generalizing s with
  | nil => rfl
  | cons q qs ih =>
    obtain ⟨h1, h2⟩ := query_known now q s hs
    rw [List.map_cons, answers, List.map_cons, ih _ (Or.inr h2)]
    rw [h1]

/-- After `restat` the answers are true again, whatever was remembered. -/
theorem stat_after_restat (now : Option Kind) (s : Stat) (qs : List Query) :
    answers s ((now, .restat) :: qs.map fun q => (now, q)) = now.isSome :: qs.map (truth now) := by
  rw [answers]
  exact congrArg _ (stat_partial now qs _ (Or.inr rfl))

/-- As long as nothing was found, `isdir` and `isfile` tell the truth. -/
theorem stat_kind_fresh (now : Option Kind) (s : Stat) (h : ∀ k, s ≠ .found k) (q : Query) (hq : q = .isdir ∨ q = .isfile) :
    (query now s q).2 = truth now q := by
  cases s with
  | found k => exact absurd rfl (h k)
  | unset => rcases hq with rfl | rfl <;> rcases now with _ | ⟨_ | _ | _⟩ <;> rfl
  | absent => rcases hq with rfl | rfl <;> rcases now with _ | ⟨_ | _ | _⟩ <;> rfl

/-- Missing from `stat_partial`: `exists` goes on denying a file that has been created since, and all of them go on reporting one
that has gone or has become a directory. -/
theorem stat_stale_fails :
    answers .unset [(none, .exists), (some .file, .exists)] = [false, false] ∧
    answers .unset [(some .file, .exists), (none, .exists), (none, .isfile), (some .dir, .isfile)] = [true, true, true, true] :=
  ⟨rfl, rfl⟩

end Verif.FilePath
