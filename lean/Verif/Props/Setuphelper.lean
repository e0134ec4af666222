import Verif.Model.Setuphelper
/-!
# C65: `autosetup` finds exactly the packages of the tree

The specification speaks of the directories that can be reached from the root by names that do not begin with a dot.
-/
namespace Verif.Setuphelper
open Verif.Py Verif.Py.Path

/-- `u` is reached from `t` along the names `p`, none of which begins with a dot. -/
inductive Below : Tree → List Str → Tree → Prop
  | here (t : Tree) : Below t [] t
  | step {t : Tree} {n : Str} {s : Tree} {p : List Str} {u : Tree} :
      (n, s) ∈ t.subs → dotted n = false → Below s p u → Below t (n :: p) u

/-- Names of directories are not empty and have no slash, and no two in one directory are equal. -/
def Named (t : Tree) : Prop :=
  ∀ p u, Below t p u → (∀ x ∈ u.subs, x.1 ≠ [] ∧ 47 ∉ x.1) ∧ (u.subs.map Prod.fst).Nodup

/-- The directory is a package: it has `__init__.py` or a subdirectory `plugins`. -/
def IsPackage (u : Tree) : Prop := sInit ∈ u.files ∨ sPlugins ∈ u.subs.map Prod.fst ∨ sPlugins ∈ u.links

/-- The name of a package. -/
def dottedName (p : List Str) : Str := joinSep [46] p

/-- A file that is a module of the directory it is in. -/
def IsModule (u : Tree) (f : Str) : Prop := (splitext f).2 ∈ moduleExts ∧ sInit ∈ u.files

theorem named_sub {t : Tree} (h : Named t) {n : Str} {s : Tree} (hs : (n, s) ∈ t.subs) (hd : dotted n = false) : Named s :=
  fun _ _ hb => h _ _ (.step hs hd hb)

/-- The path text of a directory reached along `p`. -/
def pathText (path : Str) (p : List Str) : Str := path ++ (p.map (47 :: ·)).flatten

theorem join_name (path n : Str) (hp : path ≠ []) (hl : path.getLast? ≠ some 47) (hn : 47 ∉ n) :
    join path [n] = path ++ 47 :: n := by
  have h1 : startsWith n [47] = false := by
    cases n with
    | nil => rfl
    | cons c n =>
      simp only [List.mem_cons, not_or] at hn
      simp [startsWith, List.isPrefixOf, hn.1]
  simp [join, join2, h1, hp, hl]

theorem last_name (path n : Str) (hne : n ≠ []) (hn : 47 ∉ n) : (path ++ 47 :: n).getLast? ≠ some 47 := by
  intro h
  have h2 : (path ++ [47] ++ n).getLast? = some 47 := by rw [← h]; simp
  rw [List.getLast?_append_of_ne_nil _ hne] at h2
  exact hn (List.mem_of_getLast? h2)

mutual
/-- The directories of the tree in the order of the walk. -/
def dirs : Tree → List (List Str × Tree)
  | .node subs links files => ([], .node subs links files) :: dirsSubs subs
def dirsSubs : List (Str × Tree) → List (List Str × Tree)
  | [] => []
  | (n, t) :: r => (if dotted n then [] else (dirs t).map fun x => (n :: x.1, x.2)) ++ dirsSubs r
end

/-- What is seen in a directory. -/
def visit (path : Str) (x : List Str × Tree) : Visit :=
  ⟨pathText path x.1, (x.2.subs.map Prod.fst ++ x.2.links).filter (fun p => !dotted p), x.2.files⟩

theorem pathText_cons (path n : Str) (p : List Str) : pathText path (n :: p) = pathText (path ++ 47 :: n) p := by
  simp [pathText]

mutual
theorem walk_dirs (t : Tree) (path : Str) (hp : path ≠ []) (hl : path.getLast? ≠ some 47) (h : Named t) :
    walk path t = (dirs t).map (visit path) := by
  cases t with
  | node subs links files =>
    rw [walk, dirs, List.map_cons, walkSubs_dirs subs path hp hl]
    · simp [visit, pathText, Tree.subs, Tree.links, Tree.files]
    · intro x hx
      have := (h [] _ (.here _)).1 x hx
      exact ⟨this.1, this.2, fun hd => named_sub h (t := .node subs links files) (n := x.1) (s := x.2) hx hd⟩
theorem walkSubs_dirs (subs : List (Str × Tree)) (path : Str) (hp : path ≠ []) (hl : path.getLast? ≠ some 47)
    (h : ∀ x ∈ subs, x.1 ≠ [] ∧ 47 ∉ x.1 ∧ (dotted x.1 = false → Named x.2)) :
    walkSubs path subs = (dirsSubs subs).map (visit path) := by
  match subs with
  | [] => rfl
  | (n, t) :: r =>
    obtain ⟨h1, h2, h3⟩ := h (n, t) (by simp)
    simp only at h1 h2 h3
    rw [walkSubs, dirsSubs, List.map_append, walkSubs_dirs r path hp hl fun x hx => h x (List.mem_cons_of_mem _ hx)]
    congr 1
    cases hd : dotted n with
    | true => rfl
    | false =>
      simp only [Bool.false_eq_true, if_false]
      rw [join_name path n hp hl h2, walk_dirs t _ (by simp) (last_name path n h1 h2) (h3 hd), List.map_map]
      apply List.map_congr_left
      intro x _
      simp [visit, pathText_cons]
end

mutual
theorem mem_dirs (t : Tree) (p : List Str) (u : Tree) : (p, u) ∈ dirs t ↔ Below t p u := by
  cases t with
  | node subs links files =>
    rw [dirs, List.mem_cons, mem_dirsSubs subs p u]
    constructor
    · rintro (e | ⟨n, s, q, rfl, hs, hd, hb⟩)
      · cases e; exact .here _
      · exact .step (t := .node subs links files) hs hd hb
    · intro hb
      cases hb with
      | here => exact Or.inl rfl
      | step hs hd hb => exact Or.inr ⟨_, _, _, rfl, hs, hd, hb⟩
theorem mem_dirsSubs (subs : List (Str × Tree)) (p : List Str) (u : Tree) :
    (p, u) ∈ dirsSubs subs ↔ ∃ n s q, p = n :: q ∧ (n, s) ∈ subs ∧ dotted n = false ∧ Below s q u := by
  match subs with
  | [] => simp [dirsSubs]
  | (m, t) :: r =>
    rw [dirsSubs, List.mem_append, mem_dirsSubs r p u]
    constructor
    · rintro (h | ⟨n, s, q, rfl, hs, hd, hb⟩)
      · cases hd : dotted m with
        | true => simp [hd] at h
        | false =>
          simp only [hd, Bool.false_eq_true, if_false, List.mem_map, Prod.mk.injEq, Prod.exists] at h
          obtain ⟨q, v, hq, rfl, rfl⟩ := h
          exact ⟨m, t, q, rfl, by simp, hd, (mem_dirs t q v).mp hq⟩
      · exact ⟨n, s, q, rfl, List.mem_cons_of_mem _ hs, hd, hb⟩
    · rintro ⟨n, s, q, rfl, hs, hd, hb⟩
      rcases List.mem_cons.mp hs with e | hs
      · cases e
        left
        simp only [hd, Bool.false_eq_true, if_false, List.mem_map, Prod.mk.injEq, Prod.exists]
        exact ⟨q, u, (mem_dirs t q u).mpr hb, rfl, rfl⟩
      · exact Or.inr ⟨n, s, q, rfl, hs, hd, hb⟩
end

mutual
/-- No directory is visited twice. -/
theorem dirs_nodup (t : Tree) (h : Named t) : ((dirs t).map Prod.fst).Nodup := by
  cases t with
  | node subs links files =>
    rw [dirs, List.map_cons, List.nodup_cons]
    refine ⟨?_, dirsSubs_nodup subs ?_ (h [] _ (.here _)).2⟩
    · intro hm
      obtain ⟨⟨p, u⟩, hpu, rfl⟩ := List.mem_map.mp hm
      obtain ⟨n, s, q, e, _⟩ := (mem_dirsSubs subs _ u).mp hpu
      cases e
    · intro x hx hd
      exact named_sub h (t := .node subs links files) (n := x.1) (s := x.2) hx hd
theorem dirsSubs_nodup (subs : List (Str × Tree)) (h : ∀ x ∈ subs, dotted x.1 = false → Named x.2)
    (hn : (subs.map Prod.fst).Nodup) : ((dirsSubs subs).map Prod.fst).Nodup := by
  match subs with
  | [] => simp [dirsSubs]
  | (m, t) :: r =>
    rw [List.map_cons, List.nodup_cons] at hn
    have ih := dirsSubs_nodup r (fun x hx => h x (List.mem_cons_of_mem _ hx)) hn.2
    rw [dirsSubs, List.map_append, List.nodup_append]
    refine ⟨?_, ih, ?_⟩
    · cases hd : dotted m with
      | true => simp
      | false =>
        simp only [Bool.false_eq_true, if_false]
        have ht := dirs_nodup t (h (m, t) (by simp) hd)
        rw [List.map_map, show (Prod.fst ∘ fun x : List Str × Tree => (m :: x.1, x.2)) = (m :: ·) ∘ Prod.fst from rfl,
          ← List.map_map]
        exact List.Pairwise.map _ (fun a b hne e => hne (by simpa using e)) ht
    · intro a ha b hb e
      subst e
      obtain ⟨⟨p, u⟩, hpu, rfl⟩ := List.mem_map.mp hb
      obtain ⟨n, s, q, hpq, hs, _⟩ := (mem_dirsSubs r p u).mp hpu
      cases hd : dotted m with
      | true => simp [hd] at ha
      | false =>
        simp only [hd, Bool.false_eq_true, if_false, List.mem_map, Prod.exists, Prod.mk.injEq] at ha
        obtain ⟨p', u', ⟨q', v', _, h1, h2⟩, h3⟩ := ha
        simp only [← h1, hpq] at h3
        cases h3
        exact hn.1 (List.mem_map.mpr ⟨_, hs, rfl⟩)
end

theorem map_slash (n : Str) (h : 47 ∉ n) : n.map (fun c => if c = 47 then 46 else c) = n := by
  induction n with
  | nil => rfl
  | cons c n ih =>
    simp only [List.mem_cons, not_or] at h
    rw [List.map_cons, ih h.2, if_neg (Ne.symm h.1)]

theorem joinSep_flatten (n : Str) (p : List Str) : joinSep [46] (n :: p) = n ++ (p.map (46 :: ·)).flatten := by
  induction p generalizing n with
  | nil => simp [joinSep]
  | cons m p ih => rw [joinSep_cons_cons, ih]; simp

/-- The package name of a directory reached along `p`. -/
theorem pkgName_path (p : List Str) (h : ∀ n ∈ p, 47 ∉ n) : pkgName (pathText [46] p) = dottedName p := by
  cases p with
  | nil => rfl
  | cons n p =>
    have hf : ∀ q : List Str, (∀ n ∈ q, 47 ∉ n) →
        ((q.map (47 :: ·)).flatten).map (fun c => if c = 47 then 46 else c) = (q.map (46 :: ·)).flatten := by
      intro q hq
      induction q with
      | nil => rfl
      | cons m q ih =>
        rw [List.map_cons, List.flatten_cons, List.map_append, ih fun x hx => hq x (List.mem_cons_of_mem _ hx),
          List.map_cons, map_slash m (hq m (by simp)), List.map_cons, List.flatten_cons]
        rfl
    rw [dottedName, joinSep_flatten, pkgName, pathText]
    simp only [List.map_cons, List.flatten_cons, List.cons_append, List.nil_append, List.drop_succ_cons, List.drop_zero]
    rw [List.map_append, map_slash n (h n (by simp)), hf p fun x hx => h x (List.mem_cons_of_mem _ hx)]

theorem below_names {t : Tree} (h : Named t) {p : List Str} {u : Tree} (hb : Below t p u) :
    ∀ n ∈ p, n ≠ [] ∧ 47 ∉ n ∧ dotted n = false := by
  induction hb with
  | here t => simp
  | @step t n s p u hs hd hb ih =>
    intro m hm
    rcases List.mem_cons.mp hm with rfl | hm
    · have := (h [] _ (.here _)).1 _ hs
      exact ⟨this.1, this.2, hd⟩
    · exact ih (named_sub h hs hd) m hm

instance (u : Tree) : Decidable (IsPackage u) := by unfold IsPackage; infer_instance

theorem plugins_visible (u : Tree) (path : Str) (p : List Str) :
    sPlugins ∈ (visit path (p, u)).dirnames ↔ sPlugins ∈ u.subs.map Prod.fst ∨ sPlugins ∈ u.links := by
  simp only [visit, List.mem_filter, List.mem_append]
  exact ⟨fun h => h.1, fun h => ⟨h, by decide⟩⟩

theorem findPackages_eq (xs : List (List Str × Tree)) (h : ∀ x ∈ xs, ∀ n ∈ x.1, 47 ∉ n) :
    findPackages (xs.map (visit [46])) =
      ((xs.filter fun x => decide (IsPackage x.2)).map fun x => dottedName x.1,
       (xs.filter fun x => decide (IsPackage x.2 ∧ sInit ∉ x.2.files)).map fun x => dottedName x.1) := by
  induction xs with
  | nil => rfl
  | cons x xs ih =>
    rw [List.map_cons, findPackages, ih fun y hy => h y (List.mem_cons_of_mem _ hy)]
    obtain ⟨p, u⟩ := x
    have hname : pkgName (visit [46] (p, u)).dirpath = dottedName p := pkgName_path p (h _ List.mem_cons_self)
    simp only
    by_cases h1 : sInit ∈ u.files
    · have hpk : IsPackage u := Or.inl h1
      rw [if_pos (show sInit ∈ (visit [46] (p, u)).filenames from h1), hname]
      simp [hpk, h1]
    · rw [if_neg (show sInit ∉ (visit [46] (p, u)).filenames from h1)]
      by_cases h2 : sPlugins ∈ u.subs.map Prod.fst ∨ sPlugins ∈ u.links
      · have hpk : IsPackage u := Or.inr h2
        rw [if_pos ((plugins_visible u [46] p).mpr h2), hname]
        simp [hpk, h1]
      · have hpk : ¬ IsPackage u := fun h => h.elim h1 h2
        rw [if_neg (fun h => h2 ((plugins_visible u [46] p).mp h))]
        simp [hpk]

/-- What the first loop finds. -/
theorem findPackages_walk (root : Tree) (h : Named root) :
    findPackages (walk [46] root) =
      (((dirs root).filter fun x => decide (IsPackage x.2)).map fun x => dottedName x.1,
       ((dirs root).filter fun x => decide (IsPackage x.2 ∧ sInit ∉ x.2.files)).map fun x => dottedName x.1) := by
  rw [walk_dirs root [46] (by simp) (by simp) h]
  apply findPackages_eq
  rintro ⟨p, u⟩ hx n hn
  exact (below_names h ((mem_dirs root p u).mp hx) n hn).2.1

/-- The names of a package that has one component. -/
theorem dottedName_nodot (p : List Str) (hp : p ≠ []) (h : 46 ∉ dottedName p) : ∃ n, p = [n] ∧ 46 ∉ n := by
  match p with
  | [] => exact absurd rfl hp
  | [n] => exact ⟨n, rfl, h⟩
  | n :: m :: q =>
    exfalso; apply h
    rw [dottedName, joinSep_cons_cons]; simp

/-- The data files of the directory `u`, at `p` inside its package. -/
def dataFiles (u : Tree) (p : List Str) (f : Str) : Prop :=
  ∃ g ∈ u.files, g ≠ sDropin ∧ ¬ IsModule u g ∧ f = joinSep [47] (p ++ [g])

theorem joinSep_slash (p : List Str) (g : Str) : joinSep [47] (p ++ [g]) =
    match p with
    | [] => g
    | n :: q => n ++ (q.map (47 :: ·)).flatten ++ 47 :: g := by
  cases p with
  | nil => rfl
  | cons n q =>
    simp only
    induction q generalizing n with
    | nil => simp [joinSep]
    | cons m q ih =>
      rw [List.cons_append, List.cons_append, joinSep_cons_cons, ← List.cons_append, ih]
      simp

theorem join_file (package : Str) (p : List Str) (hp : ∀ n ∈ p, n ≠ [] ∧ 47 ∉ n ∧ dotted n = false) (g : Str) (hg : 47 ∉ g) :
    join ((pathText package p).drop (package.length + 1)) [g] = joinSep [47] (p ++ [g]) := by
  have hs : startsWith g [47] = false := by
    cases g with
    | nil => rfl
    | cons c g =>
      simp only [List.mem_cons, not_or] at hg
      simp [startsWith, List.isPrefixOf, hg.1]
  rw [joinSep_slash, pathText]
  cases p with
  | nil => simp [join, join2, hs]
  | cons n q =>
    simp only [List.map_cons, List.flatten_cons]
    rw [show package ++ (47 :: n ++ (q.map (47 :: ·)).flatten) = (package ++ [47]) ++ (n ++ (q.map (47 :: ·)).flatten) by simp,
      show package.length + 1 = (package ++ [47]).length by simp, List.drop_left]
    have hne : n ++ (q.map (47 :: ·)).flatten ≠ [] := by simp [(hp n (by simp)).1]
    have hl : (n ++ (q.map (47 :: ·)).flatten).getLast? ≠ some 47 := by
      rcases List.eq_nil_or_concat q with rfl | ⟨q', m, rfl⟩
      · simp only [List.map_nil, List.flatten_nil, List.append_nil]
        exact fun h => (hp n (by simp)).2.1 (List.mem_of_getLast? h)
      · have hm := hp m (by simp)
        rw [List.concat_eq_append, List.map_append, List.flatten_append]
        simp only [List.map_cons, List.map_nil, List.flatten_cons, List.flatten_nil, List.append_nil]
        rw [← List.append_assoc]
        exact last_name _ m hm.1 hm.2.1
    rw [join, List.foldl_cons, List.foldl_nil, join2, hs, if_neg (by simp), if_neg]
    · simp
    · exact fun h => h.elim hne hl

/-- Names of files have no slash. -/
def FilesNamed (t : Tree) : Prop := ∀ p u, Below t p u → ∀ f ∈ u.files, 47 ∉ f

/-- What the second loop lists for one package. -/
theorem data_mem (package : Str) (hp : package ≠ []) (hl : package.getLast? ≠ some 47) (t : Tree) (h : Named t)
    (hf : FilesNamed t) (f : Str) :
    f ∈ (walk package t).flatMap (dataOfVisit package) ↔ ∃ p u, Below t p u ∧ dataFiles u p f := by
  rw [walk_dirs t package hp hl h, List.mem_flatMap]
  constructor
  · rintro ⟨v, hv, hfv⟩
    obtain ⟨⟨p, u⟩, hpu, rfl⟩ := List.mem_map.mp hv
    have hb := (mem_dirs t p u).mp hpu
    refine ⟨p, u, hb, ?_⟩
    simp only [dataOfVisit, List.mem_filterMap] at hfv
    obtain ⟨g, hg, hgf⟩ := hfv
    have hg' : g ∈ u.files := hg
    split at hgf
    · cases hgf
    · rename_i hd
      split at hgf
      · rename_i hm
        cases hgf
        refine ⟨g, hg', hd, fun ⟨h1, h2⟩ => hm.elim (fun h => h h1) (fun h => h h2), ?_⟩
        exact join_file package p (below_names h hb) g (hf p u hb g hg')
      · cases hgf
  · rintro ⟨p, u, hb, g, hg, hd, hm, rfl⟩
    refine ⟨visit package (p, u), List.mem_map.mpr ⟨_, (mem_dirs t p u).mpr hb, rfl⟩, ?_⟩
    rw [dataOfVisit, List.mem_filterMap]
    refine ⟨g, hg, ?_⟩
    rw [if_neg hd, if_pos, ← join_file package p (below_names h hb) g (hf p u hb g hg)]
    · rfl
    · by_cases h1 : (splitext g).2 ∈ moduleExts
      · exact Or.inr fun h2 => hm ⟨h1, h2⟩
      · exact Or.inl h1

theorem findData_ok (root : Tree) (ps : List Str) (d : Dict Str (List Str))
    (h : ∀ p ∈ ps, 46 ∉ p → (Dict.get? root.subs p).isSome) :
    ∃ d', findData root ps d = .ok d' ∧ ∀ k, Dict.get? d' k =
      if k ∈ ps ∧ 46 ∉ k then (Dict.get? root.subs k).map fun t => (walk k t).flatMap (dataOfVisit k) else Dict.get? d k := by
  induction ps generalizing d with
  | nil => exact ⟨d, rfl, by simp⟩
  | cons p ps ih =>
    have ih := fun d => ih d fun q hq => h q (List.mem_cons_of_mem _ hq)
    rw [findData]
    by_cases hp : 46 ∈ p
    · obtain ⟨d', h1, h2⟩ := ih d
      refine ⟨d', by rw [if_pos hp, h1], fun k => ?_⟩
      rw [h2 k]
      by_cases hk : 46 ∈ k
      · simp [hk]
      · have : k ≠ p := fun e => hk (e ▸ hp)
        simp [hk, this]
    · rw [if_neg hp]
      cases hg : Dict.get? root.subs p with
      | none => have := h p (by simp) hp; rw [hg] at this; cases this
      | some t =>
        obtain ⟨d', h1, h2⟩ := ih (d.set p ((walk p t).flatMap (dataOfVisit p)))
        refine ⟨d', h1, fun k => ?_⟩
        rw [h2 k]
        by_cases hk : 46 ∈ k
        · have : p ≠ k := fun e => hp (e ▸ hk)
          simp [hk, Dict.get?_set_other _ _ _ _ this]
        · by_cases hkp : k = p
          · subst hkp
            by_cases hm : k ∈ ps
            · simp [hm, hk]
            · simp [hm, hk, Dict.get?_set_same, hg]
          · have : p ≠ k := fun e => hkp e.symm
            simp [hk, hkp, Dict.get?_set_other _ _ _ _ this]

/-- **C65**, for trees whose root is not itself a package: `packages` lists the names of exactly the package directories that
can be reached without entering a dot-directory, once each if no directory name has a dot; the plugin packages are those
without `__init__.py`; and the package data has an entry for exactly the packages without a dot in their name, which lists
exactly the files below that are neither modules of a package directory nor `dropin.cache`.

Missing: when the root has `__init__.py` or a `plugins` directory nothing is set up (`autosetup_root_fails`). -/
theorem autosetup_partial (root : Tree) (h : Named root) (hf : FilesNamed root) (hroot : ¬ IsPackage root) :
    ∃ r, autosetup root = .ok r ∧
    (∀ k, k ∈ r.packages ↔ ∃ p u, Below root p u ∧ IsPackage u ∧ k = dottedName p) ∧
    ((∀ p u, Below root p u → ∀ n ∈ p, 46 ∉ n) → r.packages.Nodup) ∧
    (∀ k, k ∈ r.pluginPackages ↔ ∃ p u, Below root p u ∧ IsPackage u ∧ sInit ∉ u.files ∧ k = dottedName p) ∧
    (∀ k fs, Dict.get? r.packageData k = some fs →
      ∃ t, (k, t) ∈ root.subs ∧ dotted k = false ∧ 46 ∉ k ∧ IsPackage t ∧
        ∀ f, f ∈ fs ↔ ∃ p u, Below t p u ∧ dataFiles u p f) ∧
    (∀ k t, (k, t) ∈ root.subs → 46 ∉ k → IsPackage t → (Dict.get? r.packageData k).isSome) := by
  have hfp := findPackages_walk root h
  have hpk : ∀ k, k ∈ (findPackages (walk [46] root)).1 ↔ ∃ p u, Below root p u ∧ IsPackage u ∧ k = dottedName p := by
    intro k
    rw [hfp]
    simp only [List.mem_map, List.mem_filter, decide_eq_true_eq, Prod.exists]
    constructor
    · rintro ⟨p, u, ⟨h1, h2⟩, rfl⟩; exact ⟨p, u, (mem_dirs root p u).mp h1, h2, rfl⟩
    · rintro ⟨p, u, h1, h2, rfl⟩; exact ⟨p, u, ⟨(mem_dirs root p u).mpr h1, h2⟩, rfl⟩
  have hwf : Dict.WF root.subs := (h [] root (.here _)).2
  -- a package without a dot is a directory of the root
  have htop : ∀ k, 46 ∉ k → (∃ p u, Below root p u ∧ IsPackage u ∧ k = dottedName p) →
      ∃ t, (k, t) ∈ root.subs ∧ dotted k = false ∧ IsPackage t := by
    rintro k hk ⟨p, u, hb, hpu, rfl⟩
    have hne : p ≠ [] := by
      rintro rfl; cases hb; exact hroot hpu
    obtain ⟨n, rfl, hn⟩ := dottedName_nodot p hne hk
    cases hb with
    | step hs hd hb => cases hb; exact ⟨u, hs, hd, hpu⟩
  obtain ⟨d, hd, hget⟩ := findData_ok root (findPackages (walk [46] root)).1 [] (by
    intro p hp hdot
    obtain ⟨t, ht, _⟩ := htop p hdot ((hpk p).mp hp)
    rw [Dict.get?_of_mem hwf ht]; rfl)
  refine ⟨⟨(findPackages (walk [46] root)).1, d, (findPackages (walk [46] root)).2⟩, by simp [autosetup, hd], hpk, ?_, ?_, ?_, ?_⟩
  · intro hnd
    simp only [hfp]
    have hinj : ∀ p ∈ (((dirs root).filter fun x => decide (IsPackage x.2)).map Prod.fst),
        ∀ q ∈ (((dirs root).filter fun x => decide (IsPackage x.2)).map Prod.fst), dottedName p = dottedName q → p = q := by
      have hb : ∀ p ∈ (((dirs root).filter fun x => decide (IsPackage x.2)).map Prod.fst), p ≠ [] ∧ ∀ n ∈ p, 46 ∉ n := by
        intro p hp
        obtain ⟨⟨p', u⟩, hx, rfl⟩ := List.mem_map.mp hp
        rw [List.mem_filter] at hx
        have hb := (mem_dirs root p' u).mp hx.1
        refine ⟨?_, hnd p' u hb⟩
        intro e
        simp only at e
        subst e
        cases hb
        exact hroot (by simpa using hx.2)
      intro p hp q hq e
      have hsep : ∀ r : List Str, (∀ n ∈ r, 46 ∉ n) → r ≠ [] → splitSep [46] (dottedName r) = r := fun r hr hne =>
        splitSep_joinSep [46] (by simp) (by decide) r hne fun n hn hi => hr n hn (hi.subset (by simp))
      rw [← hsep p (hb p hp).2 (hb p hp).1, ← hsep q (hb q hq).2 (hb q hq).1, e]
    have hn : (((dirs root).filter fun x => decide (IsPackage x.2)).map Prod.fst).Nodup :=
      (List.filter_sublist.map _).nodup (dirs_nodup root h)
    rw [show (((dirs root).filter fun x => decide (IsPackage x.2)).map fun x => dottedName x.1) =
      (((dirs root).filter fun x => decide (IsPackage x.2)).map Prod.fst).map dottedName from by rw [List.map_map]; rfl]
    refine List.pairwise_map.mpr (List.Pairwise.imp_of_mem ?_ hn)
    intro p q hp hq hne e
    exact hne (hinj p hp q hq e)
  · intro k
    simp only [hfp, List.mem_map, List.mem_filter, decide_eq_true_eq, Prod.exists]
    constructor
    · rintro ⟨p, u, ⟨h1, h2, h3⟩, rfl⟩; exact ⟨p, u, (mem_dirs root p u).mp h1, h2, h3, rfl⟩
    · rintro ⟨p, u, h1, h2, h3, rfl⟩; exact ⟨p, u, ⟨(mem_dirs root p u).mpr h1, h2, h3⟩, rfl⟩
  · intro k fs hk
    simp only [hget] at hk
    split at hk
    · rename_i hc
      obtain ⟨t, ht, hdot, hpt⟩ := htop k hc.2 ((hpk k).mp hc.1)
      refine ⟨t, ht, hdot, hc.2, hpt, fun f => ?_⟩
      rw [Dict.get?_of_mem hwf ht] at hk
      cases hk
      have hname := (h [] root (.here _)).1 _ ht
      exact data_mem k hname.1 (fun e => hname.2 (List.mem_of_getLast? e)) t (named_sub h ht hdot)
        (fun p u hb => hf _ _ (.step ht hdot hb)) f
    · simp at hk
  · intro k t hkt hdot hpt
    have hd' : dotted k = false := by
      cases k with
      | nil => rfl
      | cons c k =>
        simp only [List.mem_cons, not_or] at hdot
        simp [dotted, startsWith, List.isPrefixOf, hdot.1]
    have hin : k ∈ (findPackages (walk [46] root)).1 :=
      (hpk k).mpr ⟨[k], t, .step hkt hd' (.here _), hpt, rfl⟩
    simp only [hget]
    rw [if_pos ⟨hin, hdot⟩, Dict.get?_of_mem hwf hkt]
    rfl

/-- When the root of the tree is itself a package, `os.listdir('')` raises. -/
theorem autosetup_root_fails (root : Tree) (h : Named root) (hroot : IsPackage root) :
    autosetup root = .error (.other "FileNotFoundError") := by
  have hfp := findPackages_walk root h
  have hempty : Dict.get? root.subs [] = none := by
    rw [Dict.get?_eq_none_iff]
    intro hm
    obtain ⟨x, hx, e⟩ := List.mem_map.mp hm
    exact ((h [] root (.here _)).1 x hx).1 e
  have hin : ([] : Str) ∈ (findPackages (walk [46] root)).1 := by
    rw [hfp]
    simp only [List.mem_map, List.mem_filter, decide_eq_true_eq, Prod.exists]
    exact ⟨[], root, ⟨(mem_dirs root [] root).mpr (.here _), hroot⟩, rfl⟩
  have key : ∀ ps d, ([] : Str) ∈ ps → findData root ps d = .error (.other "FileNotFoundError") := by
    intro ps
    induction ps with
    | nil => intro d hm; simp at hm
    | cons p ps ih =>
      intro d hm
      rw [findData]
      by_cases hp : 46 ∈ p
      · rw [if_pos hp]
        rcases List.mem_cons.mp hm with e | hm
        · subst e; simp at hp
        · exact ih d hm
      · rw [if_neg hp]
        rcases List.mem_cons.mp hm with e | hm
        · subst e; rw [hempty]
        · cases Dict.get? root.subs p with
          | none => rfl
          | some t => exact ih _ hm
  have he := key (findPackages (walk [46] root)).1 [] hin
  simp [autosetup, he]

/-- `a/__init__.py`, `a/m.py`, `a/x.txt`, `a/b/y.py`, `p/plugins/` and the dot-directory `.g/__init__.py`. -/
def demo : Tree :=
  .node [([97], .node [([98], .node [] [] [[121, 46, 112, 121]])] [] [sInit, [109, 46, 112, 121], [120, 46, 116, 120, 116]]),
         ([112], .node [(sPlugins, .node [] [] [])] [] []),
         ([46, 103], .node [] [] [sInit])] [] []

/-- `a` and `p` are packages, and the data of `a` are `x.txt` and `b/y.py`. -/
example : autosetup demo = .ok ⟨[[97], [112]],
    [([97], [[120, 46, 116, 120, 116], [98, 47, 121, 46, 112, 121]]), ([112], [])], [[112]]⟩ := rfl

end Verif.Setuphelper
