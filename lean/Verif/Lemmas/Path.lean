import Verif.Py.Path
/-!
# Facts about `posixpath`: canonical absolute paths
-/
namespace Verif.Py.Path
open Verif.Py

/-- A component that stays where it is written. -/
def Name (c : Str) : Prop := c ≠ [] ∧ 47 ∉ c ∧ c ≠ [46] ∧ c ≠ [46, 46]

/-- The text of an absolute path, with one or two slashes at the beginning. -/
def canon (n : Nat) (comps : List Str) : Str := List.replicate n 47 ++ joinSep [47] comps

/-- What a list of components leads to, seen from a directory: nothing and `.` stay, `..` goes up (not above the root). -/
def resolve : List Str → List Str → List Str
  | dir, [] => dir
  | dir, c :: cs =>
    if c = [] ∨ c = [46] then resolve dir cs
    else if c = [46, 46] then resolve dir.dropLast cs
    else resolve (dir ++ [c]) cs

theorem name_of_ne {c : Str} (h : 47 ∉ c) (h1 : ¬ (c = [] ∨ c = [46])) (h2 : c ≠ [46, 46]) : Name c := by
  rw [not_or] at h1
  exact ⟨h1.1, h, h1.2, h2⟩

theorem resolve_names (dir cs : List Str) (hd : ∀ c ∈ dir, Name c) (hc : ∀ c ∈ cs, 47 ∉ c) :
    ∀ c ∈ resolve dir cs, Name c := by
  induction cs generalizing dir with
  | nil => exact hd
  | cons c cs ih =>
    have hcs : ∀ x ∈ cs, 47 ∉ x := fun x hx => hc x (List.mem_cons_of_mem _ hx)
    rw [resolve]
    split
    · exact ih dir hd hcs
    · rename_i h1
      split
      · exact ih _ (fun x hx => hd x (List.dropLast_subset _ hx)) hcs
      · rename_i h2
        apply ih _ _ hcs
        intro x hx
        rcases List.mem_append.mp hx with hx | hx
        · exact hd x hx
        · rw [List.mem_singleton] at hx
          subst hx
          exact name_of_ne (hc x (by simp)) h1 h2

theorem resolve_append (dir a b : List Str) : resolve dir (a ++ b) = resolve (resolve dir a) b := by
  induction a generalizing dir with
  | nil => rfl
  | cons c a ih => simp only [List.cons_append, resolve, ih]; split <;> [rfl; (split <;> rfl)]

theorem resolve_of_names (dir cs : List Str) (h : ∀ c ∈ cs, Name c) : resolve dir cs = dir ++ cs := by
  induction cs generalizing dir with
  | nil => simp [resolve]
  | cons c cs ih =>
    obtain ⟨h1, _, h3, h4⟩ := h c (by simp)
    rw [resolve, if_neg (by simp [h1, h3]), if_neg h4, ih _ fun x hx => h x (List.mem_cons_of_mem _ hx)]
    simp

/-- Below the root, the loop of `normpath` follows the components. -/
theorem normComps_rooted (acc cs : List Str) (ha : ∀ c ∈ acc, Name c) (hc : ∀ c ∈ cs, 47 ∉ c) :
    normComps true acc cs = resolve acc cs := by
  induction cs generalizing acc with
  | nil => rfl
  | cons c cs ih =>
    have hcs : ∀ x ∈ cs, 47 ∉ x := fun x hx => hc x (List.mem_cons_of_mem _ hx)
    have hlast : acc.getLast? ≠ some [46, 46] := fun h => (ha _ (List.mem_of_getLast? h)).2.2.2 rfl
    rw [normComps, resolve]
    split
    · exact ih acc ha hcs
    · rename_i h1
      by_cases h2 : c = [46, 46]
      · rw [if_neg (by simp [h2, hlast]), if_pos h2]
        split
        · exact ih _ (fun x hx => ha x (List.dropLast_subset _ hx)) hcs
        · rename_i h3
          rw [ih acc ha hcs]
          have : acc = [] := Classical.not_not.mp h3
          subst this
          rfl
      · rw [if_pos (Or.inl h2), if_neg h2, ih _ _ hcs]
        intro x hx
        rcases List.mem_append.mp hx with hx | hx
        · exact ha x hx
        · rw [List.mem_singleton] at hx
          subst hx
          exact name_of_ne (hc x (by simp)) h1 h2

theorem splitSep_slashfree (p : Str) : ∀ c ∈ splitSep [47] p, 47 ∉ c := by
  intro c hc hm
  apply splitSep_parts [47] (by simp) p c hc
  obtain ⟨a, b, rfl⟩ := List.append_of_mem hm
  exact ⟨a, b, by simp⟩

theorem splitGo_slash (cur a b : Str) : splitGo [47] cur 0 (a ++ 47 :: b) = splitGo [47] cur 0 a ++ splitGo [47] [] 0 b := by
  induction a generalizing cur with
  | nil => simp [splitGo, List.isPrefixOf]
  | cons c a ih =>
    rw [List.cons_append, splitGo, splitGo]
    by_cases hc : c = 47
    · subst hc
      rw [if_pos (by simp [List.isPrefixOf]), if_pos (by simp [List.isPrefixOf]), show [47].length - 1 = 0 from rfl, ih]
      rfl
    · rw [if_neg (by simp [List.isPrefixOf, Ne.symm hc]), if_neg (by simp [List.isPrefixOf, Ne.symm hc]), ih]

/-- Cutting at slashes: both sides of a slash are cut by themselves. -/
theorem splitSep_slash (a b : Str) : splitSep [47] (a ++ 47 :: b) = splitSep [47] a ++ splitSep [47] b := splitGo_slash [] a b

theorem splitSep_nil : splitSep [47] ([] : Str) = [[]] := rfl

theorem splitSep_name {c : Str} (h : 47 ∉ c) : splitSep [47] c = [c] := by
  have := splitGo_last [47] [] c fun hi => h (hi.subset (by simp))
  simpa [splitSep] using this

theorem splitSep_replicate (n : Nat) (s : Str) :
    splitSep [47] (List.replicate n 47 ++ s) = List.replicate n [] ++ splitSep [47] s := by
  induction n with
  | zero => rfl
  | succ n ih =>
    have := splitSep_slash [] (List.replicate n 47 ++ s)
    rw [List.nil_append, ih] at this
    rw [List.replicate_succ, List.cons_append, this]
    rfl

theorem resolve_empties (dir : List Str) (n : Nat) : resolve dir (List.replicate n []) = dir := by
  induction n with
  | zero => rfl
  | succ n ih => rw [List.replicate_succ, resolve, if_pos (Or.inl rfl), ih]

theorem resolve_join (dir comps : List Str) (h : ∀ c ∈ comps, Name c) :
    resolve dir (splitSep [47] (joinSep [47] comps)) = dir ++ comps := by
  cases comps with
  | nil => simp [joinSep, splitSep_nil, resolve]
  | cons c comps =>
    rw [splitSep_joinSep [47] (by simp) (by decide) _ (by simp) fun x hx hi => (h x hx).2.1 (hi.subset (by simp))]
    exact resolve_of_names _ _ h

theorem resolve_canon (n : Nat) (comps : List Str) (h : ∀ c ∈ comps, Name c) :
    resolve [] (splitSep [47] (canon n comps)) = comps := by
  rw [canon, splitSep_replicate, resolve_append, resolve_empties, resolve_join [] comps h]
  rfl

/-- How `normpath` makes an absolute path canonical. -/
theorem normpath_absolute (p : Str) (h : startsWith p [47] = true) :
    (initialSlashes p = 1 ∨ initialSlashes p = 2) ∧ normpath p = canon (initialSlashes p) (resolve [] (splitSep [47] p)) := by
  have hn : initialSlashes p = 1 ∨ initialSlashes p = 2 := by
    unfold initialSlashes
    split
    · exact Or.inr rfl
    · exact Or.inl rfl
  refine ⟨hn, ?_⟩
  have hp : p ≠ [] := by rintro rfl; cases h
  have hd : decide (initialSlashes p ≠ 0) = true := by
    rcases hn with h | h <;> rw [h] <;> rfl
  unfold normpath
  rw [if_neg hp]
  simp only [hd]
  rw [normComps_rooted [] _ (by simp) (splitSep_slashfree p), if_neg]
  · rfl
  · intro e
    rcases hn with h | h <;> rw [h] at e <;> simp [List.replicate_succ] at e

theorem joinSep_head (comps : List Str) (h : ∀ c ∈ comps, Name c) : startsWith (joinSep [47] comps) [47] = false := by
  cases comps with
  | nil => rfl
  | cons c comps =>
    obtain ⟨h1, h2, _⟩ := h c (by simp)
    cases c with
    | nil => exact absurd rfl h1
    | cons x c =>
      simp only [List.mem_cons, not_or] at h2
      cases comps with
      | nil => simp [joinSep, startsWith, List.isPrefixOf, h2.1]
      | cons d comps => simp [joinSep_cons_cons, startsWith, List.isPrefixOf, h2.1]

theorem initialSlashes_replicate (n : Nat) (hn : n = 1 ∨ n = 2) (s : Str) (hs : startsWith s [47] = false) :
    initialSlashes (List.replicate n 47 ++ s) = n := by
  cases s with
  | nil => rcases hn with rfl | rfl <;> rfl
  | cons c s =>
    have hc : ¬ 47 = c := by
      rintro rfl; simp [startsWith, List.isPrefixOf] at hs
    rcases hn with rfl | rfl <;> simp [initialSlashes, startsWith, List.isPrefixOf, List.replicate_succ, hc]

theorem canon_absolute (n : Nat) (hn : n = 1 ∨ n = 2) (comps : List Str) : startsWith (canon n comps) [47] = true := by
  rcases hn with rfl | rfl <;> simp [canon, startsWith, List.isPrefixOf, List.replicate_succ]

/-- A canonical path is normal. -/
theorem normpath_canon (n : Nat) (hn : n = 1 ∨ n = 2) (comps : List Str) (h : ∀ c ∈ comps, Name c) :
    normpath (canon n comps) = canon n comps := by
  have h1 := (normpath_absolute _ (canon_absolute n hn comps)).2
  rw [h1, resolve_canon n comps h]
  congr 1
  exact initialSlashes_replicate n hn _ (joinSep_head comps h)

theorem abspath_canon (cwd : Str) (n : Nat) (hn : n = 1 ∨ n = 2) (comps : List Str) (h : ∀ c ∈ comps, Name c) :
    abspath cwd (canon n comps) = canon n comps := by
  unfold abspath
  rw [isabs, canon_absolute n hn comps, if_pos rfl, normpath_canon n hn comps h]

theorem canon_last (n : Nat) (comps : List Str) (h : ∀ c ∈ comps, Name c) (hne : comps ≠ []) :
    (canon n comps).getLast? ≠ some 47 := by
  have key : ∀ (cs : List Str), cs ≠ [] → (∀ c ∈ cs, Name c) → joinSep [47] cs ≠ [] ∧ (joinSep [47] cs).getLast? ≠ some 47 := by
    intro cs
    induction cs with
    | nil => intro h; exact absurd rfl h
    | cons c cs ih =>
      intro _ hn
      obtain ⟨h1, h2, _⟩ := hn c (by simp)
      cases cs with
      | nil => exact ⟨h1, fun e => h2 (List.mem_of_getLast? e)⟩
      | cons d cs =>
        obtain ⟨h3, h4⟩ := ih (by simp) fun x hx => hn x (List.mem_cons_of_mem _ hx)
        rw [joinSep_cons_cons]
        exact ⟨by simp, by rw [List.getLast?_append_of_ne_nil _ h3]; exact h4⟩
  obtain ⟨h1, h2⟩ := key comps hne h
  rw [canon, List.getLast?_append_of_ne_nil _ h1]
  exact h2

theorem canon_ne_nil (n : Nat) (hn : n = 1 ∨ n = 2) (comps : List Str) : canon n comps ≠ [] := by
  rcases hn with rfl | rfl <;> simp [canon, List.replicate_succ]

/-- A relative path, joined to a canonical one and made normal, is followed from there. -/
theorem normpath_join (n : Nat) (hn : n = 1 ∨ n = 2) (comps : List Str) (h : ∀ c ∈ comps, Name c) (x : Str)
    (hx : startsWith x [47] = false) :
    normpath (join (canon n comps) [x]) = canon n (resolve comps (splitSep [47] x)) ∧
    startsWith (join (canon n comps) [x]) [47] = true := by
  have hj : join (canon n comps) [x] = if comps = [] then canon n comps ++ x else canon n comps ++ 47 :: x := by
    unfold join
    rw [List.foldl_cons, List.foldl_nil, join2, hx, if_neg (by simp)]
    by_cases hc : comps = []
    · rw [if_pos hc, if_pos]
      right
      subst hc
      rcases hn with rfl | rfl <;> rfl
    · rw [if_neg hc, if_neg]
      · simp
      · rintro (h1 | h1)
        · exact canon_ne_nil n hn comps h1
        · exact canon_last n comps h hc h1
  have habs : startsWith (join (canon n comps) [x]) [47] = true := by
    rw [hj]
    rcases hn with rfl | rfl <;> split <;> simp [canon, startsWith, List.isPrefixOf, List.replicate_succ]
  refine ⟨?_, habs⟩
  rw [(normpath_absolute _ habs).2, hj]
  by_cases hc : comps = []
  · subst hc
    simp only [if_true]
    have e : canon n [] ++ x = List.replicate n 47 ++ x := by simp [canon, joinSep]
    rw [e, initialSlashes_replicate n hn x hx, splitSep_replicate, resolve_append, resolve_empties]
  · simp only [if_neg hc]
    rw [splitSep_slash, resolve_append, resolve_canon n comps h]
    congr 1
    rw [canon, List.append_assoc]
    apply initialSlashes_replicate n hn
    have hne : joinSep [47] comps ≠ [] := by
      intro e
      have := canon_last n comps h hc
      rw [canon, e] at this
      rcases hn with rfl | rfl <;> exact this rfl
    have := joinSep_head comps h
    cases hs : joinSep [47] comps with
    | nil => exact absurd hs hne
    | cons a t =>
      rw [hs] at this
      simpa [startsWith, List.isPrefixOf] using this

/-- In an absolute working directory, every absolute path is canonical. -/
theorem abspath_shape (m : Nat) (hm : m = 1 ∨ m = 2) (cwd : List Str) (hc : ∀ c ∈ cwd, Name c) (p : Str) :
    ∃ n comps, (n = 1 ∨ n = 2) ∧ (∀ c ∈ comps, Name c) ∧ abspath (canon m cwd) p = canon n comps := by
  unfold abspath
  cases hp : isabs p with
  | true =>
    rw [if_pos rfl]
    obtain ⟨h1, h2⟩ := normpath_absolute p hp
    exact ⟨_, _, h1, resolve_names [] _ (by simp) (splitSep_slashfree p), h2⟩
  | false =>
    rw [if_neg (by simp)]
    exact ⟨m, _, hm, resolve_names cwd _ hc (splitSep_slashfree p), (normpath_join m hm cwd hc p hp).1⟩

theorem canon_snoc (n : Nat) (comps : List Str) (c : Str) :
    canon n (comps ++ [c]) = if comps = [] then canon n [] ++ c else canon n comps ++ 47 :: c := by
  cases comps with
  | nil => simp [canon, joinSep]
  | cons d comps =>
    simp only [reduceCtorEq, if_false, canon, List.append_assoc]
    congr 1
    induction comps generalizing d with
    | nil => simp [joinSep]
    | cons e comps ih =>
      rw [List.cons_append, List.cons_append, joinSep_cons_cons, ← List.cons_append, ih e, joinSep_cons_cons]
      simp

/-- The text of a directory is a beginning of the text of what is in it. -/
theorem canon_prefix (n : Nat) (comps more : List Str) : canon n comps <+: canon n (comps ++ more) := by
  induction more generalizing comps with
  | nil => simp
  | cons c more ih =>
    rw [show comps ++ c :: more = (comps ++ [c]) ++ more by simp]
    refine List.IsPrefix.trans ?_ (ih (comps ++ [c]))
    rw [canon_snoc]
    split
    · rename_i h; subst h; exact ⟨_, rfl⟩
    · exact ⟨_, rfl⟩

theorem canon_length_dropLast (n : Nat) (comps : List Str) (h : ∀ c ∈ comps, Name c) (hne : comps ≠ []) :
    (canon n comps.dropLast).length < (canon n comps).length := by
  obtain ⟨c, hc⟩ : ∃ c, comps.dropLast ++ [c] = comps := ⟨_, List.dropLast_append_getLast hne⟩
  have hcn : c ≠ [] := (h c (by rw [← hc]; simp)).1
  have := canon_snoc n comps.dropLast c
  rw [hc] at this
  rw [this]
  split
  · rename_i h0
    rw [h0, List.length_append]
    have := List.length_pos_iff.mpr hcn
    omega
  · simp

/-- The components of a canonical path are determined by its text. -/
theorem canon_injective (n m : Nat) (hn : n = 1 ∨ n = 2) (hm : m = 1 ∨ m = 2) (a b : List Str) (ha : ∀ c ∈ a, Name c)
    (hb : ∀ c ∈ b, Name c) (h : canon n a = canon m b) : n = m ∧ a = b := by
  constructor
  · have h1 := initialSlashes_replicate n hn _ (joinSep_head a ha)
    have h2 := initialSlashes_replicate m hm _ (joinSep_head b hb)
    unfold canon at h
    rw [← h1, h, h2]
  · rw [← resolve_canon n a ha, h, resolve_canon m b hb]

/-- A relative path without slashes, made normal, is `.`, `..` or a name. -/
theorem normpath_single (p : Str) (h : 47 ∉ normpath p) :
    startsWith p [47] = false ∧ (normpath p = [46] ∨ normpath p = [46, 46] ∨ Name (normpath p)) := by
  have hrel : startsWith p [47] = false := by
    cases hs : startsWith p [47] with
    | false => rfl
    | true =>
      exfalso; apply h
      obtain ⟨hn, e⟩ := normpath_absolute p hs
      rw [e]
      rcases hn with hn | hn <;> rw [hn] <;> simp [canon, List.replicate_succ]
  refine ⟨hrel, ?_⟩
  by_cases hp : p = []
  · subst hp; exact Or.inl rfl
  have hn : initialSlashes p = 0 := by
    unfold initialSlashes
    have h2 : startsWith p [47, 47] = false := by
      cases p with
      | nil => rfl
      | cons c p =>
        have : ¬ 47 = c := by rintro rfl; simp [startsWith, List.isPrefixOf] at hrel
        simp [startsWith, List.isPrefixOf, this]
    rw [h2, hrel]; rfl
  -- components are names or `..`
  have key : ∀ (cs acc : List Str), (∀ c ∈ acc, Name c ∨ c = [46, 46]) → (∀ c ∈ cs, 47 ∉ c) →
      ∀ c ∈ normComps false acc cs, Name c ∨ c = [46, 46] := by
    intro cs
    induction cs with
    | nil => intro acc ha _; exact ha
    | cons d cs ih =>
      intro acc ha hc
      have hcs : ∀ x ∈ cs, 47 ∉ x := fun x hx => hc x (List.mem_cons_of_mem _ hx)
      rw [normComps]
      split
      · exact ih acc ha hcs
      · rename_i h1
        split
        · apply ih _ _ hcs
          intro x hx
          rcases List.mem_append.mp hx with hx | hx
          · exact ha x hx
          · rw [List.mem_singleton] at hx
            subst hx
            by_cases h2 : x = [46, 46]
            · exact Or.inr h2
            · exact Or.inl (name_of_ne (hc x (by simp)) h1 h2)
        · split
          · exact ih _ (fun x hx => ha x (List.dropLast_subset _ hx)) hcs
          · exact ih acc ha hcs
  have hk := key (splitSep [47] p) [] (by simp) (splitSep_slashfree p)
  unfold normpath at h ⊢
  rw [if_neg hp] at h ⊢
  simp only [hn, ne_eq, not_true_eq_false, decide_false, List.replicate_zero, List.nil_append] at h ⊢
  match hm : normComps false [] (splitSep [47] p) with
  | [] => simp [joinSep]
  | [c] =>
    have hc := hk c (by rw [hm]; simp)
    have hcne : c ≠ [] := by rcases hc with h | h; exacts [h.1, by simp [h]]
    rw [show joinSep [47] [c] = c from rfl, if_neg hcne]
    rcases hc with h | h
    · exact Or.inr (Or.inr h)
    · exact Or.inr (Or.inl h)
  | c :: d :: cs =>
    exfalso
    rw [hm, if_neg (by simp [joinSep_cons_cons])] at h
    apply h
    simp [joinSep_cons_cons]

/-- A relative path leads where its normal form leads, and the normal form is relative. -/
theorem resolve_normpath (dir : List Str) (p : Str) (hrel : startsWith p [47] = false) :
    startsWith (normpath p) [47] = false ∧ resolve dir (splitSep [47] (normpath p)) = resolve dir (splitSep [47] p) := by
  by_cases hp : p = []
  · subst hp; exact ⟨rfl, rfl⟩
  have hn : initialSlashes p = 0 := by
    unfold initialSlashes
    have h2 : startsWith p [47, 47] = false := by
      cases p with
      | nil => rfl
      | cons c p =>
        have : ¬ 47 = c := by rintro rfl; simp [startsWith, List.isPrefixOf] at hrel
        simp [startsWith, List.isPrefixOf, this]
    rw [h2, hrel]; rfl
  -- following the reduced components is following the components
  have key : ∀ (cs acc : List Str), (∀ c ∈ acc, c ≠ [] ∧ c ≠ [46] ∧ 47 ∉ c) → (∀ c ∈ cs, 47 ∉ c) →
      resolve dir (normComps false acc cs) = resolve (resolve dir acc) cs ∧
      ∀ c ∈ normComps false acc cs, c ≠ [] ∧ c ≠ [46] ∧ 47 ∉ c := by
    intro cs
    induction cs with
    | nil => intro acc ha _; exact ⟨rfl, ha⟩
    | cons d cs ih =>
      intro acc ha hc
      have hcs : ∀ x ∈ cs, 47 ∉ x := fun x hx => hc x (List.mem_cons_of_mem _ hx)
      rw [normComps]
      split
      · rename_i h1
        obtain ⟨a, b⟩ := ih acc ha hcs
        exact ⟨by rw [a, resolve, if_pos h1], b⟩
      · rename_i h1
        have hd : d ≠ [] ∧ d ≠ [46] := by rwa [not_or] at h1
        split
        · obtain ⟨a, b⟩ := ih (acc ++ [d]) (by
            intro x hx
            rcases List.mem_append.mp hx with hx | hx
            · exact ha x hx
            · rw [List.mem_singleton] at hx; subst hx; exact ⟨hd.1, hd.2, hc x (by simp)⟩) hcs
          refine ⟨?_, b⟩
          rw [a, resolve_append, ← resolve_append (resolve dir acc) [d] cs]
          rfl
        · rename_i h2
          simp only [ne_eq, not_or, not_and, Classical.not_not] at h2
          obtain ⟨h3, h4, h5⟩ := h2
          have hacc : acc ≠ [] := fun e => h4 trivial e
          rw [if_pos hacc]
          obtain ⟨a, b⟩ := ih acc.dropLast (fun x hx => ha x (List.dropLast_subset _ hx)) hcs
          refine ⟨?_, b⟩
          rw [a]
          obtain ⟨l, hl⟩ : ∃ l, acc.dropLast ++ [l] = acc := ⟨_, List.dropLast_append_getLast hacc⟩
          have hlm : l ∈ acc := by rw [← hl]; simp
          have hlast : l ≠ [46, 46] := by
            rintro rfl
            apply h5 hacc
            rw [← hl]; simp
          conv_rhs => rw [← hl]
          rw [resolve_append]
          have e1 : resolve (resolve dir acc.dropLast) [l] = resolve dir acc.dropLast ++ [l] := by
            rw [resolve, if_neg (by simp [ha l hlm]), if_neg hlast]; rfl
          rw [e1, h3, resolve, if_neg (by simp), if_pos rfl, List.dropLast_concat]
  obtain ⟨hk1, hk2⟩ := key (splitSep [47] p) [] (by simp) (splitSep_slashfree p)
  rw [show resolve dir [] = dir from rfl] at hk1
  rw [← hk1]
  unfold normpath
  rw [if_neg hp]
  simp only [hn, ne_eq, not_true_eq_false, decide_false, List.replicate_zero, List.nil_append]
  cases hm : normComps false [] (splitSep [47] p) with
  | nil => simp only [joinSep, if_true]; exact ⟨rfl, rfl⟩
  | cons c cs =>
    rw [hm] at hk2
    obtain ⟨h1, _, h3⟩ := hk2 c (by simp)
    have hne : joinSep [47] (c :: cs) ≠ [] := by
      cases cs with
      | nil => exact h1
      | cons d cs => simp [joinSep_cons_cons]
    rw [if_neg hne, splitSep_joinSep [47] (by simp) (by decide) _ (by simp) fun x hx hi => (hk2 x hx).2.2 (hi.subset (by simp))]
    refine ⟨?_, rfl⟩
    cases c with
    | nil => exact absurd rfl h1
    | cons x c =>
      simp only [List.mem_cons, not_or] at h3
      cases cs with
      | nil => simp [joinSep, startsWith, List.isPrefixOf, h3.1]
      | cons d cs => simp [joinSep_cons_cons, startsWith, List.isPrefixOf, h3.1]

theorem basename_canon (n : Nat) (hn : n = 1 ∨ n = 2) (comps : List Str) (c : Str) (hc : 47 ∉ c) :
    basename (canon n (comps ++ [c])) = c ∧
    upToSlash (canon n (comps ++ [c])) = if comps = [] then canon n [] else canon n comps ++ [47] := by
  have key : ∀ pre : Str, basename (pre ++ 47 :: c) = c ∧ upToSlash (pre ++ 47 :: c) = pre ++ [47] := by
    intro pre
    have e : (pre ++ 47 :: c).reverse = c.reverse ++ 47 :: pre.reverse := by simp
    have h1 : ∀ d : Str, 47 ∉ d → (d ++ 47 :: pre.reverse).takeWhile (· != 47) = d ∧
        (d ++ 47 :: pre.reverse).dropWhile (· != 47) = 47 :: pre.reverse := by
      intro d hd
      induction d with
      | nil => simp
      | cons x d ih =>
        simp only [List.mem_cons, not_or] at hd
        have hx : (x != 47) = true := by simpa using Ne.symm hd.1
        obtain ⟨a, b⟩ := ih hd.2
        rw [List.cons_append, List.takeWhile_cons, List.dropWhile_cons, if_pos hx, if_pos hx, a, b]
        exact ⟨rfl, rfl⟩
    obtain ⟨a, b⟩ := h1 c.reverse (by simpa using hc)
    unfold basename upToSlash
    rw [e, a, b]
    simp
  rw [canon_snoc]
  by_cases h : comps = []
  · rw [if_pos h, if_pos h]
    rcases hn with rfl | rfl
    · exact key []
    · exact key [47]
  · rw [if_neg h, if_neg h]
    exact key _

theorem dirname_canon (n : Nat) (hn : n = 1 ∨ n = 2) (comps : List Str) (h : ∀ x ∈ comps, Name x) (c : Str) (hc : 47 ∉ c) :
    dirname (canon n (comps ++ [c])) = canon n comps := by
  unfold dirname
  rw [(basename_canon n hn comps c hc).2]
  by_cases h0 : comps = []
  · subst h0
    rw [if_pos rfl, if_pos]
    rcases hn with rfl | rfl <;> rfl
  · rw [if_neg h0, if_neg]
    · unfold rstripSlash
      rw [List.reverse_append]
      have hl := canon_last n comps h h0
      simp only [List.reverse_cons, List.reverse_nil, List.nil_append, List.singleton_append]
      rw [List.dropWhile_cons, if_pos (by simp)]
      cases hr : (canon n comps).reverse with
      | nil => exact absurd (by simpa using hr) (canon_ne_nil n hn comps)
      | cons x t =>
        have hx : x ≠ 47 := by
          intro e
          apply hl
          rw [← List.head?_reverse, hr, e]
          rfl
        rw [List.dropWhile_cons, if_neg (by simpa using hx), ← hr, List.reverse_reverse]
    · intro hall
      have hl := canon_last n comps h h0
      rcases List.eq_nil_or_concat (canon n comps) with e | ⟨a, x, e⟩
      · exact canon_ne_nil n hn comps e
      · rw [List.concat_eq_append] at e
        rw [e] at hl hall
        simp at hl hall
        exact hl hall.2

end Verif.Py.Path
