import Verif.Model.FilePathParts
import Verif.Props.FilePath
/-!
# C111: the parts of a path, comparing and pickling `FilePath`s, and times and sizes
-/
namespace Verif.FilePath.Parts
open Verif.Py Verif.Py.Path Verif.FilePath

/-! ## Texts cut at the last occurrence of a character -/

theorem takeWhile_bne (c : Nat) : ∀ (d rest : Str), c ∉ d →
    (d ++ c :: rest).takeWhile (· != c) = d ∧ (d ++ c :: rest).dropWhile (· != c) = c :: rest
  | [], rest, _ => by simp
  | x :: d, rest, hd => by
    simp only [List.mem_cons, not_or] at hd
    have hx : (x != c) = true := by simpa using Ne.symm hd.1
    obtain ⟨a, b⟩ := takeWhile_bne c d rest hd.2
    rw [List.cons_append, List.takeWhile_cons, List.dropWhile_cons, if_pos hx, if_pos hx, a, b]
    exact ⟨rfl, rfl⟩

theorem takeWhile_none (c : Nat) : ∀ d : Str, c ∉ d → d.takeWhile (· != c) = d ∧ d.dropWhile (· != c) = []
  | [], _ => by simp
  | x :: d, hd => by
    simp only [List.mem_cons, not_or] at hd
    have hx : (x != c) = true := by simpa using Ne.symm hd.1
    obtain ⟨a, b⟩ := takeWhile_none c d hd.2
    rw [List.takeWhile_cons, List.dropWhile_cons, if_pos hx, if_pos hx, a, b]
    exact ⟨rfl, rfl⟩

/-- A text that has a character has a last occurrence of it. -/
theorem last_cut (c : Nat) : ∀ s : Str, c ∈ s → ∃ pre post, s = pre ++ c :: post ∧ c ∉ post
  | [], h => by cases h
  | x :: s, h => by
    by_cases hs : c ∈ s
    · obtain ⟨pre, post, e, hp⟩ := last_cut c s hs
      exact ⟨x :: pre, post, by rw [e, List.cons_append], hp⟩
    · rcases List.mem_cons.mp h with rfl | h
      · exact ⟨[], s, rfl, hs⟩
      · exact absurd h hs

theorem reverse_cut (c : Nat) (pre post : Str) : (pre ++ c :: post).reverse = post.reverse ++ c :: pre.reverse := by simp

/-- The base name is what follows the last slash. -/
theorem basename_cut (pre post : Str) (h : 47 ∉ post) : Path.basename (pre ++ 47 :: post) = post := by
  unfold Path.basename
  rw [reverse_cut, (takeWhile_bne 47 post.reverse pre.reverse (by simpa using h)).1, List.reverse_reverse]

theorem basename_free (s : Str) (h : 47 ∉ s) : Path.basename s = s := by
  unfold Path.basename
  rw [(takeWhile_none 47 s.reverse (by simpa using h)).1, List.reverse_reverse]

/-- Every path ends with its base name, which has no slash. -/
theorem basename_suffix (p : Str) : ∃ d, p = d ++ Path.basename p ∧ (d = [] ∨ ∃ e, d = e ++ [47]) ∧ 47 ∉ Path.basename p := by
  by_cases h : 47 ∈ p
  · obtain ⟨pre, post, e, hp⟩ := last_cut 47 p h
    refine ⟨pre ++ [47], ?_, Or.inr ⟨pre, rfl⟩, ?_⟩
    · rw [e, basename_cut pre post hp]; simp
    · rw [e, basename_cut pre post hp]; exact hp
  · exact ⟨[], by rw [basename_free p h]; rfl, Or.inl rfl, by rw [basename_free p h]; exact h⟩

theorem basename_of_suffix (d b : Str) (hd : d = [] ∨ ∃ e, d = e ++ [47]) (hb : 47 ∉ b) : Path.basename (d ++ b) = b := by
  rcases hd with rfl | ⟨e, rfl⟩
  · exact basename_free b hb
  · rw [List.append_assoc]; exact basename_cut e b hb

/-! ## Extensions -/

/-- `r` and `x` are the path without its extension and the extension: `x` is a dot and what has neither dot nor slash, and in the
last component of `r` is something other than dots. -/
def IsExt (r x : Str) : Prop :=
  ∃ d b e, r = d ++ b ∧ (d = [] ∨ ∃ d', d = d' ++ [47]) ∧ 47 ∉ b ∧ (∃ c ∈ b, c ≠ 46) ∧ x = 46 :: e ∧ 46 ∉ e ∧ 47 ∉ e

theorem splitext_of_isExt {r x : Str} (h : IsExt r x) : Path.splitext (r ++ x) = (r, x) := by
  obtain ⟨d, b, e, rfl, hd, hb, ⟨c, hc, hcd⟩, rfl, he, hes⟩ := h
  have hbx : 47 ∉ b ++ 46 :: e := by simp [hb, hes]
  have e1 : Path.basename (d ++ b ++ 46 :: e) = b ++ 46 :: e := by
    rw [List.append_assoc]; exact basename_of_suffix d _ hd hbx
  have he' : 46 ∉ e.reverse := by simpa using he
  have e2 : splitextCut (b ++ 46 :: e) = true := by
    unfold splitextCut
    rw [reverse_cut, (takeWhile_bne 46 e.reverse b.reverse he').2, List.any_eq_true]
    exact ⟨c, by simpa using hc, by simpa using hcd⟩
  unfold Path.splitext
  simp only [e1, e2]
  rw [reverse_cut, (takeWhile_bne 46 e.reverse b.reverse he').1, List.reverse_reverse, if_pos (by simp)]
  have : (d ++ b ++ 46 :: e).length - (46 :: e).length = (d ++ b).length := by
    rw [List.length_append]; omega
  rw [this, List.take_left]

/-- Either there is an extension in that sense, or the path has none. -/
theorem splitext_cases (p : Str) :
    (∃ r x, p = r ++ x ∧ IsExt r x ∧ Path.splitext p = (r, x)) ∨
    (Path.splitext p = (p, []) ∧ ∀ r x, p = r ++ x → ¬ IsExt r x) := by
  by_cases hx : ∃ r x, p = r ++ x ∧ IsExt r x
  · obtain ⟨r, x, e, h⟩ := hx
    exact Or.inl ⟨r, x, e, h, by rw [e]; exact splitext_of_isExt h⟩
  · refine Or.inr ⟨?_, fun r x e h => hx ⟨r, x, e, h⟩⟩
    unfold Path.splitext
    simp only
    rw [if_neg]
    intro hc
    rw [Bool.and_eq_true] at hc
    obtain ⟨h1, h2⟩ := hc
    obtain ⟨d, e, hd, hb⟩ := basename_suffix p
    obtain ⟨pre, post, eb, hp⟩ := last_cut 46 (Path.basename p) (by simpa using h1)
    rw [eb] at h2 e hb
    unfold splitextCut at h2
    rw [reverse_cut, (takeWhile_bne 46 post.reverse pre.reverse (by simpa using hp)).2, List.any_eq_true] at h2
    obtain ⟨c, hc1, hc2⟩ := h2
    simp only [List.mem_append, List.mem_cons, not_or] at hb
    exact hx ⟨d ++ pre, 46 :: post, by rw [List.append_assoc]; exact e, d, pre, post, rfl, hd, hb.1,
      ⟨c, by simpa using hc1, by simpa using hc2⟩, rfl, hp, hb.2.2⟩

/-- `splitext` gives the only extension there is, or none if there is none; the parts always make up the path. -/
theorem splitext_exact (f : FP) :
    f.splitext.1 ++ f.splitext.2 = f.path ∧
    (f.splitext.2 = [] ∨ IsExt f.splitext.1 f.splitext.2) ∧
    (∀ r x, f.path = r ++ x → IsExt r x → f.splitext = (r, x)) := by
  unfold FP.splitext
  rcases splitext_cases f.path with ⟨r, x, e, h, hs⟩ | ⟨hs, hn⟩
  · refine ⟨by rw [hs, e], Or.inr (by rw [hs]; exact h), fun r' x' e' h' => ?_⟩
    rw [e']; exact splitext_of_isExt h'
  · exact ⟨by rw [hs]; simp, Or.inl (by rw [hs]), fun r' x' e' h' => absurd h' (hn r' x' e')⟩

/-- `/a.b/.c..d` has the extension `.d`; `/a.b/..c` has none. -/
example : (FP.splitext ⟨[47, 97, 46, 98, 47, 46, 99, 46, 46, 100], false, none⟩) = ([47, 97, 46, 98, 47, 46, 99, 46], [46, 100]) ∧
    (FP.splitext ⟨[47, 97, 46, 98, 47, 46, 46, 99], false, none⟩) = ([47, 97, 46, 98, 47, 46, 46, 99], []) := ⟨rfl, rfl⟩

/-! ## Base names, directories and parents -/

theorem join_canon (n : Nat) (hn : n = 1 ∨ n = 2) (comps : List Str) (h : ∀ c ∈ comps, Name c) (c : Str) (hc : Name c) :
    join (canon n comps) [c] = canon n (comps ++ [c]) := by
  show join2 (canon n comps) c = _
  unfold join2
  rw [if_neg (by rw [name_rel hc]; simp), canon_snoc]
  by_cases h0 : comps = []
  · subst h0
    rw [if_pos rfl, if_pos]
    rcases hn with rfl | rfl <;> exact Or.inr rfl
  · rw [if_neg h0, if_neg]
    · simp
    · rintro (h1 | h1)
      · exact canon_ne_nil n hn comps h1
      · exact canon_last n comps h h0 h1

theorem canon_isabs {n : Nat} {comps : List Str} (h : IsDir n comps) : Path.isabs (canon n comps) = true := by
  have := h.slashes
  rcases this with rfl | rfl <;> rfl

/-- Every `FilePath` is absolute, whatever was given, in a working directory that is. -/
theorem new_isabs {m : Nat} {w : List Str} (hw : IsDir m w) (p : Str) (a : Bool) : (new (canon m w) p a).isabs = true := by
  obtain ⟨n, comps, h, e⟩ := filePath_isDir hw p
  show Path.isabs (filePath (canon m w) p) = true
  rw [e]; exact canon_isabs h

/-- A `FilePath` is the root, which has no name and is its own parent; or it has a name, and it is the child of that name of its
parent, which is one component shorter. -/
theorem parent_child {m : Nat} {w : List Str} (hw : IsDir m w) (p : Str) (a : Bool) (cwd : Str) :
    ((new (canon m w) p a).basename = [] ∧ ((new (canon m w) p a).parent cwd).path = (new (canon m w) p a).path ∧
      ∀ c ∈ (new (canon m w) p a).path, c = 47) ∨
    (∃ n dir c, IsDir n dir ∧ Name c ∧ (new (canon m w) p a).path = canon n (dir ++ [c]) ∧
      (new (canon m w) p a).basename = c ∧ (new (canon m w) p a).dirname = canon n dir ∧
      ((new (canon m w) p a).parent cwd).path = canon n dir ∧
      child cwd ((new (canon m w) p a).parent cwd).path c = .ok (new (canon m w) p a).path ∧
      join ((new (canon m w) p a).dirname) [c] = (new (canon m w) p a).path) := by
  obtain ⟨n, comps, h, e⟩ := filePath_isDir hw p
  have e' : (new (canon m w) p a).path = canon n comps := e
  unfold FP.basename FP.parent FP.dirname
  rcases List.eq_nil_or_concat comps with rfl | ⟨dir, c, rfl⟩
  · refine Or.inl ?_
    rw [e']
    have hd : Path.dirname (canon n []) = canon n [] := by rcases h.slashes with rfl | rfl <;> rfl
    refine ⟨by rcases h.slashes with rfl | rfl <;> rfl, ?_, ?_⟩
    · show abspath cwd (Path.dirname (canon n [])) = canon n []
      rw [hd]; exact abspath_canon cwd n h.slashes [] h.names
    · rcases h.slashes with rfl | rfl <;> decide
  · rw [List.concat_eq_append] at e' h
    have hdir : IsDir n dir := ⟨h.slashes, fun x hx => h.names x (List.mem_append_left _ hx)⟩
    have hc : Name c := h.names c (List.mem_append_right _ (List.mem_singleton.mpr rfl))
    have hd := dirname_canon n h.slashes dir hdir.names c hc.2.1
    have hp : (new cwd (canon n dir) false).path = canon n dir := abspath_canon cwd n h.slashes dir hdir.names
    refine Or.inr ⟨n, dir, c, hdir, hc, e', ?_⟩
    rw [e', hd]
    refine ⟨(basename_canon n h.slashes dir c hc.2.1).1, rfl, hp, ?_, ?_⟩
    · rw [hp]; exact child_name cwd hdir hc
    · exact join_canon n h.slashes dir hdir.names c hc

/-- The ancestors: `k` times `parent`. -/
def ancestor (cwd : Str) (f : FP) : Nat → FP
  | 0 => f
  | k + 1 => (ancestor cwd f k).parent cwd

/-- Going up drops components, one at a time, and ends at the root for good. -/
theorem ancestors (cwd : Str) {n : Nat} {comps : List Str} (h : IsDir n comps) (f : FP) (e : f.path = canon n comps) (k : Nat) :
    (ancestor cwd f k).path = canon n (comps.take (comps.length - k)) := by
  induction k with
  | zero => simpa [ancestor] using e
  | succ k ih =>
    have hn : IsDir n (comps.take (comps.length - k)) := ⟨h.slashes, fun x hx => h.names x (List.mem_of_mem_take hx)⟩
    show abspath cwd (Path.dirname (ancestor cwd f k).path) = _
    rw [ih]
    by_cases hk : k < comps.length
    · have e1 : comps.length - k = comps.length - (k + 1) + 1 := by omega
      have hl : comps.length - (k + 1) < comps.length := by omega
      have e2 : comps.take (comps.length - k) = comps.take (comps.length - (k + 1)) ++ [comps[comps.length - (k + 1)]] := by
        rw [e1, List.take_succ_eq_append_getElem hl]
      have h1 : ∀ x ∈ comps.take (comps.length - (k + 1)), Name x := fun x hx => h.names x (List.mem_of_mem_take hx)
      rw [e2, dirname_canon n h.slashes _ h1 _ (h.names _ (List.getElem_mem hl)).2.1]
      exact abspath_canon cwd n h.slashes _ h1
    · have e1 : comps.length - k = 0 := by omega
      have e2 : comps.length - (k + 1) = 0 := by omega
      rw [e1, e2, List.take_zero]
      have hd : Path.dirname (canon n []) = canon n [] := by rcases h.slashes with rfl | rfl <;> rfl
      rw [hd]; exact abspath_canon cwd n h.slashes [] (fun x hx => by cases hx)

/-- The parent of `/a/b` is `/a`, of that the root, of that the root. -/
example : (new [47] [97, 47, 98] false).path = [47, 97, 47, 98] ∧
    (ancestor [47] (new [47] [97, 47, 98] false) 1).path = [47, 97] ∧
    (ancestor [47] (new [47] [97, 47, 98] false) 2).path = [47] ∧
    (ancestor [47] (new [47] [97, 47, 98] false) 3).path = [47] := ⟨rfl, rfl, rfl, rfl⟩

/-! ## Comparing -/

/-- Texts in the order of their code points. -/
def Before (s t : Str) : Prop :=
  (∃ c r, t = s ++ c :: r) ∨ ∃ p a b s' t', s = p ++ a :: s' ∧ t = p ++ b :: t' ∧ a < b

theorem Before.cons (c : Nat) {s t : Str} (h : Before s t) : Before (c :: s) (c :: t) := by
  rcases h with ⟨x, r, rfl⟩ | ⟨p, a, b, s', t', rfl, rfl, hab⟩
  · exact Or.inl ⟨x, r, rfl⟩
  · exact Or.inr ⟨c :: p, a, b, s', t', rfl, rfl, hab⟩

theorem cmpStr_cases : ∀ s t : Str,
    (cmpStr s t = 0 ∧ s = t) ∨ (cmpStr s t = -1 ∧ Before s t) ∨ (cmpStr s t = 1 ∧ Before t s)
  | [], [] => Or.inl ⟨rfl, rfl⟩
  | [], b :: t => Or.inr (Or.inl ⟨rfl, Or.inl ⟨b, t, rfl⟩⟩)
  | a :: s, [] => Or.inr (Or.inr ⟨rfl, Or.inl ⟨a, s, rfl⟩⟩)
  | a :: s, b :: t => by
    unfold cmpStr
    by_cases h1 : a < b
    · rw [if_pos h1]
      exact Or.inr (Or.inl ⟨rfl, Or.inr ⟨[], a, b, s, t, rfl, rfl, h1⟩⟩)
    · rw [if_neg h1]
      by_cases h2 : b < a
      · rw [if_pos h2]
        exact Or.inr (Or.inr ⟨rfl, Or.inr ⟨[], b, a, t, s, rfl, rfl, h2⟩⟩)
      · rw [if_neg h2]
        have : a = b := by omega
        subst this
        rcases cmpStr_cases s t with ⟨h, e⟩ | ⟨h, e⟩ | ⟨h, e⟩
        · exact Or.inl ⟨h, by rw [e]⟩
        · exact Or.inr (Or.inl ⟨h, e.cons a⟩)
        · exact Or.inr (Or.inr ⟨h, e.cons a⟩)

theorem cmpStr_refl : ∀ s : Str, cmpStr s s = 0
  | [] => rfl
  | a :: s => by
    unfold cmpStr
    rw [if_neg (Nat.lt_irrefl a), if_neg (Nat.lt_irrefl a)]; exact cmpStr_refl s

theorem cmpStr_prefix (p s t : Str) : cmpStr (p ++ s) (p ++ t) = cmpStr s t := by
  induction p with
  | nil => rfl
  | cons c p ih =>
    show cmpStr (c :: (p ++ s)) (c :: (p ++ t)) = _
    rw [cmpStr, if_neg (Nat.lt_irrefl c), if_neg (Nat.lt_irrefl c)]; exact ih

theorem cmpStr_before {s t : Str} (h : Before s t) : cmpStr s t = -1 ∧ cmpStr t s = 1 := by
  rcases h with ⟨x, r, rfl⟩ | ⟨p, a, b, s', t', rfl, rfl, hab⟩
  · have h1 := cmpStr_prefix s [] (x :: r)
    have h2 := cmpStr_prefix s (x :: r) []
    rw [List.append_nil] at h1 h2
    exact ⟨h1, h2⟩
  · rw [cmpStr_prefix, cmpStr_prefix]
    constructor
    · rw [cmpStr, if_pos hab]
    · rw [cmpStr, if_neg (by omega), if_pos hab]

/-- `cmp` of two `FilePath`s is 0 just when they have the same path, -1 just when the first path is before the second in the
order of code points, 1 just when it is after; it does not compare with anything else. -/
theorem cmp_exact (f g : FP) :
    (f.cmp (some g) = some 0 ↔ f.path = g.path) ∧
    (f.cmp (some g) = some (-1) ↔ Before f.path g.path) ∧
    (f.cmp (some g) = some 1 ↔ Before g.path f.path) ∧
    (f.cmp (some g) = some 0 ∨ f.cmp (some g) = some (-1) ∨ f.cmp (some g) = some 1) ∧
    f.cmp none = none := by
  have e : f.cmp (some g) = some (cmpStr f.path g.path) := rfl
  rw [e]
  simp only [Option.some.injEq]
  have h := cmpStr_cases f.path g.path
  refine ⟨⟨fun h0 => ?_, fun h0 => by rw [h0]; exact cmpStr_refl _⟩, ⟨fun h0 => ?_, fun h0 => (cmpStr_before h0).1⟩,
    ⟨fun h0 => ?_, fun h0 => (cmpStr_before h0).2⟩, ?_, rfl⟩
  · rcases h with ⟨_, h⟩ | ⟨h, _⟩ | ⟨h, _⟩
    · exact h
    · omega
    · omega
  · rcases h with ⟨h, _⟩ | ⟨_, h⟩ | ⟨h, _⟩
    · omega
    · exact h
    · omega
  · rcases h with ⟨h, _⟩ | ⟨h, _⟩ | ⟨_, h⟩
    · omega
    · omega
    · exact h
  · rcases h with ⟨h, _⟩ | ⟨h, _⟩ | ⟨h, _⟩
    · exact Or.inl h
    · exact Or.inr (Or.inl h)
    · exact Or.inr (Or.inr h)

theorem cmpStr_trans : ∀ s t u : Str, cmpStr s t = -1 → cmpStr t u = -1 → cmpStr s u = -1
  | [], [], _, h, _ => by cases h
  | [], _ :: _, [], _, h => by cases h
  | [], _ :: _, _ :: _, _, _ => rfl
  | _ :: _, [], _, h, _ => by cases h
  | _ :: _, _ :: _, [], _, h => by cases h
  | a :: s, b :: t, c :: u, h1, h2 => by
    rw [cmpStr] at h1 h2 ⊢
    by_cases hab : a < b
    · by_cases hbc : b < c
      · rw [if_pos (Nat.lt_trans hab hbc)]
      · rw [if_neg hbc] at h2
        by_cases hcb : c < b
        · rw [if_pos hcb] at h2; cases h2
        · have : b = c := by omega
          rw [if_pos (by omega)]
    · rw [if_neg hab] at h1
      by_cases hba : b < a
      · rw [if_pos hba] at h1; cases h1
      · have e : a = b := by omega
        subst e
        rw [if_neg hab] at h1
        by_cases hbc : a < c
        · rw [if_pos hbc]
        · rw [if_neg hbc] at h2 ⊢
          by_cases hcb : c < a
          · rw [if_pos hcb] at h2; cases h2
          · rw [if_neg hcb] at h2 ⊢
            exact cmpStr_trans s t u (by simpa using h1) h2

/-- It is an order: so `FilePath`s can be sorted. -/
theorem cmp_order (f g h : FP) :
    (f.cmp (some g) = some (-1) ↔ g.cmp (some f) = some 1) ∧
    (f.cmp (some g) = some (-1) → g.cmp (some h) = some (-1) → f.cmp (some h) = some (-1)) := by
  refine ⟨by rw [(cmp_exact f g).2.1, (cmp_exact g f).2.2.1], fun h1 h2 => ?_⟩
  have h1' : cmpStr f.path g.path = -1 := Option.some.inj h1
  have h2' : cmpStr g.path h.path = -1 := Option.some.inj h2
  show some (cmpStr f.path h.path) = some (-1)
  rw [cmpStr_trans _ _ _ h1' h2']

/-- `/a` is before `/a/b`, which is before `/b`. -/
example : FP.cmp ⟨[47, 97], false, none⟩ (some ⟨[47, 97, 47, 98], true, none⟩) = some (-1) ∧
    FP.cmp ⟨[47, 98], false, none⟩ (some ⟨[47, 97, 47, 98], true, none⟩) = some 1 := ⟨rfl, rfl⟩

/-- The representations of two `FilePath`s are the same just when the paths are, as that is so of texts. -/
theorem repr_exact (r : Str → Str) (hr : ∀ s t, r s = r t → s = t) (f g : FP) : f.repr r = g.repr r ↔ f.path = g.path := by
  constructor
  · intro h
    unfold FP.repr at h
    rw [List.append_assoc, List.append_assoc] at h
    exact hr _ _ (List.append_inj_left' (List.append_cancel_left h) rfl)
  · intro h
    unfold FP.repr; rw [h]

/-! ## Times and sizes -/

/-- What is known of the file after a sequence of operations, the last first: what the last look gave; a getter looks only if nothing is
known; nothing is known of what was unpickled. -/
def known : List Op → Option Info
  | [] => none
  | .restat now _ :: _ => now
  | .pickle :: _ => none
  | .get _ now :: before => (known before).or now

def cached (f : FP) : Option Info :=
  match f.statinfo with
  | some (.info i) => some i
  | _ => none

theorem cached_get (f : FP) (field : Info → Int) (now : Option Info) :
    cached (f.get field now).1 = (cached f).or now ∧
    (f.get field now).2 = (match (cached f).or now with | some i => .ok (field i) | none => .error osError) ∧
    (f.get field now).1.path = f.path ∧ (f.get field now).1.alwaysCreate = f.alwaysCreate := by
  obtain ⟨p, a, s⟩ := f
  rcases s with _ | _ | i <;> rcases now with _ | j <;> exact ⟨rfl, rfl, rfl, rfl⟩

theorem cached_restat (f : FP) (now : Option Info) (r : Bool) :
    cached (f.restat now r).1 = now ∧ (f.restat now r).1.path = f.path ∧ (f.restat now r).1.alwaysCreate = f.alwaysCreate := by
  rcases now with _ | j <;> exact ⟨rfl, rfl, rfl⟩

theorem run_snoc (f : FP) (os : List Op) (o : Op) : run f (os ++ [o]) = (step (run f os) o).1 := by
  induction os generalizing f with
  | nil => rfl
  | cons x os ih => exact ih _

theorem run_known (cwd p : Str) (a : Bool) (os : List Op) :
    cached (run (new cwd p a) os.reverse) = known os ∧ (run (new cwd p a) os.reverse).path = abspath cwd p ∧
    (run (new cwd p a) os.reverse).alwaysCreate = a := by
  induction os with
  | nil => exact ⟨rfl, rfl, rfl⟩
  | cons o os ih =>
    obtain ⟨h1, h2, h3⟩ := ih
    rw [List.reverse_cons, run_snoc]
    cases o with
    | restat now r =>
      obtain ⟨c1, c2, c3⟩ := cached_restat (run (new cwd p a) os.reverse) now r
      exact ⟨c1, c2.trans h2, c3.trans h3⟩
    | get field now =>
      obtain ⟨c1, _, c2, c3⟩ := cached_get (run (new cwd p a) os.reverse) field now
      refine ⟨?_, c2.trans h2, c3.trans h3⟩
      show cached ((run (new cwd p a) os.reverse).get field now).1 = (known os).or now
      rw [c1, h1]
    | pickle => exact ⟨rfl, h2, h3⟩

/-- After any sequence of operations a getter answers with its field of what is known, or else of what is there now; it raises
`OSError` just when nothing is known and nothing is there. The path and `alwaysCreate` stay as they were given, through pickling
too. -/
theorem get_known (cwd p : Str) (a : Bool) (os : List Op) (field : Info → Int) (now : Option Info) :
    (∀ x, (step (run (new cwd p a) os.reverse) (.get field now)).2 = some (.ok x) ↔
      ∃ i, (known os).or now = some i ∧ x = field i) ∧
    (∀ e, (step (run (new cwd p a) os.reverse) (.get field now)).2 = some (.error e) ↔
      known os = none ∧ now = none ∧ e = osError) ∧
    (run (new cwd p a) os.reverse).path = abspath cwd p ∧ (run (new cwd p a) os.reverse).alwaysCreate = a := by
  obtain ⟨h1, h2, h3⟩ := run_known cwd p a os
  have hg : (step (run (new cwd p a) os.reverse) (.get field now)).2 =
      some (match (known os).or now with | some i => .ok (field i) | none => .error osError) := by
    rw [← h1]
    exact congrArg some (cached_get _ field now).2.1
  rw [hg]
  refine ⟨fun x => ?_, fun e => ?_, h2, h3⟩
  · cases hk : (known os).or now with
    | none => simp
    | some i => simp [eq_comm]
  · cases hk : known os with
    | some i => simp [Option.or]
    | none =>
      cases now with
      | none => simp [Option.or, eq_comm]
      | some j => simp [Option.or]

/-- Getters that follow each other answer of one and the same look at the file, whatever happens to it meanwhile. -/
theorem get_coherent (cwd p : Str) (a : Bool) (os : List Op) (f1 f2 : Info → Int) (now1 now2 : Option Info) (gets : List (( Info → Int) × Option Info))
    (x y : Int) (h1 : (step (run (new cwd p a) os.reverse) (.get f1 now1)).2 = some (.ok x))
    (h2 : (step (run (new cwd p a) ((gets.map fun g => Op.get g.1 g.2) ++ .get f1 now1 :: os).reverse) (.get f2 now2)).2 = some (.ok y)) :
    ∃ i, x = f1 i ∧ y = f2 i := by
  obtain ⟨i, hi, hx⟩ := ((get_known cwd p a os f1 now1).1 x).mp h1
  obtain ⟨j, hj, hy⟩ := ((get_known cwd p a _ f2 now2).1 y).mp h2
  have : ∀ gs : List ((Info → Int) × Option Info), known ((gs.map fun g => Op.get g.1 g.2) ++ .get f1 now1 :: os) = some i := by
    intro gs
    induction gs with
    | nil => exact hi
    | cons g gs ih =>
      show (known ((gs.map fun g => Op.get g.1 g.2) ++ .get f1 now1 :: os)).or g.2 = some i
      rw [ih]; rfl
  rw [this gets] at hj
  have hij : i = j := Option.some.inj hj
  subst hij
  exact ⟨i, hx, hy⟩

/-- A getter right after `restat`, or after unpickling, answers of what the file is at that look. -/
theorem get_fresh (cwd p : Str) (a r : Bool) (os : List Op) (field : Info → Int) (now later : Option Info) (i : Info) :
    (now = some i →
      (step (run (new cwd p a) (.restat now r :: os).reverse) (.get field later)).2 = some (.ok (field i))) ∧
    (now = some i → (step (run (new cwd p a) (.pickle :: os).reverse) (.get field now)).2 = some (.ok (field i))) ∧
    (now = none → (step (run (new cwd p a) (.pickle :: os).reverse) (.get field now)).2 = some (.error osError)) := by
  refine ⟨fun h => ?_, fun h => ?_, fun h => ?_⟩
  · exact ((get_known cwd p a _ field later).1 _).mpr ⟨i, by rw [h]; rfl, rfl⟩
  · exact ((get_known cwd p a _ field now).1 _).mpr ⟨i, by rw [h]; rfl, rfl⟩
  · exact ((get_known cwd p a _ field now).2.1 _).mpr ⟨rfl, h, rfl⟩

/-- Each getter gives its own field. -/
theorem getters (cwd p : Str) (a : Bool) (i : Info) :
    ((new cwd p a).getsize (some i)).2 = .ok i.size ∧ ((new cwd p a).getmtime (some i)).2 = .ok i.mtime ∧
    ((new cwd p a).getctime (some i)).2 = .ok i.ctime ∧ ((new cwd p a).getatime (some i)).2 = .ok i.atime ∧
    ∀ (f : FP) (now : Option Info), (f.getsize now).1 = (f.getatime now).1 ∧ (f.getmtime now).1 = (f.getatime now).1 ∧
      (f.getctime now).1 = (f.getatime now).1 := by
  refine ⟨rfl, rfl, rfl, rfl, fun f now => ?_⟩
  obtain ⟨p, a, s⟩ := f
  rcases s with _ | _ | j <;> rcases now with _ | k <;> exact ⟨rfl, rfl, rfl⟩

/-- `restat` raises just when there is nothing and it was told to. -/
theorem restat_raises (f : FP) (now : Option Info) (r : Bool) (e : PyErr) :
    (f.restat now r).2 = some e ↔ now = none ∧ r = true ∧ e = osError := by
  cases now with
  | some i => simp [FP.restat]
  | none => cases r <;> simp [FP.restat, eq_comm]

/-- `statinfo` is not pickled, everything else is. -/
theorem pickle_exact (f : FP) :
    (setstate f.getstate).path = f.path ∧ (setstate f.getstate).alwaysCreate = f.alwaysCreate ∧ (setstate f.getstate).statinfo = none :=
  ⟨rfl, rfl, rfl⟩

/-- Answers go stale: the file grew, and `getsize` still gives the old size. -/
theorem get_stale_fails (cwd p : Str) (a : Bool) (then_ now : Info) (field : Info → Int) :
    (step (run (new cwd p a) [.get field (some then_)]) (.get Info.size (some now))).2 = some (.ok then_.size) := rfl

example : (step (run (new [47] [97] false) [Op.get Info.mtime (some ⟨1, 2, 3, 4⟩)].reverse) (.get Info.size none)).2 = some (.ok 1) := rfl

end Verif.FilePath.Parts
