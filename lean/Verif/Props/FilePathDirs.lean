import Verif.Model.FilePathDirs
import Verif.Props.FilePathCreate
/-!
# C106, C107 — making directories, listing and globbing
-/
namespace Verif.FilePath
open Verif.Py Verif.Py.Path

/-! ## C106: `makedirs` -/

theorem take_prefix_succ (p : List Str) (k : Nat) (hk : k < p.length) : p.take (k + 1) = p.take k ++ [p[k]] := by
  rw [List.take_succ_eq_append_getElem hk]

theorem prefix_snoc {q r : List Str} {c : Str} (h : q <+: r ++ [c]) : q = r ++ [c] ∨ q <+: r := by
  rcases List.prefix_concat_iff.1 (by simpa using h) with h | h
  · exact Or.inl (by simpa using h)
  · exact Or.inr h

/-- Where everything on the way is a directory. -/
def WayIsFree (fs : Node) (p : List Str) : Prop :=
  ∀ q, q <+: p → ∀ m, lookup fs q = some m → ∃ es, m = .dir es

theorem makedirsTo_ok (fs : Node) (p : List Str) (hw : WayIsFree fs p) (k : Nat) (hk : k ≤ p.length)
    (hn : lookup fs (p.take k) = none) :
    ∃ fs', makedirsTo fs p k = (fs', none) ∧ (∀ q, q <+: p.take k → ∃ es, lookup fs' q = some (.dir es)) ∧
      (∀ q, ¬ q <+: p.take k → lookup fs' q = lookup fs q) := by
  induction k with
  | zero => rw [List.take_zero, lookup_nil] at hn; cases hn
  | succ k ih =>
    have hk' : k < p.length := hk
    have he := take_prefix_succ p k hk'
    have hpre : p.take k <+: p := List.take_prefix k p
    have step : ∀ fs1, (∀ q, q <+: p.take k → ∃ es, lookup fs1 q = some (.dir es)) →
        (∀ q, ¬ q <+: p.take k → lookup fs1 q = lookup fs q) →
        ∃ fs2, mkdir fs1 (p.take (k + 1)) = .ok fs2 ∧ (∀ q, q <+: p.take (k + 1) → ∃ es, lookup fs2 q = some (.dir es)) ∧
          (∀ q, ¬ q <+: p.take (k + 1) → lookup fs2 q = lookup fs q) := by
      intro fs1 h1 h2
      have hnot : ¬ p.take (k + 1) <+: p.take k := fun h => by
        have := h.length_le
        simp only [List.length_take] at this
        omega
      have hl : lookup fs1 (p.take (k + 1)) = none := by rw [h2 _ hnot, hn]
      obtain ⟨es, hes⟩ := h1 _ (List.prefix_refl _)
      obtain ⟨fs2, hp⟩ := put_into hes p[k] (.dir [])
      rw [← he] at hp
      refine ⟨fs2, by simp only [mkdir, hl, hp], fun q hq => ?_, fun q hq => ?_⟩
      · by_cases heq : p.take (k + 1) <+: q
        · have : q = p.take (k + 1) := by
            have := hq.eq_of_length_le heq.length_le
            exact this
          rw [this]
          exact ⟨[], put_get hp⟩
        · obtain ⟨c, t, hct⟩ := proper hq heq
          have hqk : q <+: p.take k := by
            rw [he] at hq
            rcases prefix_snoc hq with h | h
            · rw [← he] at h; exact absurd (h ▸ List.prefix_refl _) heq
            · exact h
          obtain ⟨es', hes'⟩ := h1 q hqk
          rw [hct] at hp
          obtain ⟨x, hx⟩ := put_above hp hes'
          exact ⟨_, hx⟩
      · by_cases heq : p.take (k + 1) <+: q
        · obtain ⟨c, t, hct⟩ := proper heq hq
          rw [lookup_prefix heq hn, hct, lookup_append, put_get hp]
          rfl
        · rw [put_other hp heq hq]
          exact h2 q fun h => hq (h.trans (by rw [he]; exact List.prefix_append _ _))
    unfold makedirsTo
    cases hl : lookup fs (p.take k) with
    | some m =>
      obtain ⟨es, rfl⟩ := hw _ hpre m hl
      have h1 : ∀ q, q <+: p.take k → ∃ es, lookup fs q = some (.dir es) := by
        intro q hq
        cases hlq : lookup fs q with
        | none => rw [lookup_prefix hq hlq] at hl; cases hl
        | some m =>
          obtain ⟨es, rfl⟩ := hw q (hq.trans hpre) m hlq
          exact ⟨es, rfl⟩
      obtain ⟨fs2, h2, h3, h4⟩ := step fs h1 fun _ _ => rfl
      exact ⟨fs2, by simp only [h2], h3, h4⟩
    | none =>
      obtain ⟨fs1, h0, h1, h2⟩ := ih (by omega) hl
      obtain ⟨fs2, h3, h4, h5⟩ := step fs1 h1 h2
      exact ⟨fs2, by simp only [h0, h3], h4, h5⟩

/-- **C106.** Where nothing is at the path and everything on the way to it is a directory, `makedirs` makes directories of it
and of all that was missing on the way, and changes nothing else. -/
theorem makedirs_makes (fs : Node) (p : List Str) (hn : lookup fs p = none) (hw : WayIsFree fs p) :
    ∃ fs', makedirs fs p = (fs', none) ∧ (∀ q, q <+: p → ∃ es, lookup fs' q = some (.dir es)) ∧
      (∀ q, ¬ q <+: p → lookup fs' q = lookup fs q) := by
  have := makedirsTo_ok fs p hw p.length (Nat.le_refl _) (by rwa [List.take_length])
  simpa only [List.take_length, makedirs] using this

theorem makedirsTo_blocked (fs : Node) (p : List Str) (k : Nat) (hk : k ≤ p.length) (q : List Str) (hq : q <+: p.take k)
    (m : Node) (hm : lookup fs q = some m) (hd : ∀ es, m ≠ .dir es) (hn : lookup fs (p.take k) = none) :
    makedirsTo fs p k = (fs, some osError) := by
  induction k with
  | zero => rfl
  | succ k ih =>
    have he := take_prefix_succ p k hk
    have hqk : q <+: p.take k := by
      rw [he] at hq
      rcases prefix_snoc hq with h | h
      · rw [← he] at h; rw [h, hn] at hm; cases hm
      · exact h
    unfold makedirsTo
    cases hl : lookup fs (p.take k) with
    | some m' =>
      have hmk : mkdir fs (p.take (k + 1)) = .error osError := by
        unfold mkdir
        simp only [hn]
        cases hp : put fs (p.take (k + 1)) (.dir []) with
        | none => rfl
        | some fs' =>
          exfalso
          obtain ⟨t, ht⟩ := hqk
          rw [he, ← ht] at hp
          obtain ⟨es, h⟩ := leaf_above (c := (t ++ [p[k]]).head (by simp)) (t := (t ++ [p[k]]).tail) (q := q)
            (by simpa [List.append_assoc] using hp) hm
          exact hd es h
      simp only [hmk]
    | none => simp only [ih (by omega) hqk hl]

/-- **C106.** Otherwise, it raises and changes nothing: if something is at the path, or something on the way is not a
directory. -/
theorem makedirs_refuses (fs : Node) (p : List Str) (h : lookup fs p ≠ none ∨ ¬ WayIsFree fs p) :
    makedirs fs p = (fs, some osError) := by
  by_cases hn : lookup fs p = none
  · have hw := h.resolve_left fun h => h hn
    obtain ⟨q, hq⟩ := Classical.not_forall.1 hw
    obtain ⟨h1, hq⟩ := Classical.not_imp.1 hq
    obtain ⟨m, hq⟩ := Classical.not_forall.1 hq
    obtain ⟨h2, hq⟩ := Classical.not_imp.1 hq
    exact makedirsTo_blocked fs p p.length (Nat.le_refl _) q (by rwa [List.take_length]) m h2 (fun es e => hq ⟨es, e⟩)
      (by rwa [List.take_length])
  · unfold makedirs
    cases hp : p.length with
    | zero => rfl
    | succ k =>
      have hfull : p.take (k + 1) = p := by rw [← hp, List.take_length]
      have hm : mkdir fs p = .error osError := by
        unfold mkdir
        cases hl : lookup fs p with
        | none => exact absurd hl hn
        | some m => rfl
      unfold makedirsTo
      cases hl : lookup fs (p.take k) with
      | none => rw [lookup_prefix (List.take_prefix k p) hl] at hn; exact absurd rfl hn
      | some m => simp only [hfull, hm]

/-- **C106.** `createDirectory` makes one directory: it succeeds exactly if nothing is at the path and the directory to hold it
exists. -/
theorem createDirectory_iff (fs : Node) (dir : List Str) (c : Str) :
    (∃ fs', createDirectory fs (dir ++ [c]) = .ok fs') ↔
      lookup fs (dir ++ [c]) = none ∧ ∃ es, lookup fs dir = some (.dir es) := by
  unfold createDirectory mkdir
  constructor
  · rintro ⟨fs', h⟩
    cases hl : lookup fs (dir ++ [c]) with
    | some m => rw [hl] at h; cases h
    | none =>
      rw [hl] at h
      cases hp : put fs (dir ++ [c]) (.dir []) with
      | none => simp [hp] at h
      | some fs'' => exact ⟨rfl, put_dir hp⟩
  · rintro ⟨hl, es, hes⟩
    obtain ⟨fs', hp⟩ := put_into hes c (.dir [])
    exact ⟨fs', by simp only [hl, hp]⟩

/-- **C106.** Then an empty directory is there, everything that was there still is, and nothing appeared anywhere else. -/
theorem createDirectory_ok (fs fs' : Node) (p : List Str) (h : createDirectory fs p = .ok fs') :
    lookup fs' p = some (.dir []) ∧ Kept fs fs' ∧ ∀ q, ¬ q <+: p → ¬ p <+: q → lookup fs' q = lookup fs q := by
  unfold createDirectory mkdir at h
  cases hl : lookup fs p with
  | some m => rw [hl] at h; cases h
  | none =>
    rw [hl] at h
    cases hp : put fs p (.dir []) with
    | none => simp [hp] at h
    | some fs'' =>
      obtain rfl : fs'' = fs' := by simpa [hp] using h
      exact ⟨put_get hp, put_kept hp hl, fun q h1 h2 => put_other hp h2 h1⟩

/-! ## C107: listing and globbing -/

/-- **C107.** The children of a directory are exactly the paths one component below it at which there is something. -/
theorem children_iff (fs : Node) (p : List Str) (es : Dict Str Node) (h : lookup fs p = some (.dir es)) :
    ∃ l, children fs p = .ok l ∧ ∀ q, q ∈ l ↔ ∃ c, q = p ++ [c] ∧ (lookup fs q).isSome := by
  refine ⟨_, by simp only [children, listdir, h]; rfl, fun q => ?_⟩
  simp only [List.mem_map]
  constructor
  · rintro ⟨c, ⟨e, he, rfl⟩, rfl⟩
    refine ⟨e.1, rfl, ?_⟩
    rw [lookup_child h]
    exact (Dict.has_iff es e.1).2 (List.mem_map_of_mem he)
  · rintro ⟨c, rfl, hs⟩
    rw [lookup_child h] at hs
    obtain ⟨e, he, hc⟩ := List.mem_map.1 ((Dict.has_iff es c).1 hs)
    exact ⟨c, ⟨e, he, hc⟩, rfl⟩

/-- What can be between brackets: something, in which `]` is only the first character, or the first after a `!` in front. -/
def Body (b : Str) : Prop := (∃ c t, b = c :: t ∧ c ≠ 33 ∧ 93 ∉ t) ∨ ∃ c t, b = 33 :: c :: t ∧ 93 ∉ t

/-- What is after a `[` closes it. -/
def Closed (p : Str) : Prop := ∃ b rest, Body b ∧ p = b ++ 93 :: rest

/-- A list of characters `c` and ranges `a-b`, read from the left. -/
inductive Reads : Str → List (Nat × Nat) → Prop
  | nil : Reads [] []
  | range (a b : Nat) {t : Str} {l : List (Nat × Nat)} : Reads t l → Reads (a :: 45 :: b :: t) ((a, b) :: l)
  | char (a : Nat) {t : Str} {l : List (Nat × Nat)} : (∀ b t', t ≠ 45 :: b :: t') → Reads t l → Reads (a :: t) ((a, a) :: l)

/-- A character is in the list. -/
def Listed (t : Str) (d : Nat) : Prop := ∃ l a b, Reads t l ∧ (a, b) ∈ l ∧ a ≤ d ∧ d ≤ b

/-- A character is one of those that the brackets mean: in the list, or after `!` not in it. -/
def InSet (b : Str) (d : Nat) : Prop :=
  (∃ t, b = 33 :: t ∧ ¬ Listed t d) ∨ (b.head? ≠ some 33 ∧ Listed b d)

/-- A range in brackets ends before it begins. -/
def Reversed (b : Str) : Prop :=
  ∃ l x y, (Reads b l ∧ b.head? ≠ some 33 ∨ ∃ t, b = 33 :: t ∧ Reads t l) ∧ (x, y) ∈ l ∧ y < x

/-- What a pattern matches: `*` any text, `?` any character, brackets one of the characters that they mean, everything else
itself. -/
inductive Matches : Str → Str → Prop
  | done : Matches [] []
  | star (u : Str) {p s : Str} : Matches p s → Matches (42 :: p) (u ++ s)
  | any (c : Nat) {p s : Str} : Matches p s → Matches (63 :: p) (c :: s)
  | set (b : Str) (d : Nat) {p s : Str} : Body b → InSet b d → Matches p s → Matches (91 :: (b ++ 93 :: p)) (d :: s)
  | lit (c : Nat) {p s : Str} : c ≠ 42 → c ≠ 63 → (c = 91 → ¬ Closed p) → Matches p s → Matches (c :: p) (c :: s)

/-- There is a range in a pattern that ends before it begins. -/
inductive Bad : Str → Prop
  | here (b p : Str) : Body b → Reversed b → Bad (91 :: (b ++ 93 :: p))
  | afterSet (b : Str) {p : Str} : Body b → Bad p → Bad (91 :: (b ++ 93 :: p))
  | after (c : Nat) {p : Str} : (c = 91 → ¬ Closed p) → Bad p → Bad (c :: p)

theorem someTail_iff (f : Str → Bool) (s : Str) : someTail f s = true ↔ ∃ u v, s = u ++ v ∧ f v = true := by
  induction s with
  | nil =>
    rw [someTail]
    constructor
    · intro h; exact ⟨[], [], rfl, h⟩
    · rintro ⟨u, v, h, hf⟩
      obtain ⟨-, rfl⟩ := List.append_eq_nil_iff.1 h.symm
      exact hf
  | cons c s ih =>
    rw [someTail, Bool.or_eq_true, ih]
    constructor
    · rintro (h | ⟨u, v, rfl, h⟩)
      · exact ⟨[], _, rfl, h⟩
      · exact ⟨c :: u, v, rfl, h⟩
    · rintro ⟨u, v, h, hf⟩
      cases u with
      | nil => left; rw [h]; exact hf
      | cons d u =>
        obtain ⟨-, rfl⟩ : c = d ∧ s = u ++ v := by simpa using h
        exact Or.inr ⟨u, v, rfl, hf⟩

theorem untilClose_iff (p t rest : Str) : untilClose p = some (t, rest) ↔ p = t ++ 93 :: rest ∧ 93 ∉ t := by
  induction p generalizing t with
  | nil => simp [untilClose]
  | cons c p ih =>
    rw [untilClose]
    by_cases hc : c = 93
    · subst hc
      rw [if_pos rfl]
      constructor
      · intro h; cases h; simp
      · rintro ⟨h, hn⟩
        cases t with
        | nil => simp at h; rw [h]
        | cons d t =>
          obtain ⟨rfl, -⟩ : 93 = d ∧ p = t ++ 93 :: rest := by simpa using h
          simp at hn
    · rw [if_neg hc]
      cases t with
      | nil =>
        constructor
        · intro h
          cases hu : untilClose p with
          | none => rw [hu] at h; cases h
          | some r => rw [hu] at h; simp at h
        · rintro ⟨h, -⟩
          simp at h
          exact absurd h.1 hc
      | cons d t =>
        constructor
        · intro h
          cases hu : untilClose p with
          | none => rw [hu] at h; cases h
          | some r =>
            rw [hu] at h
            simp only [Option.map_some, Option.some.injEq, Prod.mk.injEq, List.cons.injEq] at h
            obtain ⟨⟨rfl, rfl⟩, rfl⟩ := h
            obtain ⟨rfl, h2⟩ := (ih r.1).1 hu
            exact ⟨rfl, by simp [h2, Ne.symm hc]⟩
        · rintro ⟨h, hn⟩
          obtain ⟨rfl, rfl⟩ : c = d ∧ p = t ++ 93 :: rest := by simpa using h
          rw [(ih t).2 ⟨rfl, fun h => hn (by simp [h])⟩]
          rfl

/-- The end of a bracket is found, if there is one. -/
theorem bracket_iff (p b rest : Str) : bracket p = some (b, rest) ↔ p = b ++ 93 :: rest ∧ Body b := by
  have key : ∀ (q pre : Str), (untilClose q).map (fun r => (pre ++ r.1, r.2)) = some (b, rest) ↔
      ∃ t, b = pre ++ t ∧ q = t ++ 93 :: rest ∧ 93 ∉ t := by
    intro q pre
    constructor
    · intro h
      cases hu : untilClose q with
      | none => rw [hu] at h; cases h
      | some r =>
        rw [hu] at h
        simp only [Option.map_some, Option.some.injEq, Prod.mk.injEq] at h
        obtain ⟨rfl, rfl⟩ := h
        exact ⟨r.1, rfl, (untilClose_iff q r.1 r.2).1 hu⟩
    · rintro ⟨t, rfl, h⟩
      rw [(untilClose_iff q t rest).2 h]
      rfl
  unfold bracket
  split
  · rename_i q
    simp only [List.drop_succ_cons, List.drop_zero, List.take_succ_cons, List.take_zero]
    rw [key]
    constructor
    · rintro ⟨t, rfl, rfl, hn⟩
      exact ⟨by simp, Or.inr ⟨93, t, rfl, hn⟩⟩
    · rintro ⟨h, ⟨c, t, rfl, hc, hn⟩ | ⟨c, t, rfl, hn⟩⟩
      · simp at h
        exact absurd h.1.symm hc
      · simp at h
        obtain ⟨rfl, rfl⟩ := h
        exact ⟨t, rfl, rfl, hn⟩
  · rename_i q hq
    simp only [List.drop_succ_cons, List.drop_zero, List.take_succ_cons, List.take_zero]
    rw [key]
    constructor
    · rintro ⟨t, rfl, rfl, hn⟩
      refine ⟨by simp, ?_⟩
      cases t with
      | nil => exact absurd rfl (hq rest)
      | cons c t => exact Or.inr ⟨c, t, rfl, fun h => hn (by simp [h])⟩
    · rintro ⟨h, ⟨c, t, rfl, hc, hn⟩ | ⟨c, t, rfl, hn⟩⟩
      · simp at h
        exact absurd h.1.symm hc
      · simp at h
        subst h
        have hc : c ≠ 93 := fun e => hq _ (by rw [e])
        exact ⟨c :: t, rfl, rfl, by simp [hn, Ne.symm hc]⟩
  · rename_i q
    simp only [List.drop_succ_cons, List.drop_zero, List.take_succ_cons, List.take_zero]
    rw [key]
    constructor
    · rintro ⟨t, rfl, rfl, hn⟩
      exact ⟨by simp, Or.inl ⟨93, t, rfl, by decide, hn⟩⟩
    · rintro ⟨h, ⟨c, t, rfl, hc, hn⟩ | ⟨c, t, rfl, hn⟩⟩
      · simp at h
        obtain ⟨rfl, rfl⟩ := h
        exact ⟨t, rfl, rfl, hn⟩
      · simp at h
  · rename_i h1 h2 h3
    simp only [List.drop_zero, List.take_zero]
    rw [key]
    constructor
    · rintro ⟨t, hb, rfl, hn⟩
      obtain rfl : b = t := by simpa using hb
      refine ⟨rfl, ?_⟩
      cases b with
      | nil => exact absurd rfl (h3 rest)
      | cons c t => exact Or.inl ⟨c, t, rfl, fun e => h2 _ (by rw [e]; rfl), fun h => hn (by simp [h])⟩
    · rintro ⟨rfl, ⟨c, t, rfl, hc, hn⟩ | ⟨c, t, rfl, hn⟩⟩
      · have : c ≠ 93 := fun e => h3 _ (by rw [e]; rfl)
        exact ⟨c :: t, rfl, rfl, by simp [hn, Ne.symm this]⟩
      · exact absurd rfl (h2 _)

theorem reads_rangesOf (t : Str) : Reads t (rangesOf t) := by
  induction t using rangesOf.induct with
  | case1 => exact .nil
  | case2 a b t ih => rw [rangesOf]; exact .range a b ih
  | case3 a t h ih =>
    rw [rangesOf]
    · exact .char a (fun b t' e => h b t' e) ih
    · exact h

theorem Reads.unique {t : Str} {l : List (Nat × Nat)} (h : Reads t l) : l = rangesOf t := by
  induction h with
  | nil => rfl
  | range a b _ ih => rw [rangesOf, ih]
  | char a hn _ ih =>
    rw [rangesOf, ih]
    exact fun b t' e => hn b t' e

theorem listed_iff (t : Str) (d : Nat) :
    Listed t d ↔ ((rangesOf t).any fun ab => ab.1 ≤ d && d ≤ ab.2) = true := by
  simp only [List.any_eq_true, Bool.and_eq_true, decide_eq_true_eq]
  constructor
  · rintro ⟨l, a, b, h, hm, h1, h2⟩
    rw [h.unique] at hm
    exact ⟨(a, b), hm, h1, h2⟩
  · rintro ⟨⟨a, b⟩, hm, h1, h2⟩
    exact ⟨_, a, b, reads_rangesOf t, hm, h1, h2⟩

theorem classOf_not (t : Str) : classOf (33 :: t) =
    if (rangesOf t).any fun ab => ab.2 < ab.1 then .error reError else .ok (.set true (rangesOf t)) := rfl

theorem classOf_plain {t : Str} (h : t.head? ≠ some 33) : classOf t =
    if (rangesOf t).any fun ab => ab.2 < ab.1 then .error reError else .ok (.set false (rangesOf t)) := by
  unfold classOf
  split
  · simp at h
  · rfl

/-- A class is refused exactly if there is a range in it that ends before it begins. -/
theorem classOf_error (b : Str) (e : PyErr) : classOf b = .error e ↔ e = reError ∧ Reversed b := by
  have key : ∀ (neg : Bool) (t : Str), ((if (rangesOf t).any fun ab => ab.2 < ab.1 then .error reError
      else .ok (.set neg (rangesOf t)) : Except PyErr Piece) = .error e) ↔
      e = reError ∧ ∃ l x y, Reads t l ∧ (x, y) ∈ l ∧ y < x := by
    intro neg t
    have h' : ((rangesOf t).any fun ab => ab.2 < ab.1) = true ↔ ∃ l x y, Reads t l ∧ (x, y) ∈ l ∧ y < x := by
      simp only [List.any_eq_true, decide_eq_true_eq]
      constructor
      · rintro ⟨⟨x, y⟩, hm, hl⟩
        exact ⟨_, x, y, reads_rangesOf t, hm, hl⟩
      · rintro ⟨l, x, y, hr, hm, hl⟩
        rw [hr.unique] at hm
        exact ⟨(x, y), hm, hl⟩
    rw [← h']
    split
    · rename_i h
      simp only [Except.error.injEq, h, and_true]
      exact eq_comm
    · rename_i h
      simp only [reduceCtorEq, h, Bool.false_eq_true, and_false]
  unfold Reversed
  by_cases hb : b.head? = some 33
  · obtain ⟨t, rfl⟩ : ∃ t, b = 33 :: t := by
      cases b with
      | nil => cases hb
      | cons c t => simp at hb; exact ⟨t, by rw [hb]⟩
    rw [classOf_not, key]
    refine and_congr_right fun _ => ⟨?_, ?_⟩
    · rintro ⟨l, x, y, h1, h2⟩
      exact ⟨l, x, y, Or.inr ⟨t, rfl, h1⟩, h2⟩
    · rintro ⟨l, x, y, ⟨-, h1⟩ | ⟨t', h1, h1'⟩, h2⟩
      · exact absurd rfl h1
      · cases h1; exact ⟨l, x, y, h1', h2⟩
  · rw [classOf_plain hb, key]
    refine and_congr_right fun _ => ⟨?_, ?_⟩
    · rintro ⟨l, x, y, h1, h2⟩
      exact ⟨l, x, y, Or.inl ⟨h1, hb⟩, h2⟩
    · rintro ⟨l, x, y, ⟨h1, -⟩ | ⟨t', rfl, h1'⟩, h2⟩
      · exact ⟨l, x, y, h1, h2⟩
      · exact absurd rfl hb

/-- Otherwise it takes the characters that the brackets mean. -/
theorem classOf_ok {b : Str} {x : Piece} (h : classOf b = .ok x) :
    x ≠ .star ∧ ∀ d, x.takes d = true ↔ InSet b d := by
  unfold InSet
  by_cases hb : b.head? = some 33
  · obtain ⟨t, rfl⟩ : ∃ t, b = 33 :: t := by
      cases b with
      | nil => cases hb
      | cons c t => simp at hb; exact ⟨t, by rw [hb]⟩
    rw [classOf_not] at h
    split at h
    · cases h
    · cases h
      refine ⟨by simp, fun d => ?_⟩
      rw [Piece.takes, Bool.true_bne, Bool.not_eq_true', ← Bool.not_eq_true, ← listed_iff]
      constructor
      · intro h; exact Or.inl ⟨t, rfl, h⟩
      · rintro (⟨t', h1, h2⟩ | ⟨h1, -⟩)
        · cases h1; exact h2
        · exact absurd rfl h1
  · rw [classOf_plain hb] at h
    split at h
    · cases h
    · cases h
      refine ⟨by simp, fun d => ?_⟩
      rw [Piece.takes, Bool.false_bne, ← listed_iff]
      constructor
      · intro h; exact Or.inr ⟨hb, h⟩
      · rintro (⟨t', rfl, h2⟩ | ⟨-, h2⟩)
        · exact absurd rfl hb
        · exact h2

theorem translateFrom_skip (k : Nat) (p : Str) : translateFrom k p = translateFrom 0 (p.drop k) := by
  induction p generalizing k with
  | nil => cases k <;> simp [translateFrom]
  | cons c p ih =>
    cases k with
    | zero => rfl
    | succ k => rw [translateFrom, ih, List.drop_succ_cons]

theorem closed_iff (p : Str) : Closed p ↔ ∃ r, bracket p = some r := by
  constructor
  · rintro ⟨b, rest, h1, h2⟩
    exact ⟨(b, rest), (bracket_iff p b rest).2 ⟨h2, h1⟩⟩
  · rintro ⟨⟨b, rest⟩, h⟩
    obtain ⟨h1, h2⟩ := (bracket_iff p b rest).1 h
    exact ⟨b, rest, h2, h1⟩

theorem body_unique {b b' p p' : Str} (hb : Body b) (hb' : Body b') (h : b ++ 93 :: p = b' ++ 93 :: p') :
    b = b' ∧ p = p' := by
  have h1 := (bracket_iff (b ++ 93 :: p) b p).2 ⟨rfl, hb⟩
  have h2 := (bracket_iff (b ++ 93 :: p) b' p').2 ⟨h, hb'⟩
  rw [h1] at h2
  cases h2
  exact ⟨rfl, rfl⟩

/-- How a pattern is read: one piece after the other. -/
theorem translate_cases (c : Nat) (p : Str) :
    (c = 42 ∧ translate (c :: p) = (translate p).map (Piece.star :: ·)) ∨
    (c = 63 ∧ translate (c :: p) = (translate p).map (Piece.any :: ·)) ∨
    (∃ b rest, c = 91 ∧ Body b ∧ p = b ++ 93 :: rest ∧ ∃ e, classOf b = .error e ∧ translate (c :: p) = .error e) ∨
    (∃ b rest x, c = 91 ∧ Body b ∧ p = b ++ 93 :: rest ∧ classOf b = .ok x ∧
      translate (c :: p) = (translate rest).map (x :: ·)) ∨
    (c ≠ 42 ∧ c ≠ 63 ∧ (c = 91 → ¬ Closed p) ∧ translate (c :: p) = (translate p).map (Piece.lit c :: ·)) := by
  unfold translate
  rw [translateFrom]
  split
  · rename_i h; exact Or.inl ⟨h, rfl⟩
  rename_i h42
  split
  · rename_i h; exact Or.inr (Or.inl ⟨h, rfl⟩)
  rename_i h63
  split
  · rename_i h91
    cases hb : bracket p with
    | none =>
      refine Or.inr (Or.inr (Or.inr (Or.inr ⟨h42, h63, fun _ hc => ?_, rfl⟩)))
      obtain ⟨r, hr⟩ := (closed_iff p).1 hc
      rw [hb] at hr; cases hr
    | some r =>
      obtain ⟨h1, h2⟩ := (bracket_iff p r.1 r.2).1 hb
      simp only
      cases hx : classOf r.1 with
      | error e => exact Or.inr (Or.inr (Or.inl ⟨r.1, r.2, h91, h2, h1, e, hx, rfl⟩))
      | ok x =>
        refine Or.inr (Or.inr (Or.inr (Or.inl ⟨r.1, r.2, x, h91, h2, h1, hx, ?_⟩)))
        simp only
        rw [translateFrom_skip, h1]
        congr 2
        rw [show r.1.length + 1 = (r.1 ++ [93]).length by simp,
          show r.1 ++ 93 :: r.2 = (r.1 ++ [93]) ++ r.2 by simp, List.drop_left]
  · rename_i h91
    exact Or.inr (Or.inr (Or.inr (Or.inr ⟨h42, h63, fun h => absurd h h91, rfl⟩)))

theorem map_ok {α β : Type} {f : α → β} {x : Except PyErr α} {y : β} (h : x.map f = .ok y) : ∃ a, x = .ok a ∧ y = f a := by
  cases x with
  | error e => cases h
  | ok a => cases h; exact ⟨a, rfl, rfl⟩

theorem map_error {α β : Type} {f : α → β} {x : Except PyErr α} {e : PyErr} : x.map f = .error e ↔ x = .error e := by
  cases x with
  | error e' => simp [Except.map]
  | ok a => simp [Except.map]

/-- A pattern is refused exactly if a range in it ends before it begins. -/
theorem translate_error (p : Str) (e : PyErr) : translate p = .error e ↔ e = reError ∧ Bad p := by
  induction hn : p.length using Nat.strong_induction_on generalizing p with
  | _ n ih =>
  cases p with
  | nil =>
    simp only [translate, translateFrom, reduceCtorEq, false_iff, not_and]
    intro _ h; cases h
  | cons c p =>
    have step : (c = 91 → ¬ Closed p) → (translate p = .error e ↔ e = reError ∧ Bad (c :: p)) := by
      intro hc
      rw [ih p.length (by rw [← hn]; simp) p rfl]
      refine and_congr_right fun _ => ⟨fun h => .after c hc h, fun h => ?_⟩
      generalize hq : c :: p = q at h
      cases h with
      | here b p' h1 h2 => cases hq; exact absurd ⟨b, p', h1, rfl⟩ (hc rfl)
      | afterSet b h1 h2 => cases hq; exact absurd ⟨b, _, h1, rfl⟩ (hc rfl)
      | after c' h1 h2 => cases hq; exact h2
    rcases translate_cases c p with ⟨hc, h⟩ | ⟨hc, h⟩ | ⟨b, rest, hc, h1, h2, e', h3, h⟩ |
      ⟨b, rest, x, hc, h1, h2, h3, h⟩ | ⟨-, -, hc, h⟩
    · rw [h, map_error]; exact step (by omega)
    · rw [h, map_error]; exact step (by omega)
    · subst hc h2
      rw [h]
      obtain ⟨rfl, hr⟩ := (classOf_error b e').1 h3
      constructor
      · intro h; cases h; exact ⟨rfl, .here b rest h1 hr⟩
      · rintro ⟨rfl, -⟩; rfl
    · subst hc h2
      rw [h, map_error, ih rest.length (by rw [← hn]; simp; omega) rest rfl]
      refine and_congr_right fun he => ⟨fun h => .afterSet b h1 h, fun h => ?_⟩
      have hnr : ¬ Reversed b := fun hr => by rw [(classOf_error b e).2 ⟨he, hr⟩] at h3; cases h3
      generalize hq : 91 :: (b ++ 93 :: rest) = q at h
      cases h with
      | here b' p' h1' h2 =>
        simp only [List.cons.injEq, true_and] at hq
        obtain ⟨rfl, -⟩ := body_unique h1 h1' hq
        exact absurd h2 hnr
      | afterSet b' h1' h2 =>
        simp only [List.cons.injEq, true_and] at hq
        obtain ⟨-, rfl⟩ := body_unique h1 h1' hq
        exact h2
      | after c' h1' h2 =>
        simp only [List.cons.injEq] at hq
        obtain ⟨rfl, rfl⟩ := hq
        exact absurd ⟨b, rest, h1, rfl⟩ (h1' rfl)
    · rw [h, map_error]; exact step hc

/-- Otherwise its pieces match what it matches. -/
theorem fnmatch_iff {p : Str} {ps : List Piece} (h : translate p = .ok ps) (s : Str) :
    matchPieces ps s = true ↔ Matches p s := by
  induction hn : p.length using Nat.strong_induction_on generalizing p ps s with
  | _ n ih =>
  cases p with
  | nil =>
    cases h
    rw [matchPieces, List.isEmpty_iff]
    constructor
    · rintro rfl; exact .done
    · intro h; cases h; rfl
  | cons c p =>
    have one : ∀ (x : Piece) (qs : List Piece), x ≠ .star →
        (matchPieces (x :: qs) s = true ↔ ∃ d t, s = d :: t ∧ x.takes d = true ∧ matchPieces qs t = true) := by
      intro x qs hx
      have : matchPieces (x :: qs) s = if x = .star then someTail (matchPieces qs) s
        else match s with
          | [] => false
          | d :: s' => x.takes d && matchPieces qs s' := by cases s <;> rfl
      rw [this, if_neg hx]
      cases s with
      | nil => simp
      | cons d t =>
        simp only [Bool.and_eq_true, List.cons.injEq]
        constructor
        · rintro ⟨h1, h2⟩; exact ⟨d, t, ⟨rfl, rfl⟩, h1, h2⟩
        · rintro ⟨d', t', ⟨rfl, rfl⟩, h1, h2⟩; exact ⟨h1, h2⟩
    rcases translate_cases c p with ⟨hc, h'⟩ | ⟨hc, h'⟩ | ⟨b, rest, hc, h1, h2, e', h3, h'⟩ |
      ⟨b, rest, x, hc, h1, h2, h3, h'⟩ | ⟨c1, c2, hc, h'⟩ <;> rw [h'] at h
    · subst hc
      obtain ⟨qs, hq, rfl⟩ := map_ok h
      have ih := fun s => ih p.length (by rw [← hn]; simp) hq s rfl
      have : matchPieces (.star :: qs) s = someTail (matchPieces qs) s := by cases s <;> rfl
      rw [this, someTail_iff]
      constructor
      · rintro ⟨u, v, rfl, h⟩
        exact .star u ((ih v).1 h)
      · intro h
        cases h with
        | star u h' => exact ⟨u, _, rfl, (ih _).2 h'⟩
        | lit _ h1 _ _ _ => exact absurd rfl h1
    · subst hc
      obtain ⟨qs, hq, rfl⟩ := map_ok h
      have ih := fun s => ih p.length (by rw [← hn]; simp) hq s rfl
      rw [one _ _ (by simp)]
      constructor
      · rintro ⟨d, t, rfl, -, h⟩
        exact .any d ((ih t).1 h)
      · intro h
        cases h with
        | any d h' => exact ⟨d, _, rfl, rfl, (ih _).2 h'⟩
        | lit _ _ h1 _ _ => exact absurd rfl h1
    · cases h
    · subst hc h2
      obtain ⟨qs, hq, rfl⟩ := map_ok h
      have ih := fun s => ih rest.length (by rw [← hn]; simp; omega) hq s rfl
      obtain ⟨hx, ht⟩ := classOf_ok h3
      rw [one _ _ hx]
      constructor
      · rintro ⟨d, t, rfl, hd, h⟩
        exact .set b d h1 ((ht d).1 hd) ((ih t).1 h)
      · intro h
        generalize hq : 91 :: (b ++ 93 :: rest) = q at h
        cases h with
        | done => cases hq
        | star u h' => cases hq
        | any d h' => cases hq
        | set b' d h1' h2 h4 =>
          simp only [List.cons.injEq, true_and] at hq
          obtain ⟨rfl, rfl⟩ := body_unique h1 h1' hq
          exact ⟨d, _, rfl, (ht d).2 h2, (ih _).2 h4⟩
        | lit c' _ _ h2 _ =>
          simp only [List.cons.injEq] at hq
          obtain ⟨rfl, rfl⟩ := hq
          exact absurd ⟨b, rest, h1, rfl⟩ (h2 rfl)
    · obtain ⟨qs, hq, rfl⟩ := map_ok h
      have ih := fun s => ih p.length (by rw [← hn]; simp) hq s rfl
      rw [one _ _ (by simp)]
      constructor
      · rintro ⟨d, t, rfl, hd, h⟩
        obtain rfl : c = d := by simpa [Piece.takes] using hd
        exact .lit c c1 c2 hc ((ih t).1 h)
      · intro h
        generalize hq : c :: p = q at h
        cases h with
        | done => cases hq
        | star u h' => cases hq; exact absurd rfl c1
        | any d h' => cases hq; exact absurd rfl c2
        | set b' d h1' h2 h4 => cases hq; exact absurd ⟨b', _, h1', rfl⟩ (hc rfl)
        | lit c' _ _ h2 h3 => cases hq; exact ⟨c, _, rfl, by simp [Piece.takes], (ih _).2 h3⟩

/-- A special character occurs. -/
def Magic (s : Str) : Prop := 42 ∈ s ∨ 63 ∈ s ∨ 91 ∈ s

theorem hasMagic_iff (s : Str) : hasMagic s = true ↔ Magic s := by
  unfold hasMagic Magic
  simp only [List.any_eq_true, Bool.or_eq_true, beq_iff_eq]
  constructor
  · rintro ⟨x, hx, (rfl | rfl) | rfl⟩
    · exact Or.inl hx
    · exact Or.inr (Or.inl hx)
    · exact Or.inr (Or.inr hx)
  · rintro (h | h | h)
    · exact ⟨_, h, Or.inl (Or.inl rfl)⟩
    · exact ⟨_, h, Or.inl (Or.inr rfl)⟩
    · exact ⟨_, h, Or.inr rfl⟩

/-- A name fits a component of a pattern: it matches, and is not hidden unless the pattern begins with a dot; a component
without special characters is fitted by itself alone. -/
def Fits (pat c : Str) : Prop :=
  (Magic pat → Matches pat c ∧ (c.head? = some 46 → pat.head? = some 46)) ∧ (¬ Magic pat → c = pat)

/-- Paths, component by component. -/
inductive FitsAll : List Str → List Str → Prop
  | nil : FitsAll [] []
  | snoc {ps q : List Str} {p c : Str} : FitsAll ps q → Fits p c → FitsAll (ps ++ [p]) (q ++ [c])

theorem FitsAll.snoc_iff (ps : List Str) (p : Str) (q : List Str) :
    FitsAll (ps ++ [p]) q ↔ ∃ q' c, q = q' ++ [c] ∧ FitsAll ps q' ∧ Fits p c := by
  constructor
  · intro h
    generalize hx : ps ++ [p] = x at h
    cases h with
    | nil => simp at hx
    | snoc h1 h2 =>
      obtain ⟨rfl, h⟩ := List.append_inj' hx rfl
      obtain rfl : p = _ := by simpa using h
      exact ⟨_, _, rfl, h1, h2⟩
  · rintro ⟨q', c, rfl, h1, h2⟩
    exact .snoc h1 h2

theorem FitsAll.nil_iff (q : List Str) : FitsAll [] q ↔ q = [] := by
  constructor
  · intro h
    generalize hx : ([] : List Str) = x at h
    cases h with
    | nil => rfl
    | snoc h1 h2 => simp at hx
  · rintro rfl
    exact .nil

theorem FitsAll.plain {ps : List Str} (h : ∀ p ∈ ps, ¬ Magic p) (q : List Str) : FitsAll ps q ↔ q = ps := by
  induction hn : ps.length generalizing ps q with
  | zero =>
    obtain rfl := List.length_eq_zero_iff.1 hn
    exact FitsAll.nil_iff q
  | succ n ih =>
    rcases List.eq_nil_or_concat ps with rfl | ⟨ps', p, rfl⟩
    · simp at hn
    · rw [List.concat_eq_append] at h hn ⊢
      rw [FitsAll.snoc_iff]
      have ih := fun q => ih (ps := ps') (fun p hp => h p (by simp [hp])) q (by simp at hn; omega)
      constructor
      · rintro ⟨q', c, rfl, h1, h2⟩
        rw [(ih q').1 h1, h2.2 (h p (by simp))]
      · rintro rfl
        exact ⟨ps', p, rfl, (ih _).2 rfl, fun hm => absurd hm (h p (by simp)), fun _ => rfl⟩

theorem glob1_mem {fs : Node} {dir : List Str} {pat : Str} {l : List Str} (hg : glob1 fs dir pat = .ok l) (c : Str)
    (hm : Magic pat) : c ∈ l ↔ Fits pat c ∧ (lookup fs (dir ++ [c])).isSome := by
  have hf : Fits pat c ↔ Matches pat c ∧ (c.head? = some 46 → pat.head? = some 46) :=
    ⟨fun h => h.1 hm, fun h => ⟨fun _ => h, fun h' => absurd hm h'⟩⟩
  rw [hf]
  unfold glob1 listdir at hg
  cases hl : lookup fs dir with
  | none => rw [hl] at hg; cases hg; simp [lookup_append, hl]
  | some m =>
    rw [hl] at hg
    cases m with
    | dir es =>
      simp only [fnfilter] at hg
      cases ht : translate pat with
      | error e => rw [ht] at hg; cases hg
      | ok ps =>
        rw [ht] at hg
        cases hg
        rw [lookup_child hl, ← fnmatch_iff ht]
        have := Dict.has_iff es c
        unfold Dict.has at this
        simp only [List.mem_filter, Bool.or_eq_true, beq_iff_eq, bne_iff_ne, this, Dict.keys]
        constructor
        · rintro ⟨⟨h1, h2⟩, h3⟩
          exact ⟨⟨h3, fun h => h2.resolve_right fun h' => h' h⟩, h1⟩
        · rintro ⟨⟨h3, h2⟩, h1⟩
          refine ⟨⟨h1, ?_⟩, h3⟩
          by_cases hd : c.head? = some 46
          · exact Or.inl (h2 hd)
          · exact Or.inr hd
    | file z => cases hg; simp [lookup_append, hl, lookup]
    | other => cases hg; simp [lookup_append, hl, lookup]

theorem glob1_error (fs : Node) (dir : List Str) (pat : Str) (e : PyErr) :
    glob1 fs dir pat = .error e ↔ e = reError ∧ Bad pat ∧ ∃ es, lookup fs dir = some (.dir es) := by
  rw [← and_assoc, ← translate_error]
  unfold glob1 listdir
  cases hl : lookup fs dir with
  | none => simp
  | some m =>
    cases m with
    | dir es =>
      simp only [fnfilter]
      cases ht : translate pat with
      | error e => simp
      | ok ps => simp
    | file z => simp
    | other => simp

theorem glob0_mem {fs : Node} {dir : List Str} {pat : Str} {l : List Str} (hg : glob0 fs dir pat = .ok l) (c : Str)
    (hm : ¬ Magic pat) : c ∈ l ↔ Fits pat c ∧ (lookup fs (dir ++ [c])).isSome := by
  have hf : Fits pat c ↔ c = pat := ⟨fun h => h.2 hm, fun h => ⟨fun h' => absurd h' hm, fun _ => h⟩⟩
  rw [hf]
  unfold glob0 at hg
  cases hg
  split
  · rename_i h
    simp only [List.mem_singleton]
    exact ⟨fun e => ⟨e, e ▸ h⟩, fun e => e.1⟩
  · rename_i h
    simp only [List.not_mem_nil, false_iff]
    rintro ⟨rfl, h'⟩
    exact h h'

theorem any_magic (l : List Str) : l.any hasMagic = true ↔ ∃ p ∈ l, Magic p := by
  simp only [List.any_eq_true, hasMagic_iff]

theorem gather_ok {α β : Type} {f : α → Except PyErr (List β)} {l : List α} {ys : List β} (h : gather f l = .ok ys) :
    (∀ a ∈ l, ∃ xs, f a = .ok xs) ∧ ∀ y, y ∈ ys ↔ ∃ a ∈ l, ∃ xs, f a = .ok xs ∧ y ∈ xs := by
  induction l generalizing ys with
  | nil => cases h; simp
  | cons a l ih =>
    rw [gather] at h
    cases hf : f a with
    | error e => rw [hf] at h; cases h
    | ok xs =>
      rw [hf] at h
      cases hg : gather f l with
      | error e => rw [hg] at h; cases h
      | ok zs =>
        rw [hg] at h
        cases h
        obtain ⟨h1, h2⟩ := ih hg
        refine ⟨?_, fun y => ?_⟩
        · rintro a' ha'
          rcases List.mem_cons.1 ha' with rfl | ha'
          · exact ⟨xs, hf⟩
          · exact h1 a' ha'
        · rw [List.mem_append, h2]
          constructor
          · rintro (h | ⟨a', ha', xs', h⟩)
            · exact ⟨a, by simp, xs, hf, h⟩
            · exact ⟨a', by simp [ha'], xs', h⟩
          · rintro ⟨a', ha', xs', hx, hy⟩
            rcases List.mem_cons.1 ha' with rfl | ha'
            · rw [hf] at hx; cases hx; exact Or.inl hy
            · exact Or.inr ⟨a', ha', xs', hx, hy⟩

theorem gather_error {α β : Type} {f : α → Except PyErr (List β)} {l : List α} {e : PyErr} (h : gather f l = .error e) :
    ∃ a ∈ l, f a = .error e := by
  induction l with
  | nil => cases h
  | cons a l ih =>
    rw [gather] at h
    cases hf : f a with
    | error e => rw [hf] at h; cases h; exact ⟨a, by simp, hf⟩
    | ok xs =>
      rw [hf] at h
      cases hg : gather f l with
      | error e =>
        rw [hg] at h; cases h
        obtain ⟨a', ha', h⟩ := ih hg
        exact ⟨a', by simp [ha'], h⟩
      | ok zs => rw [hg] at h; cases h

theorem fits_plain {ps : List Str} (h : ps.any hasMagic = false) (q : List Str) : FitsAll ps q ↔ q = ps :=
  FitsAll.plain (fun p hp hm => by
    have := (any_magic ps).2 ⟨p, hp, hm⟩
    rw [h] at this; cases this) q

/-- The directories in which `iglob` looks: those that fit, as far as they are there. -/
theorem dirs_mem {fs : Node} {init : List Str} {dirs : List (List Str)}
    (ih : ∀ l, iglob fs init = .ok l → ∀ q, q ∈ l ↔ FitsAll init.reverse q ∧ (lookup fs q).isSome)
    (h : (if init.any hasMagic then iglob fs init else .ok [init.reverse]) = .ok dirs) (dir : List Str)
    (hs : (lookup fs dir).isSome) : dir ∈ dirs ↔ FitsAll init.reverse dir := by
  split at h
  · rw [ih _ h]
    exact ⟨fun h => h.1, fun h => ⟨h, hs⟩⟩
  · rename_i hno
    cases h
    rw [fits_plain (by simpa using hno)]
    simp

theorem isSome_of_child {fs : Node} {dir : List Str} {c : Str} (hs : (lookup fs (dir ++ [c])).isSome) :
    (lookup fs dir).isSome := by
  cases hl : lookup fs dir with
  | none => rw [lookup_prefix (List.prefix_append dir [c]) hl] at hs; cases hs
  | some m => rfl

theorem iglob_mem {fs : Node} {r : List Str} {l : List (List Str)} (h : iglob fs r = .ok l) (q : List Str) :
    q ∈ l ↔ FitsAll r.reverse q ∧ (lookup fs q).isSome := by
  induction r generalizing l q with
  | nil =>
    cases h
    simp only [List.mem_singleton, List.reverse_nil, FitsAll.nil_iff]
    exact ⟨fun h => ⟨h, by rw [h, lookup_nil]; rfl⟩, fun h => h.1⟩
  | cons last init ih =>
    rw [iglob] at h
    by_cases hany : (last :: init).any hasMagic = true
    · simp only [hany, Bool.not_true, Bool.false_eq_true, if_false] at h
      split at h
      · cases h
      rename_i dirs hdirs
      obtain ⟨h1, h2⟩ := gather_ok h
      have hname : ∀ dir ∈ dirs, ∃ names,
          (if hasMagic last then glob1 fs dir last else glob0 fs dir last) = .ok names ∧
          ∀ c, c ∈ names ↔ Fits last c ∧ (lookup fs (dir ++ [c])).isSome := by
        intro dir hd
        obtain ⟨xs, hx⟩ := h1 dir hd
        obtain ⟨names, hn, -⟩ := map_ok hx
        refine ⟨names, hn, fun c => ?_⟩
        split at hn
        · rename_i h; exact glob1_mem hn c ((hasMagic_iff last).1 h)
        · rename_i h; exact glob0_mem hn c fun h' => h ((hasMagic_iff last).2 h')
      rw [h2, List.reverse_cons, FitsAll.snoc_iff]
      constructor
      · rintro ⟨dir, hd, xs, hx, hq⟩
        obtain ⟨names, hn, hmem⟩ := hname dir hd
        rw [hn] at hx
        cases hx
        obtain ⟨c, hc, rfl⟩ := List.mem_map.1 hq
        obtain ⟨h3, h4⟩ := (hmem c).1 hc
        exact ⟨⟨dir, c, rfl, (dirs_mem (fun l h q => ih h q) hdirs dir (isSome_of_child h4)).1 hd, h3⟩, h4⟩
      · rintro ⟨⟨dir, c, rfl, h3, h4⟩, h5⟩
        have hd := (dirs_mem (fun l h q => ih h q) hdirs dir (isSome_of_child h5)).2 h3
        obtain ⟨names, hn, hmem⟩ := hname dir hd
        exact ⟨dir, hd, _, by rw [hn]; rfl, List.mem_map.2 ⟨c, (hmem c).2 ⟨h4, h5⟩, rfl⟩⟩
    · have hno : ((last :: init).reverse).any hasMagic = false := by
        rw [List.any_reverse]; simpa using hany
      rw [fits_plain hno]
      simp only [Bool.eq_false_iff.2 hany, Bool.not_false, if_true] at h
      cases h
      split
      · rename_i h
        simp only [List.mem_singleton]
        exact ⟨fun e => ⟨e, e ▸ h⟩, fun e => e.1⟩
      · rename_i h
        simp only [List.not_mem_nil, false_iff]
        rintro ⟨rfl, h'⟩
        exact h h'

/-- A component of the pattern is bad, none before it is, and a directory fits those before it. -/
def ReachesBad (fs : Node) (pattern : List Str) : Prop :=
  ∃ pre pat post names es, pattern = pre ++ pat :: post ∧ Bad pat ∧ (∀ c ∈ pre, ¬ Bad c) ∧ FitsAll pre names ∧
    lookup fs names = some (.dir es)

theorem Bad.magic {p : Str} (h : Bad p) : Magic p := by
  induction h with
  | here b p _ _ => exact Or.inr (Or.inr (by simp))
  | afterSet b _ _ _ => exact Or.inr (Or.inr (by simp))
  | after c _ _ ih =>
    rcases ih with h | h | h
    · exact Or.inl (by simp [h])
    · exact Or.inr (Or.inl (by simp [h]))
    · exact Or.inr (Or.inr (by simp [h]))

theorem FitsAll.split {ps q : List Str} (h : FitsAll ps q) {pre post : List Str} {c : Str} (e : ps = pre ++ c :: post) :
    ∃ n1 x n2, q = n1 ++ x :: n2 ∧ FitsAll pre n1 := by
  induction h generalizing post with
  | nil => simp at e
  | @snoc ps q p x h1 h2 ih =>
    rcases List.eq_nil_or_concat post with rfl | ⟨post', y, rfl⟩
    · obtain ⟨rfl, -⟩ := List.append_inj' e rfl
      exact ⟨q, x, [], rfl, h1⟩
    · rw [List.concat_eq_append] at e
      obtain ⟨e', -⟩ := List.append_inj' (s₁ := ps) (s₂ := pre ++ c :: post') (t₁ := [p]) (t₂ := [y]) (by rw [e]; simp) rfl
      obtain ⟨n1, z, n2, rfl, h3⟩ := ih e'
      exact ⟨n1, z, n2 ++ [x], by simp, h3⟩

theorem dir_of_below {fs : Node} {n1 n2 : List Str} {x : Str} (h : (lookup fs (n1 ++ x :: n2)).isSome) :
    ∃ es, lookup fs n1 = some (.dir es) := by
  rw [lookup_append] at h
  cases hl : lookup fs n1 with
  | none => rw [hl] at h; cases h
  | some m =>
    rw [hl] at h
    cases m with
    | dir es => exact ⟨es, rfl⟩
    | file z => simp [lookup] at h
    | other => simp [lookup] at h

theorem first_bad (l : List Str) : (∀ c ∈ l, ¬ Bad c) ∨ ∃ pre c post, l = pre ++ c :: post ∧ Bad c ∧ ∀ c ∈ pre, ¬ Bad c := by
  induction l with
  | nil => left; simp
  | cons a l ih =>
    by_cases ha : Bad a
    · exact Or.inr ⟨[], a, l, rfl, ha, by simp⟩
    · rcases ih with h | ⟨pre, c, post, rfl, h1, h2⟩
      · left
        intro c hc
        rcases List.mem_cons.1 hc with rfl | hc
        · exact ha
        · exact h c hc
      · right
        refine ⟨a :: pre, c, post, rfl, h1, fun c hc => ?_⟩
        rcases List.mem_cons.1 hc with rfl | hc
        · exact ha
        · exact h2 c hc

theorem reachesBad_snoc (fs : Node) (ps : List Str) (p : Str) :
    ReachesBad fs (ps ++ [p]) ↔ ReachesBad fs ps ∨
      Bad p ∧ ∃ names es, FitsAll ps names ∧ lookup fs names = some (.dir es) := by
  constructor
  · rintro ⟨pre, pat, post, names, es, e, h1, h2, h3, h4⟩
    rcases List.eq_nil_or_concat post with rfl | ⟨post', y, rfl⟩
    · obtain ⟨rfl, h⟩ := List.append_inj' e rfl
      cases h
      exact Or.inr ⟨h1, names, es, h3, h4⟩
    · rw [List.concat_eq_append] at e
      obtain ⟨rfl, -⟩ := List.append_inj' (s₁ := ps) (s₂ := pre ++ pat :: post') (t₁ := [p]) (t₂ := [y]) (by rw [e]; simp) rfl
      exact Or.inl ⟨pre, pat, post', names, es, rfl, h1, h2, h3, h4⟩
  · rintro (⟨pre, pat, post, names, es, rfl, h⟩ | ⟨h1, names, es, h2, h3⟩)
    · exact ⟨pre, pat, post ++ [p], names, es, by simp, h⟩
    · rcases first_bad ps with h | ⟨pre, c, post, rfl, hc, hpre⟩
      · exact ⟨ps, p, [], names, es, rfl, h1, h, h2, h3⟩
      · obtain ⟨n1, x, n2, rfl, hf⟩ := h2.split rfl
        obtain ⟨es', hd⟩ := dir_of_below (by rw [h3]; rfl)
        exact ⟨pre, c, post ++ [p], n1, es', by simp, hc, hpre, hf, hd⟩

theorem ReachesBad.magic {fs : Node} {ps : List Str} (h : ReachesBad fs ps) : ps.any hasMagic = true := by
  obtain ⟨pre, pat, post, names, es, rfl, h1, -⟩ := h
  exact (any_magic _).2 ⟨pat, by simp, h1.magic⟩

theorem iglob_error (fs : Node) (r : List Str) (e : PyErr) :
    iglob fs r = .error e ↔ e = reError ∧ ReachesBad fs r.reverse := by
  induction r generalizing e with
  | nil =>
    simp only [iglob, reduceCtorEq, false_iff, not_and]
    rintro - ⟨pre, pat, post, names, es, h, -⟩
    simp at h
  | cons last init ih =>
    rw [iglob]
    by_cases hany : (last :: init).any hasMagic = true
    · simp only [hany, Bool.not_true, Bool.false_eq_true, if_false]
      rw [List.reverse_cons, reachesBad_snoc]
      have hinit : ∀ e', (if init.any hasMagic then iglob fs init else .ok [init.reverse]) = .error e' ↔
          e' = reError ∧ ReachesBad fs init.reverse := by
        intro e'
        split
        · exact ih e'
        · rename_i hno
          simp only [reduceCtorEq, false_iff, not_and]
          intro _ h
          exact hno (by have := h.magic; rwa [List.any_reverse] at this)
      split
      · rename_i e' he'
        obtain ⟨rfl, h⟩ := (hinit e').1 he'
        simp only [Except.error.injEq, h, true_or, and_true]
        exact eq_comm
      · rename_i dirs hdirs
        have hnot : ¬ ReachesBad fs init.reverse := fun h => by
          rw [(hinit reError).2 ⟨rfl, h⟩] at hdirs; cases hdirs
        have hone : ∀ dir e', ((if hasMagic last then glob1 fs dir last else glob0 fs dir last).map
            fun names => names.map fun name => dir ++ [name]) = .error e' ↔
            e' = reError ∧ Bad last ∧ ∃ es, lookup fs dir = some (.dir es) := by
          intro dir e'
          rw [map_error]
          split
          · exact glob1_error fs dir last e'
          · rename_i hno
            simp only [glob0, reduceCtorEq, false_iff, not_and]
            intro _ h
            exact absurd ((hasMagic_iff last).2 h.magic) hno
        have hmem := dirs_mem (fun l h q => iglob_mem h q) hdirs
        constructor
        · intro h
          obtain ⟨dir, hd, hx⟩ := gather_error h
          obtain ⟨h1, h2, es, h3⟩ := (hone dir e).1 hx
          exact ⟨h1, Or.inr ⟨h2, dir, es, (hmem dir (by rw [h3]; rfl)).1 hd, h3⟩⟩
        · rintro ⟨rfl, h | ⟨h1, dir, es, h2, h3⟩⟩
          · exact absurd h hnot
          · have hd := (hmem dir (by rw [h3]; rfl)).2 h2
            have hx := (hone dir reError).2 ⟨rfl, h1, es, h3⟩
            generalize hg : gather _ dirs = g
            cases g with
            | ok l =>
              obtain ⟨xs, hxs⟩ := (gather_ok hg).1 dir hd
              rw [hx] at hxs; cases hxs
            | error e =>
              obtain ⟨dir', -, hx'⟩ := gather_error hg
              rw [((hone dir' e).1 hx').1]
    · simp only [Bool.eq_false_iff.2 hany, Bool.not_false, if_true, reduceCtorEq, false_iff, not_and]
      intro _ h
      exact hany (by have := h.magic; rwa [List.any_reverse] at this)

theorem fitsAll_append {ps : List Str} (h : ∀ p ∈ ps, ¬ Magic p) (pats q : List Str) :
    FitsAll (ps ++ pats) q ↔ ∃ names, q = ps ++ names ∧ FitsAll pats names := by
  induction hn : pats.length generalizing pats q with
  | zero =>
    obtain rfl := List.length_eq_zero_iff.1 hn
    rw [List.append_nil, FitsAll.plain h]
    constructor
    · rintro rfl
      exact ⟨[], by simp, .nil⟩
    · rintro ⟨names, rfl, hf⟩
      rw [FitsAll.nil_iff] at hf
      simp [hf]
  | succ n ih =>
    rcases List.eq_nil_or_concat pats with rfl | ⟨pats', p, rfl⟩
    · simp at hn
    · rw [List.concat_eq_append] at hn ⊢
      rw [← List.append_assoc, FitsAll.snoc_iff]
      have ih := fun q => ih pats' q (by simp at hn; omega)
      constructor
      · rintro ⟨q', c, rfl, h1, h2⟩
        obtain ⟨names, rfl, h3⟩ := (ih q').1 h1
        exact ⟨names ++ [c], by simp, .snoc h3 h2⟩
      · rintro ⟨names, rfl, hf⟩
        rw [FitsAll.snoc_iff] at hf
        obtain ⟨names', c, rfl, h1, h2⟩ := hf
        exact ⟨ps ++ names', c, by simp, (ih _).2 ⟨names', rfl, h1⟩, h2⟩

/-- **C107.** Whatever is in the path, `globChildren` gives the paths at which there is something and whose components fit
those of the path and of the pattern. -/
theorem glob_all {fs : Node} {p pattern : List Str} {l : List (List Str)} (h : globChildren fs p pattern = .ok l)
    (q : List Str) : q ∈ l ↔ FitsAll (p ++ pattern) q ∧ (lookup fs q).isSome := by
  rw [iglob_mem h, List.reverse_reverse]

/-- **C107.** It raises `re.error`, and nothing else, exactly if it comes to a range that ends before it begins: a directory
fits what is before. -/
theorem glob_raises (fs : Node) (p pattern : List Str) (e : PyErr) :
    globChildren fs p pattern = .error e ↔ e = reError ∧ ReachesBad fs (p ++ pattern) := by
  unfold globChildren
  rw [iglob_error, List.reverse_reverse]

/-- **C107.** If there is no special character in the path itself, `globChildren` gives exactly the paths below it at which
there is something and whose components fit those of the pattern. -/
theorem glob_iff_partial {fs : Node} {p : List Str} (hp : ∀ c ∈ p, ¬ Magic c) {pattern : List Str} {l : List (List Str)}
    (h : globChildren fs p pattern = .ok l) (q : List Str) :
    q ∈ l ↔ ∃ names, q = p ++ names ∧ FitsAll pattern names ∧ (lookup fs q).isSome := by
  rw [glob_all h, fitsAll_append hp]
  constructor
  · rintro ⟨⟨names, h1, h2⟩, h3⟩
    exact ⟨names, h1, h2, h3⟩
  · rintro ⟨names, h1, h2, h3⟩
    exact ⟨⟨names, h1, h2⟩, h3⟩

/-- **C107.** Without such a range, in particular without brackets, it does not raise. -/
theorem glob_ok (fs : Node) (p pattern : List Str) (h : ∀ c ∈ p ++ pattern, ¬ Bad c) :
    ∃ l, globChildren fs p pattern = .ok l := by
  cases hg : globChildren fs p pattern with
  | ok l => exact ⟨l, rfl⟩
  | error e =>
    obtain ⟨-, pre, pat, post, _, _, hx, hb, -⟩ := (glob_raises fs p pattern e).1 hg
    exact absurd hb (h pat (by rw [hx]; simp))

theorem not_bad {p : Str} (h : 91 ∉ p) : ¬ Bad p := by
  intro hb
  induction hb with
  | here b p _ _ => simp at h
  | afterSet b _ _ _ => simp at h
  | after c _ _ ih => exact ih fun h' => h (by simp [h'])

theorem gather_nodup {α β : Type} {f : α → Except PyErr (List β)} {l : List α} {ys : List β} (h : gather f l = .ok ys)
    (hl : l.Nodup) (h1 : ∀ a ∈ l, ∀ xs, f a = .ok xs → xs.Nodup)
    (h2 : ∀ a b xs zs y, f a = .ok xs → f b = .ok zs → y ∈ xs → y ∈ zs → a = b) : ys.Nodup := by
  induction l generalizing ys with
  | nil => cases h; simp
  | cons a l ih =>
    have h0 := h
    rw [gather] at h
    cases hf : f a with
    | error e => rw [hf] at h; cases h
    | ok xs =>
      rw [hf] at h
      cases hg : gather f l with
      | error e => rw [hg] at h; cases h
      | ok zs =>
        rw [hg] at h
        cases h
        obtain ⟨hn, hl'⟩ := List.nodup_cons.1 hl
        refine List.nodup_append.2 ⟨h1 a (by simp) xs hf, ih hg hl' fun b hb => h1 b (by simp [hb]), ?_⟩
        intro y hy z hz e
        subst e
        obtain ⟨b, hb, ws, hw, hyw⟩ := ((gather_ok hg).2 y).1 hz
        exact hn (h2 a b xs ws y hf hw hy hyw ▸ hb)

theorem iglob_nodup {fs : Node} (hg : Good fs) {r : List Str} {l : List (List Str)} (h : iglob fs r = .ok l) :
    l.Nodup := by
  induction r generalizing l with
  | nil => cases h; simp
  | cons last init ih =>
    rw [iglob] at h
    split at h
    · cases h; split <;> simp
    · split at h
      · cases h
      rename_i dirs hdirs
      have hd : dirs.Nodup := by
        split at hdirs
        · exact ih hdirs
        · cases hdirs; simp
      have hn : ∀ dir names, (if hasMagic last then glob1 fs dir last else glob0 fs dir last) = .ok names →
          names.Nodup := by
        intro dir names hx
        split at hx
        · unfold glob1 listdir at hx
          cases hl : lookup fs dir with
          | none => rw [hl] at hx; cases hx; simp
          | some m =>
            rw [hl] at hx
            cases m with
            | dir es =>
              simp only [fnfilter] at hx
              split at hx
              · cases hx
              · cases hx
                have : (es.map Prod.fst).Nodup := (hg.lookup hl).names
                exact (this.filter _).filter _
            | file z => cases hx; simp
            | other => cases hx; simp
        · unfold glob0 at hx
          cases hx
          split <;> simp
      refine gather_nodup h hd ?_ ?_
      · intro dir _ xs hx
        obtain ⟨names, hnames, rfl⟩ := map_ok hx
        unfold List.Nodup
        rw [List.pairwise_map]
        exact (hn dir names hnames).imp fun h e => h (by simpa using e)
      · intro a b xs zs y hx hz hy hy'
        obtain ⟨_, _, rfl⟩ := map_ok hx
        obtain ⟨_, _, rfl⟩ := map_ok hz
        obtain ⟨c, -, rfl⟩ := List.mem_map.1 hy
        obtain ⟨d, -, e⟩ := List.mem_map.1 hy'
        exact (List.append_inj' e rfl).1.symm

/-- **C107.** No path is given twice. -/
theorem glob_once {fs : Node} (hg : Good fs) {p pattern : List Str} {l : List (List Str)}
    (h : globChildren fs p pattern = .ok l) : l.Nodup := iglob_nodup hg h

/-- **C107.** `globChildren('*')` gives the children that are not hidden. -/
theorem glob_star_partial (fs : Node) (p : List Str) (hp : ∀ c ∈ p, ¬ Magic c) :
    ∃ l, globChildren fs p [[42]] = .ok l ∧
      ∀ q, q ∈ l ↔ ∃ c, q = p ++ [c] ∧ c.head? ≠ some 46 ∧ (lookup fs q).isSome := by
  have hstar : ∀ c, Fits [42] c ↔ c.head? ≠ some 46 := by
    intro c
    have hm : Magic [42] := Or.inl (by simp)
    have hall : Matches [42] c := by simpa using Matches.star c Matches.done
    constructor
    · intro h h'
      exact absurd ((h.1 hm).2 h') (by simp)
    · intro h
      exact ⟨fun _ => ⟨hall, fun h' => absurd h' h⟩, fun h' => absurd hm h'⟩
  obtain ⟨l, hl⟩ := glob_ok fs p [[42]] (by
    intro c hc
    rcases List.mem_append.1 hc with hc | hc
    · exact fun hb => hp c hc hb.magic
    · rw [List.mem_singleton.1 hc]; exact not_bad (by simp))
  refine ⟨l, hl, fun q => ?_⟩
  rw [glob_iff_partial hp hl]
  constructor
  · rintro ⟨names, rfl, hf, hs⟩
    rw [show [[42]] = [] ++ [([42] : Str)] from rfl, FitsAll.snoc_iff] at hf
    obtain ⟨q', c, rfl, h1, h2⟩ := hf
    obtain rfl := (FitsAll.nil_iff q').1 h1
    exact ⟨c, rfl, (hstar c).1 h2, hs⟩
  · rintro ⟨c, rfl, h, hs⟩
    exact ⟨[c], rfl, FitsAll.snoc (ps := []) .nil ((hstar c).2 h), hs⟩

/-- A directory `a*` without a file `x` in it, beside a directory `ab` with one. -/
def starTree : Node := .dir [([97, 42], .dir []), ([97, 98], .dir [([120], .file [])])]

/-- **C107 is false of paths with special characters in them**: `globChildren` of the directory `a*` gives files of the
directory `ab`. -/
theorem glob_escapes_fails :
    globChildren starTree [[97, 42]] [[120]] = .ok [[[97, 98], [120]]] ∧ children starTree [[97, 42]] = .ok [] := by
  decide +kernel

/-! ## Examples -/

/-- `/t` with `a.py`, `.b.py`, `c.txt` and a directory `d` with `e.py`. -/
def globTree : Node := .dir [([116], .dir [([97, 46, 112, 121], .file []), ([46, 98, 46, 112, 121], .file []),
  ([99, 46, 116, 120, 116], .file []), ([100], .dir [([101, 46, 112, 121], .file [])])])]

/-- `FilePath('/t').globChildren('*.py')` and `globChildren('?/*.py')` -/
example : globChildren globTree [[116]] [[42, 46, 112, 121]] = .ok [[[116], [97, 46, 112, 121]]] ∧
    globChildren globTree [[116]] [[63], [42, 46, 112, 121]] = .ok [[[116], [100], [101, 46, 112, 121]]] := by
  decide +kernel

/-- `globChildren('[!b-z]*')`, `globChildren('[c]*[]t]')` and `globChildren('[c')`: everything else but `b` to `z`; a `]` in
front; a bracket that is not closed. -/
example : globChildren globTree [[116]] [[91, 33, 98, 45, 122, 93, 42]] = .ok [[[116], [97, 46, 112, 121]]] ∧
    globChildren globTree [[116]] [[91, 99, 93, 42, 91, 93, 116, 93]] = .ok [[[116], [99, 46, 116, 120, 116]]] ∧
    globChildren globTree [[116]] [[91, 99]] = .ok [] := by
  decide +kernel

/-- `globChildren('[z-a]')` raises; `globChildren('x/[z-a]')` does not, because there is no directory `x`. -/
example : globChildren globTree [[116]] [[91, 122, 45, 97, 93]] = .error reError ∧
    globChildren globTree [[116]] [[120], [91, 122, 45, 97, 93]] = .ok [] ∧
    ReachesBad globTree ([[116]] ++ [[91, 122, 45, 97, 93]]) := by
  have h : globChildren globTree [[116]] [[91, 122, 45, 97, 93]] = .error reError := by decide +kernel
  exact ⟨h, by decide +kernel, ((glob_raises _ _ _ _).1 h).2⟩

/-- `[!]a-c-]` means every character but `]`, `a`, `b`, `c` and `-`. -/
example (d : Nat) : InSet [33, 93, 97, 45, 99, 45] d ↔ d ≠ 93 ∧ d ≠ 97 ∧ d ≠ 98 ∧ d ≠ 99 ∧ d ≠ 45 := by
  rw [← (classOf_ok (b := [33, 93, 97, 45, 99, 45]) (x := .set true [(93, 93), (97, 99), (45, 45)]) (by decide +kernel)).2 d]
  simp [Piece.takes]
  omega

/-- `FilePath('/t/x/y').makedirs()` -/
example : WayIsFree globTree [[116], [120], [121]] ∧ lookup globTree [[116], [120], [121]] = none := by
  refine ⟨?_, by rfl⟩
  intro q hq m hm
  rw [show [[116], [120], [121]] = (([] ++ [([116] : Str)]) ++ [[120]]) ++ [[121]] from rfl] at hq
  rcases prefix_snoc hq with rfl | hq
  · cases hm
  rcases prefix_snoc hq with rfl | hq
  · cases hm
  rcases prefix_snoc hq with rfl | hq
  · cases hm; exact ⟨_, rfl⟩
  · obtain rfl := List.prefix_nil.1 hq
    cases hm
    exact ⟨_, rfl⟩

end Verif.FilePath
