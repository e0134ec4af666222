import Verif.Model.FilePathCreate
import Verif.Props.FilePath
import Verif.Props.FilePathOps
/-!
# C90: a `FilePath` with `alwaysCreate` opens only what it has itself created
-/
namespace Verif.FilePath
open Verif.Py Verif.Py.Path

/-! ## Putting something below a directory -/

theorem put_above {n : Node} {q : List Str} {c : Str} {t : List Str} {x n' : Node} {es : Dict Str Node}
    (h : put n (q ++ c :: t) x = some n') (hl : lookup n q = some (.dir es)) :
    ∃ k, lookup n' q = some (.dir (Dict.set es c k)) := by
  induction q generalizing n n' with
  | nil =>
    rw [lookup_nil] at hl
    cases hl
    cases t with
    | nil => rw [List.nil_append, put_one] at h; cases h; exact ⟨_, lookup_nil _⟩
    | cons d t =>
      rw [List.nil_append, put_cons] at h
      cases hg : Dict.get? es c with
      | none => rw [hg] at h; cases h
      | some m =>
        rw [hg, Option.bind_some] at h
        cases hp : put m (d :: t) x with
        | none => rw [hp] at h; cases h
        | some m' => rw [hp] at h; cases h; exact ⟨_, lookup_nil _⟩
  | cons a q ih =>
    cases n with
    | file z => cases hl
    | other => cases hl
    | dir es0 =>
      obtain ⟨d, u, hu⟩ : ∃ d u, q ++ c :: t = d :: u := by cases q <;> exact ⟨_, _, rfl⟩
      rw [List.cons_append, hu, put_cons] at h
      rw [lookup_dir] at hl
      cases hg : Dict.get? es0 a with
      | none => rw [hg] at h; cases h
      | some m =>
        rw [hg, Option.bind_some] at h hl
        cases hp : put m (d :: u) x with
        | none => rw [hp] at h; cases h
        | some m' =>
          rw [hp] at h
          cases h
          rw [lookup_dir, Dict.get?_set_same, Option.bind_some]
          exact ih (hu ▸ hp) hl

theorem proper {α : Type} {q p : List α} (h : q <+: p) (hn : ¬ p <+: q) : ∃ c t, p = q ++ c :: t := by
  obtain ⟨t, rfl⟩ := h
  cases t with
  | nil => exact absurd (by simp) hn
  | cons c t => exact ⟨c, t, rfl⟩

/-- What can be put at a place where nothing is: there is a directory to hold it. -/
theorem put_dir {n : Node} {p : List Str} {c : Str} {x n' : Node} (h : put n (p ++ [c]) x = some n') :
    ∃ es, lookup n p = some (.dir es) := by
  induction p generalizing n n' with
  | nil =>
    cases n with
    | file z => cases h
    | other => cases h
    | dir es => exact ⟨es, lookup_nil _⟩
  | cons a p ih =>
    cases n with
    | file z => simp [put] at h
    | other => simp [put] at h
    | dir es0 =>
      obtain ⟨d, u, hu⟩ : ∃ d u, p ++ [c] = d :: u := by cases p <;> exact ⟨_, _, rfl⟩
      rw [List.cons_append, hu, put_cons] at h
      cases hg : Dict.get? es0 a with
      | none => rw [hg] at h; cases h
      | some m =>
        rw [hg, Option.bind_some] at h
        cases hp : put m (d :: u) x with
        | none => rw [hp] at h; cases h
        | some m' =>
          obtain ⟨es, he⟩ := ih (hu ▸ hp)
          exact ⟨es, by rw [lookup_dir, hg, Option.bind_some, he]⟩

/-! ## What was there stays there -/

/-- Everything that is there is there afterwards: files with the same contents, special files, directories as directories. -/
def Kept (fs fs' : Node) : Prop :=
  ∀ q, (∀ x, lookup fs q = some (.file x) → lookup fs' q = some (.file x)) ∧
    (∀ es, lookup fs q = some (.dir es) → ∃ es', lookup fs' q = some (.dir es')) ∧
    (lookup fs q = some .other → lookup fs' q = some .other)

theorem Kept.refl (fs : Node) : Kept fs fs := fun _ => ⟨fun _ h => h, fun _ h => ⟨_, h⟩, fun h => h⟩

/-- A file or something special has nothing below it. -/
theorem leaf_above {n : Node} {q : List Str} {c : Str} {t : List Str} {x n' m : Node} (h : put n (q ++ c :: t) x = some n')
    (hm : lookup n q = some m) : ∃ es, m = .dir es := by
  have : ∃ es, lookup n (q ++ (c :: t).dropLast) = some (.dir es) := by
    have e : q ++ c :: t = (q ++ (c :: t).dropLast) ++ [(c :: t).getLast (by simp)] := by
      rw [List.append_assoc, List.dropLast_append_getLast]
    rw [e] at h
    exact put_dir h
  obtain ⟨es, he⟩ := this
  rw [lookup_append, hm, Option.bind_some] at he
  cases m with
  | dir es => exact ⟨es, rfl⟩
  | file z =>
    cases hl : (c :: t).dropLast with
    | nil => rw [hl, lookup_nil] at he; cases he
    | cons a l => rw [hl] at he; cases he
  | other =>
    cases hl : (c :: t).dropLast with
    | nil => rw [hl, lookup_nil] at he; cases he
    | cons a l => rw [hl] at he; cases he

/-- Putting something where nothing is keeps everything. -/
theorem put_kept {fs fs' : Node} {p : List Str} {x : Node} (h : put fs p x = some fs') (hn : lookup fs p = none) :
    Kept fs fs' := by
  intro q
  by_cases hpq : p <+: q
  · rw [lookup_prefix hpq hn]
    exact ⟨(fun _ e => by cases e), (fun _ e => by cases e), (fun e => by cases e)⟩
  by_cases hqp : q <+: p
  · obtain ⟨c, t, rfl⟩ := proper hqp hpq
    refine ⟨fun y e => ?_, fun es e => ?_, fun e => ?_⟩
    · obtain ⟨es, he⟩ := leaf_above h e; cases he
    · obtain ⟨k, hk⟩ := put_above h e; exact ⟨_, hk⟩
    · obtain ⟨es, he⟩ := leaf_above h e; cases he
  · rw [put_other h hpq hqp]
    exact ⟨fun _ e => e, fun _ e => ⟨_, e⟩, fun e => e⟩

/-! ## C90 -/

/-- **C90**, what `create` does when it succeeds: nothing was at the path, an empty file is there now, everything else that
was there still is, and nothing appeared anywhere else. -/
theorem create_ok {fs fs' : Node} {p : List Str} (h : create fs p = .ok fs') :
    lookup fs p = none ∧ lookup fs' p = some (.file []) ∧ Kept fs fs' ∧
      ∀ q, ¬ q <+: p → ¬ p <+: q → lookup fs' q = lookup fs q := by
  unfold create at h
  split at h
  · cases h
  · rename_i hn
    split at h
    · rename_i hp
      cases h
      exact ⟨hn, put_get hp, put_kept hp hn, fun q a b => put_other hp b a⟩
    · cases h

/-- In the directory itself there is then the new name, and what else was there. -/
theorem create_entry {fs fs' : Node} {dir : List Str} {name : Str} (h : create fs (dir ++ [name]) = .ok fs') :
    ∃ es, lookup fs dir = some (.dir es) ∧ lookup fs' dir = some (.dir (es ++ [(name, .file [])])) := by
  obtain ⟨hn, hc, -, -⟩ := create_ok h
  unfold create at h
  rw [hn] at h
  cases hp : put fs (dir ++ [name]) (.file []) with
  | none => rw [hp] at h; cases h
  | some fs1 =>
    rw [hp] at h
    cases h
    obtain ⟨es, he⟩ := put_dir hp
    obtain ⟨k, hk⟩ := put_above hp he
    refine ⟨es, he, ?_⟩
    rw [lookup_child hk, Dict.get?_set_same] at hc
    cases hc
    rw [lookup_child he] at hn
    rw [hk, Dict.set_of_not_mem _ ((Dict.get?_eq_none_iff _ _).mp hn)]

/-- **C90**, when `create` succeeds: exactly if nothing is at the path and there is a directory to hold it. -/
theorem create_iff (fs : Node) (dir : List Str) (name : Str) :
    (∃ fs', create fs (dir ++ [name]) = .ok fs') ↔
      (∃ es, lookup fs dir = some (.dir es)) ∧ lookup fs (dir ++ [name]) = none := by
  constructor
  · rintro ⟨fs', h⟩
    obtain ⟨es, he, -⟩ := create_entry h
    exact ⟨⟨es, he⟩, (create_ok h).1⟩
  · rintro ⟨⟨es, he⟩, hn⟩
    obtain ⟨fs', h⟩ := put_into he name (.file [])
    exact ⟨fs', by simp only [create, hn, h]⟩

/-- **C90**, `open` with `alwaysCreate`: for reading and for writing it is `create`; for appending it is refused. -/
theorem open_always (fs : Node) (p : FP) (h : p.alwaysCreate = true) (mode : Mode) :
    openM fs p mode = if mode = .a then .error .assertionError else create fs p.path := by
  simp only [openM, h, if_true]

/-- **C90**: whatever the mode, `open` with `alwaysCreate` never opens what is there, and never changes it. -/
theorem open_kept (fs fs' : Node) (p : FP) (h : p.alwaysCreate = true) (mode : Mode) (ho : openM fs p mode = .ok fs') :
    lookup fs p.path = none ∧ lookup fs' p.path = some (.file []) ∧ Kept fs fs' := by
  rw [open_always fs p h mode] at ho
  split at ho
  · cases ho
  · obtain ⟨a, b, c, -⟩ := create_ok ho
    exact ⟨a, b, c⟩

/-- **C90**, `copyTo` to a path with `alwaysCreate` from a file: nothing that was there changes; and if no error is raised,
nothing was at the destination and the contents of the source are there now.
Missing: a source that is a directory (`copyTo_directory_fails`), a source with `alwaysCreate` (`copyTo_source_fails`). -/
theorem copyTo_always_partial (chunk fuel : Nat) (hchunk : 0 < chunk) (fs : Node) (src : List Str) (dst : FP) (content : List Nat)
    (hs : lookup fs src = some (.file content)) (hd : dst.alwaysCreate = true) (hf : content.length < fuel) :
    ∃ fs' e, copyToF chunk fuel fs ⟨src, false⟩ dst = some (fs', e) ∧ Kept fs fs' ∧
      (e = none → lookup fs dst.path = none ∧ lookup fs' dst.path = some (.file content)) ∧ (e ≠ none → fs' = fs) := by
  unfold copyToF
  simp only [hs]
  cases ho : openM fs dst .w with
  | error e => exact ⟨fs, some e, rfl, Kept.refl _, (fun h => by cases h), fun _ => rfl⟩
  | ok fs1 =>
    obtain ⟨hn, hl, hk⟩ := open_kept fs fs1 dst hd .w ho
    have hs1 := (hk src).1 content hs
    simp only [openM, openR, hs1, Bool.false_eq_true, if_false]
    rw [copyLoop_spec chunk hchunk fuel content [] hf, List.nil_append]
    rw [open_always fs dst hd .w, if_neg (by decide)] at ho
    have hp : put fs dst.path (.file []) = some fs1 := by
      unfold create at ho
      rw [hn] at ho
      cases hp : put fs dst.path (.file []) with
      | none => rw [hp] at ho; cases ho
      | some f => rw [hp] at ho; cases ho; rfl
    have h2 := put_isSome fs dst.path (.file content) (.file [])
    rw [hp] at h2
    cases hp2 : put fs dst.path (.file content) with
    | none => rw [hp2] at h2; cases h2
    | some fs2 =>
      simp only [put_put hp, hp2]
      exact ⟨fs2, none, rfl, put_kept hp2 hn, (fun _ => ⟨hn, put_get hp2⟩), fun h => absurd rfl h⟩

/-- Without `alwaysCreate` on either side `copyToF` is the `copyTo` of C72. -/
theorem copyToF_plain (chunk fuel : Nat) (fs : Node) (src dst : List Str) :
    copyToF chunk fuel fs ⟨src, false⟩ ⟨dst, false⟩ = copyTo chunk (fuel + 1) fs src dst := by
  unfold copyToF
  cases hs : lookup fs src with
  | none => simp only [copyTo, hs]
  | some m =>
    cases m with
    | dir es => rfl
    | other => simp only [copyTo, hs]
    | file x =>
      simp only [copyTo, hs, openM, Bool.false_eq_true, if_false]
      cases openW fs dst with
      | error e => rfl
      | ok fs1 =>
        cases hs1 : lookup fs1 src with
        | none => simp only [openR, hs1]
        | some m =>
          cases m with
          | dir es => simp only [openR, hs1]
          | other => simp only [openR, hs1]
          | file y => simp only [openR, hs1]; rfl

/-- Missing from `copyTo_always_partial`: the children of the destination lose `alwaysCreate`, so copying a directory to a path with
`alwaysCreate` overwrites the files that are there. -/
theorem copyTo_directory_fails :
    copyToF 4 4 (.dir [([97], .dir [([120], .file [1])]), ([98], .dir [([120], .file [2])])]) ⟨[[97]], false⟩ ⟨[[98]], true⟩ =
      some (.dir [([97], .dir [([120], .file [1])]), ([98], .dir [([120], .file [1])])], none) := rfl

/-- Missing from `copyTo_always_partial`: a source with `alwaysCreate` cannot be read; an empty destination is left. -/
theorem copyTo_source_fails :
    copyToF 4 4 (.dir [([97], .file [1])]) ⟨[[97]], true⟩ ⟨[[98]], false⟩ =
      some (.dir [([97], .file [1]), ([98], .file [])], some osError) := rfl

/-- `setContent` loses `alwaysCreate` with the sibling: it overwrites the file that is there. -/
theorem setContent_always_fails :
    setContentF (.dir [([97], .file [1])]) [] [97] true [7] [46] = (.dir [([97], .file [7])], none) := rfl

/-- `getContent` with `alwaysCreate` creates what it is to read, and cannot read what is there. -/
theorem getContent_always_fails :
    getContentF (.dir []) ⟨[[97]], true⟩ = (.dir [([97], .file [])], .ok []) ∧
    getContentF (.dir [([97], .file [1])]) ⟨[[97]], true⟩ = (.dir [([97], .file [1])], .error osError) := ⟨rfl, rfl⟩

/-- `requireCreate` does not hold below: opening a child for writing empties the file that is there. -/
theorem child_always_fails (fs : Node) (p : FP) (c : Str) (x : List Nat) (h : lookup fs (p.path ++ [c]) = some (.file x)) :
    ∃ fs', openM fs (childF (requireCreate p true) c) .w = .ok fs' ∧ lookup fs' (p.path ++ [c]) = some (.file []) := by
  obtain ⟨fs', h'⟩ := Option.isSome_iff_exists.1 ((put_isSome fs (p.path ++ [c]) (.file []) (.file x)).trans
    (by rw [put_back fs _ _ h]; rfl))
  exact ⟨fs', by simp [openM, childF, requireCreate, openW, h, h'], put_get h'⟩

/-- `touch` with `alwaysCreate` is refused always. -/
theorem touch_always_fails (fs : Node) (p : FP) (h : p.alwaysCreate = true) : touch fs p = (fs, some .assertionError) := by
  simp only [touch, open_always fs p h .a, if_true]
  rw [if_neg (by decide)]

/-- **C90**, `touch` without `alwaysCreate`: nothing that is there changes; it succeeds exactly if something is at the path or
there is a directory to hold it; then something is there, an empty file if there was nothing. -/
theorem touch_plain (fs : Node) (dir : List Str) (name : Str) :
    Kept fs (touch fs ⟨dir ++ [name], false⟩).1 ∧
    ((touch fs ⟨dir ++ [name], false⟩).2 = none ↔ ∃ es, lookup fs dir = some (.dir es)) ∧
    (∀ m, lookup fs (dir ++ [name]) = some m → (touch fs ⟨dir ++ [name], false⟩).1 = fs) ∧
    (lookup fs (dir ++ [name]) = none → (touch fs ⟨dir ++ [name], false⟩).2 = none →
      create fs (dir ++ [name]) = .ok (touch fs ⟨dir ++ [name], false⟩).1) := by
  cases hl : lookup fs (dir ++ [name]) with
  | some m =>
    have ht : touch fs ⟨dir ++ [name], false⟩ = (fs, none) := by
      cases m <;> simp [touch, openM, openA, hl]
    have hd : ∃ es, lookup fs dir = some (.dir es) := by
      rw [lookup_append] at hl
      cases hd : lookup fs dir with
      | none => rw [hd] at hl; cases hl
      | some k =>
        rw [hd] at hl
        cases k with
        | dir es => exact ⟨es, rfl⟩
        | file x => cases hl
        | other => cases hl
    rw [ht]
    exact ⟨Kept.refl _, ⟨fun _ => hd, fun _ => rfl⟩, (fun _ _ => rfl), fun h => by cases h⟩
  | none =>
    cases hp : put fs (dir ++ [name]) (.file []) with
    | none =>
      have ht : touch fs ⟨dir ++ [name], false⟩ = (fs, some osError) := by
        simp [touch, openM, openA, hl, hp]
      rw [ht]
      refine ⟨Kept.refl _, ⟨(fun h => by cases h), fun ⟨es, he⟩ => ?_⟩, (fun _ h => by cases h), fun _ h => by cases h⟩
      obtain ⟨fs', h⟩ := put_into he name (.file [])
      rw [h] at hp; cases hp
    | some fs1 =>
      have ht : touch fs ⟨dir ++ [name], false⟩ = (fs1, none) := by
        simp [touch, openM, openA, hl, hp, put_get hp]
      rw [ht]
      exact ⟨put_kept hp hl, ⟨fun _ => put_dir hp, fun _ => rfl⟩, (fun _ h => by cases h), fun _ _ => by simp only [create, hl, hp]⟩

/-! ## Several users -/

theorem put_present {fs fs' : Node} {p : List Str} {x : Node} (h : put fs p x = some fs')
    (hp : lookup fs p = none ∨ ∃ y, lookup fs p = some (.file y)) (q : List Str) (hq : lookup fs q ≠ none) :
    lookup fs' q ≠ none := by
  by_cases hpq : p <+: q
  · rcases hp with hp | ⟨y, hp⟩
    · exact absurd (lookup_prefix hpq hp) hq
    · obtain ⟨t, rfl⟩ := hpq
      cases t with
      | nil => rw [List.append_nil, put_get h]; simp
      | cons c t => exact absurd (by rw [lookup_append, hp]; rfl) hq
  by_cases hqp : q <+: p
  · obtain ⟨c, t, rfl⟩ := proper hqp hpq
    cases hm : lookup fs q with
    | none => exact absurd hm hq
    | some m =>
      obtain ⟨es, rfl⟩ := leaf_above h hm
      obtain ⟨k, hk⟩ := put_above h hm
      rw [hk]; simp
  · rw [put_other h hpq hqp]; exact hq

/-- Nothing that `act` does removes anything. -/
theorem act_present {fs fs' : Node} {a : Act} (h : act fs a = .ok fs') (q : List Str) (hq : lookup fs q ≠ none) :
    lookup fs' q ≠ none := by
  cases a with
  | create p =>
    simp only [act, create] at h
    split at h
    · cases h
    · rename_i hn
      split at h
      · rename_i hp; cases h; exact put_present hp (Or.inl hn) q hq
      · cases h
  | openW p =>
    simp only [act, openW] at h
    split at h
    · cases h
    · cases h
    · rename_i h1 h2
      split at h
      · rename_i hp
        cases h
        refine put_present hp ?_ q hq
        cases hm : lookup fs p with
        | none => exact Or.inl rfl
        | some m =>
          cases m with
          | dir es => exact absurd hm (h1 es)
          | other => exact absurd hm h2
          | file y => exact Or.inr ⟨y, rfl⟩
      · cases h
  | openA p =>
    simp only [act, openA] at h
    split at h
    · cases h; exact hq
    · cases h
    · rename_i hn
      split at h
      · rename_i hp; cases h; exact put_present hp (Or.inl hn) q hq
      · cases h
  | mkdir p =>
    simp only [act, mkdir] at h
    split at h
    · cases h
    · rename_i hn
      split at h
      · rename_i hp; cases h; exact put_present hp (Or.inl hn) q hq
      · cases h
  | write p content =>
    simp only [act, write] at h
    split at h
    · rename_i y hy
      split at h
      · rename_i hp; cases h; exact put_present hp (Or.inr ⟨y, hy⟩) q hq
      · cases h
    · cases h

/-- **C90**, exclusion: of any number of attempts to create one path, among any other creations, openings and writings by
anyone, at most one succeeds; and none if something was there to begin with. -/
theorem exclusive (fs : Node) (as : List Act) (p : List Str) :
    (acts fs as).countP (fun r => decide (r.1 = .create p) && r.2) ≤ 1 ∧
    (lookup fs p ≠ none → (acts fs as).countP (fun r => decide (r.1 = .create p) && r.2) = 0) := by
  induction as generalizing fs with
  | nil => exact ⟨by simp [acts], fun _ => rfl⟩
  | cons a as ih =>
    rw [acts]
    cases ha : act fs a with
    | error e =>
      simp only [List.countP_cons, Bool.and_false, Bool.false_eq_true, if_false, Nat.add_zero]
      exact ih fs
    | ok fs' =>
      simp only [List.countP_cons, Bool.and_true, decide_eq_true_eq]
      by_cases hc : a = .create p
      · subst hc
        obtain ⟨h1, h2, -, -⟩ := create_ok (show create fs p = .ok fs' from ha)
        rw [(ih fs').2 (by rw [h2]; simp)]
        exact ⟨by simp, fun h => absurd h1 h⟩
      · rw [if_neg hc]
        exact ⟨(ih fs').1, fun h => (ih fs').2 (act_present ha p h)⟩

/-- And the first attempt succeeds, if nothing is there and the directory is: exactly one of any attempts. -/
theorem exclusive_first (fs : Node) (dir : List Str) (name : Str) (as : List Act) {es : Dict Str Node}
    (hd : lookup fs dir = some (.dir es)) (hn : lookup fs (dir ++ [name]) = none) :
    (acts fs (.create (dir ++ [name]) :: as)).countP (fun r => decide (r.1 = .create (dir ++ [name])) && r.2) = 1 := by
  obtain ⟨fs', h⟩ := (create_iff fs dir name).mpr ⟨⟨es, hd⟩, hn⟩
  rw [acts]
  simp only [act, h, List.countP_cons, Bool.and_true, decide_eq_true_eq, if_true]
  rw [(exclusive fs' as _).2 (by rw [(create_ok h).2.1]; simp)]

/-! ## The temporary sibling -/

/-- **C90**, `temporarySibling`: for every path but the root, it is in the same directory, its name is the random characters
followed by the name of the path (so it is another path), and it has `alwaysCreate`. -/
theorem temporarySibling_place (cwd : Str) {n : Nat} {comps : List Str} {c : Str} (h : IsDir n (comps ++ [c])) (random : Str)
    (hr : random.length = 16) (hslash : 47 ∉ random) :
    temporarySibling cwd (canon n (comps ++ [c])) random = .ok (canon n (comps ++ [random ++ c]), true) ∧ random ++ c ≠ c := by
  have hc : Name c := h.names c (by simp)
  have hcomps : IsDir n comps := ⟨h.slashes, fun x hx => h.names x (by simp [hx])⟩
  have hlen : 16 ≤ (random ++ c).length := by rw [List.length_append]; omega
  have hname : Name (random ++ c) := by
    refine ⟨fun e => ?_, ?_, fun e => ?_, fun e => ?_⟩
    · rw [e] at hlen; simp at hlen
    · rw [List.mem_append, not_or]; exact ⟨hslash, hc.2.1⟩
    · rw [e] at hlen; simp at hlen
    · rw [e] at hlen; simp at hlen
  refine ⟨?_, fun e => ?_⟩
  · unfold temporarySibling
    rw [(basename_canon n h.slashes comps c hc.2.1).1, parent, dirname_canon n h.slashes comps hcomps.names c hc.2.1, filePath,
      abspath_canon cwd n h.slashes comps hcomps.names, child_name cwd hcomps hname]
  · have := congrArg List.length e
    rw [List.length_append] at this
    omega

/-- The temporary sibling of the root is not beside it. -/
theorem temporarySibling_root_fails :
    temporarySibling [47] [47] [65, 65, 65, 65, 65, 65, 65, 65, 65, 65, 65, 65, 65, 65, 65, 65] =
      .ok ([47, 65, 65, 65, 65, 65, 65, 65, 65, 65, 65, 65, 65, 65, 65, 65, 65], true) := rfl

example : create (.dir [([97], .file [1])]) [[98]] = .ok (.dir [([97], .file [1]), ([98], .file [])]) := rfl
example : create (.dir [([97], .file [1])]) [[97]] = .error osError := rfl
example : openM (.dir [([97], .file [1])]) ⟨[[98]], true⟩ .w = .ok (.dir [([97], .file [1]), ([98], .file [])]) := rfl
example : copyToF 4 4 (.dir [([97], .file [1, 2])]) ⟨[[97]], false⟩ ⟨[[98]], true⟩ =
    some (.dir [([97], .file [1, 2]), ([98], .file [1, 2])], none) := rfl
example : touch (.dir [([97], .file [1, 2])]) ⟨[[98]], false⟩ = (.dir [([97], .file [1, 2]), ([98], .file [])], none) := rfl
example : acts (.dir []) [.create [[97]], .write [[97]] [1], .openW [[97]], .create [[97]], .create [[98]]] =
    [(.create [[97]], true), (.write [[97]] [1], true), (.openW [[97]], true), (.create [[97]], false), (.create [[98]], true)] := rfl
example : temporarySibling [47] [47, 97, 47, 98] [65, 65, 65, 65, 65, 65, 65, 65, 65, 65, 65, 65, 65, 65, 65, 65] =
    .ok ([47, 97, 47, 65, 65, 65, 65, 65, 65, 65, 65, 65, 65, 65, 65, 65, 65, 65, 65, 98], true) := rfl

end Verif.FilePath
