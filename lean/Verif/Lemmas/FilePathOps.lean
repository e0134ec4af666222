import Verif.Lemmas.FilePath
import Verif.Model.FilePathOps
/-!
# The file system model: deleting and renaming
-/
namespace Verif.FilePath
open Verif.Py Verif.Py.Path

/-- The names in every directory are distinct. -/
inductive Good : Node → Prop
  | file (content : List Nat) : Good (.file content)
  | other : Good .other
  | dir (es : Dict Str Node) (names : Dict.WF es) (sub : ∀ e ∈ es, Good e.2) : Good (.dir es)

theorem Good.names {es : Dict Str Node} (h : Good (.dir es)) : Dict.WF es := by cases h; assumption

theorem Good.entry {es : Dict Str Node} (h : Good (.dir es)) {c : Str} {m : Node} (hm : Dict.get? es c = some m) : Good m := by
  cases h with
  | dir _ _ sub => exact sub (c, m) (Dict.mem_of_get? hm)

theorem Good.lookup {n : Node} (h : Good n) {p : List Str} {m : Node} (hm : FilePath.lookup n p = some m) : Good m := by
  induction p generalizing n with
  | nil => rw [lookup_nil] at hm; cases hm; exact h
  | cons c p ih =>
    cases n with
    | file z => simp [FilePath.lookup] at hm
    | other => simp [FilePath.lookup] at hm
    | dir es =>
      rw [lookup_dir] at hm
      cases hg : Dict.get? es c with
      | none => rw [hg] at hm; cases hm
      | some k => rw [hg] at hm; exact ih (h.entry hg) hm

theorem erase_set (es : Dict Str Node) (c : Str) (x : Node) (h : Dict.get? es c ≠ none) :
    Dict.erase (Dict.set es c x) c = Dict.erase es c := by
  induction es with
  | nil => exact absurd rfl h
  | cons e es ih =>
    obtain ⟨k, v⟩ := e
    by_cases hk : k = c
    · simp [Dict.set, Dict.erase, hk]
    · simp only [Dict.get?, hk, if_false] at h
      simp [Dict.set, Dict.erase, hk, ih h]

theorem del_one (es : Dict Str Node) (c : Str) :
    del (.dir es) [c] = (Dict.get? es c).map fun _ => .dir (Dict.erase es c) := by
  rw [del]
  cases Dict.get? es c <;> rfl

theorem del_cons (es : Dict Str Node) (c d : Str) (p : List Str) :
    del (.dir es) (c :: d :: p) =
      (Dict.get? es c).bind fun m => (del m (d :: p)).map fun m' => .dir (Dict.set es c m') := by
  rw [del]
  · cases Dict.get? es c with
    | none => rfl
    | some m =>
      simp only [Option.bind_some]
      cases del m (d :: p) <;> rfl
  · simp

theorem del_some {n : Node} {p : List Str} {m : Node} (h : lookup n p = some m) (hp : p ≠ []) : ∃ n', del n p = some n' := by
  induction p generalizing n with
  | nil => exact absurd rfl hp
  | cons c p ih =>
    cases n with
    | file z => simp [lookup] at h
    | other => simp [lookup] at h
    | dir es =>
      rw [lookup_dir] at h
      cases hg : Dict.get? es c with
      | none => rw [hg] at h; cases h
      | some k =>
        rw [hg, Option.bind_some] at h
        cases p with
        | nil => exact ⟨_, by rw [del_one, hg]; rfl⟩
        | cons d p =>
          obtain ⟨n', hn⟩ := ih h (by simp)
          exact ⟨_, by rw [del_cons, hg, Option.bind_some, hn]; rfl⟩

theorem del_get {n : Node} {p : List Str} {n' : Node} (hg : Good n) (h : del n p = some n') : lookup n' p = none := by
  induction p generalizing n n' with
  | nil => cases n <;> simp [del] at h
  | cons c p ih =>
    cases n with
    | file z => simp [del] at h
    | other => simp [del] at h
    | dir es =>
      cases p with
      | nil =>
        rw [del_one] at h
        cases he : Dict.get? es c with
        | none => rw [he] at h; cases h
        | some k =>
          rw [he] at h
          cases h
          rw [lookup_dir, Dict.get?_erase_same hg.names]
          rfl
      | cons d p =>
        rw [del_cons] at h
        cases he : Dict.get? es c with
        | none => rw [he] at h; cases h
        | some k =>
          rw [he, Option.bind_some] at h
          cases hd : del k (d :: p) with
          | none => rw [hd] at h; cases h
          | some k' =>
            rw [hd] at h
            cases h
            rw [lookup_dir, Dict.get?_set_same]
            exact ih (hg.entry he) hd

theorem del_other {n : Node} {p q : List Str} {n' : Node} (h : del n p = some n') (h1 : ¬ p <+: q) (h2 : ¬ q <+: p) :
    lookup n' q = lookup n q := by
  induction p generalizing n n' q with
  | nil => exact absurd List.nil_prefix h1
  | cons c p ih =>
    cases q with
    | nil => exact absurd List.nil_prefix h2
    | cons e q =>
      cases n with
      | file z => simp [del] at h
      | other => simp [del] at h
      | dir es =>
        cases p with
        | nil =>
          rw [del_one] at h
          cases hg : Dict.get? es c with
          | none => rw [hg] at h; cases h
          | some k =>
            rw [hg] at h
            cases h
            have hce : c ≠ e := by
              rintro rfl
              exact h1 (by simp)
            rw [lookup_dir, lookup_dir, Dict.get?_erase_other _ _ _ hce]
        | cons d p =>
          rw [del_cons] at h
          cases hg : Dict.get? es c with
          | none => rw [hg] at h; cases h
          | some m =>
            rw [hg, Option.bind_some] at h
            cases hp : del m (d :: p) with
            | none => rw [hp] at h; cases h
            | some m' =>
              rw [hp] at h
              cases h
              rw [lookup_dir, lookup_dir, Dict.get?_set]
              by_cases hce : c = e
              · subst hce
                rw [if_pos rfl, hg]
                exact ih hp (fun hh => h1 (by simpa using hh)) fun hh => h2 (by simpa using hh)
              · rw [if_neg hce]

/-- Deleting what has been put over something. -/
theorem del_put {n : Node} {p : List Str} {x n1 m : Node} (h : put n p x = some n1) (hl : lookup n p = some m) (hp : p ≠ []) :
    del n1 p = del n p := by
  induction p generalizing n n1 with
  | nil => exact absurd rfl hp
  | cons c p ih =>
    cases n with
    | file z => simp [put] at h
    | other => simp [put] at h
    | dir es =>
      rw [lookup_dir] at hl
      cases hg : Dict.get? es c with
      | none => rw [hg] at hl; cases hl
      | some k =>
        rw [hg, Option.bind_some] at hl
        cases p with
        | nil =>
          rw [put_one] at h
          cases h
          rw [del_one, del_one, Dict.get?_set_same, hg, erase_set _ _ _ (by rw [hg]; simp)]
          rfl
        | cons d p =>
          rw [put_cons, hg, Option.bind_some] at h
          cases hk : put k (d :: p) x with
          | none => rw [hk] at h; cases h
          | some k' =>
            rw [hk] at h
            cases h
            rw [del_cons, del_cons, Dict.get?_set_same, hg, Option.bind_some, Option.bind_some, ih hk hl (by simp)]
            cases del k (d :: p) with
            | none => rfl
            | some k'' => simp [set_set]

/-- Deleting the first entry of a directory that has been put. -/
theorem del_sub {n : Node} {p : List Str} {c : Str} {m : Node} {es : Dict Str Node} {n' : Node}
    (h : put n p (.dir ((c, m) :: es)) = some n') : del n' (p ++ [c]) = put n p (.dir es) := by
  induction p generalizing n n' with
  | nil =>
    rw [put_nil] at h
    cases h
    rw [put_nil, List.nil_append, del_one]
    simp [Dict.get?, Dict.erase]
  | cons a p ih =>
    cases n with
    | file z => simp [put] at h
    | other => simp [put] at h
    | dir es0 =>
      cases p with
      | nil =>
        rw [put_one] at h
        cases h
        rw [List.cons_append, List.nil_append, del_cons, Dict.get?_set_same, put_one, Option.bind_some, del_one]
        simp [Dict.get?, Dict.erase, set_set]
      | cons d p =>
        rw [put_cons] at h
        cases hg : Dict.get? es0 a with
        | none => rw [hg] at h; cases h
        | some k =>
          rw [hg] at h
          cases hp : put k (d :: p) (.dir ((c, m) :: es)) with
          | none => rw [Option.bind_some, hp] at h; cases h
          | some k' =>
            rw [Option.bind_some, hp] at h
            cases h
            have := ih hp
            rw [List.cons_append, List.cons_append, del_cons, put_cons, Dict.get?_set_same, hg, Option.bind_some, Option.bind_some,
              ← List.cons_append, this]
            cases put k (d :: p) (.dir es) with
            | none => rfl
            | some k'' => simp [set_set]

/-- A directory loses an entry and keeps the others. -/
theorem del_parent {n : Node} {p : List Str} {c : Str} {n' : Node} {es : Dict Str Node} (h : del n (p ++ [c]) = some n')
    (hl : lookup n p = some (.dir es)) : lookup n' p = some (.dir (Dict.erase es c)) := by
  induction p generalizing n n' with
  | nil =>
    rw [lookup_nil] at hl
    cases hl
    rw [List.nil_append, del_one] at h
    cases hg : Dict.get? es c with
    | none => rw [hg] at h; cases h
    | some k => rw [hg] at h; cases h; exact lookup_nil _
  | cons a p ih =>
    cases n with
    | file z => simp [lookup] at hl
    | other => simp [lookup] at hl
    | dir es0 =>
      obtain ⟨d, q, e⟩ : ∃ d q, p ++ [c] = d :: q := by
        cases p with
        | nil => exact ⟨c, [], rfl⟩
        | cons d p => exact ⟨d, p ++ [c], rfl⟩
      rw [lookup_dir] at hl
      rw [List.cons_append, e, del_cons] at h
      cases hg : Dict.get? es0 a with
      | none => rw [hg] at hl; cases hl
      | some k =>
        rw [hg, Option.bind_some] at hl h
        cases hd : del k (d :: q) with
        | none => rw [hd] at h; cases h
        | some k' =>
          rw [hd] at h
          cases h
          rw [lookup_dir, Dict.get?_set_same, Option.bind_some]
          exact ih (by rw [e]; exact hd) hl

theorem mem_set {es : Dict Str Node} {c : Str} {x : Node} {e : Str × Node} (h : e ∈ Dict.set es c x) : e = (c, x) ∨ e ∈ es := by
  induction es with
  | nil => left; simpa [Dict.set] using h
  | cons a es ih =>
    obtain ⟨k, v⟩ := a
    by_cases hk : k = c
    · simp only [Dict.set, hk, if_true, List.mem_cons] at h
      rcases h with h | h
      · exact Or.inl h
      · exact Or.inr (List.mem_cons_of_mem _ h)
    · simp only [Dict.set, hk, if_false, List.mem_cons] at h
      rcases h with h | h
      · exact Or.inr (by rw [h]; simp)
      · rcases ih h with h | h
        · exact Or.inl h
        · exact Or.inr (List.mem_cons_of_mem _ h)

theorem Good.set {es : Dict Str Node} (h : Good (.dir es)) (c : Str) {x : Node} (hx : Good x) : Good (.dir (Dict.set es c x)) := by
  cases h with
  | dir _ names sub =>
    refine .dir _ (names.set c x) fun e he => ?_
    rcases mem_set he with rfl | he
    · exact hx
    · exact sub e he

theorem Good.put {n : Node} (h : Good n) {p : List Str} {x n' : Node} (hx : Good x) (hp : FilePath.put n p x = some n') : Good n' := by
  induction p generalizing n n' with
  | nil => rw [put_nil] at hp; cases hp; exact hx
  | cons c p ih =>
    cases n with
    | file z => simp [FilePath.put] at hp
    | other => simp [FilePath.put] at hp
    | dir es =>
      cases p with
      | nil => rw [put_one] at hp; cases hp; exact h.set c hx
      | cons d p =>
        rw [put_cons] at hp
        cases hg : Dict.get? es c with
        | none => rw [hg] at hp; cases hp
        | some k =>
          rw [hg, Option.bind_some] at hp
          cases hk : FilePath.put k (d :: p) x with
          | none => rw [hk] at hp; cases hp
          | some k' =>
            rw [hk] at hp
            cases hp
            exact h.set c (ih (h.entry hg) hk)

/-- A directory that is not inside what is deleted stays a directory. -/
theorem del_keeps {n : Node} {p q : List Str} {n' : Node} {es : Dict Str Node} (h : del n p = some n') (hpq : ¬ p <+: q)
    (hl : lookup n q = some (.dir es)) : ∃ es', lookup n' q = some (.dir es') := by
  induction p generalizing n n' q with
  | nil => exact absurd List.nil_prefix hpq
  | cons c p ih =>
    cases n with
    | file z => simp [del] at h
    | other => simp [del] at h
    | dir es0 =>
      have hdir : ∃ es1, n' = .dir es1 ∧ ∀ e, e ≠ c → Dict.get? es1 e = Dict.get? es0 e := by
        cases p with
        | nil =>
          rw [del_one] at h
          cases hg : Dict.get? es0 c with
          | none => rw [hg] at h; cases h
          | some k => rw [hg] at h; cases h; exact ⟨_, rfl, fun e he => Dict.get?_erase_other _ _ _ (Ne.symm he)⟩
        | cons d p =>
          rw [del_cons] at h
          cases hg : Dict.get? es0 c with
          | none => rw [hg] at h; cases h
          | some k =>
            rw [hg, Option.bind_some] at h
            cases hd : del k (d :: p) with
            | none => rw [hd] at h; cases h
            | some k' => rw [hd] at h; cases h; exact ⟨_, rfl, fun e he => Dict.get?_set_other _ _ _ _ (Ne.symm he)⟩
      cases q with
      | nil => obtain ⟨es1, rfl, _⟩ := hdir; exact ⟨es1, lookup_nil _⟩
      | cons e q =>
        by_cases hce : e = c
        · subst hce
          rw [lookup_dir] at hl
          cases p with
          | nil => exact absurd (by simp) hpq
          | cons d p =>
            rw [del_cons] at h
            cases hg : Dict.get? es0 e with
            | none => rw [hg] at h; cases h
            | some k =>
              rw [hg, Option.bind_some] at h hl
              cases hd : del k (d :: p) with
              | none => rw [hd] at h; cases h
              | some k' =>
                rw [hd] at h
                cases h
                rw [lookup_dir, Dict.get?_set_same, Option.bind_some]
                exact ih hd (fun hh => hpq (by simpa using hh)) hl
        · obtain ⟨es1, rfl, he⟩ := hdir
          rw [lookup_dir] at hl ⊢
          rw [he e hce]
          exact ⟨es, hl⟩

end Verif.FilePath
