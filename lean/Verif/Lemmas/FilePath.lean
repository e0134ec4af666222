import Verif.Model.FilePath
/-!
# The file system model: looking up and putting
-/
namespace Verif.FilePath
open Verif.Py Verif.Py.Path

theorem set_set (es : Dict Str Node) (c : Str) (a b : Node) : Dict.set (Dict.set es c a) c b = Dict.set es c b := by
  induction es with
  | nil => simp [Dict.set]
  | cons p es ih =>
    obtain ⟨k, v⟩ := p
    by_cases h : k = c <;> simp [Dict.set, h, ih]

theorem set_same (es : Dict Str Node) (c : Str) (a : Node) (h : Dict.get? es c = some a) : Dict.set es c a = es := by
  induction es with
  | nil => cases h
  | cons p es ih =>
    obtain ⟨k, v⟩ := p
    by_cases hk : k = c
    · subst hk
      simp [Dict.get?] at h
      simp [Dict.set, h]
    · simp [Dict.get?, hk] at h
      simp [Dict.set, hk, ih h]

theorem lookup_nil (n : Node) : lookup n [] = some n := by cases n <;> rfl

theorem lookup_dir (es : Dict Str Node) (c : Str) (p : List Str) :
    lookup (.dir es) (c :: p) = (Dict.get? es c).bind fun m => lookup m p := by
  rw [lookup]
  cases Dict.get? es c <;> rfl

theorem lookup_append (n : Node) (p q : List Str) : lookup n (p ++ q) = (lookup n p).bind fun m => lookup m q := by
  induction p generalizing n with
  | nil => rw [lookup_nil]; rfl
  | cons c p ih =>
    cases n with
    | file x => rfl
    | other => rfl
    | dir es =>
      rw [List.cons_append, lookup_dir, lookup_dir]
      cases Dict.get? es c with
      | none => rfl
      | some m => exact ih m

theorem put_nil (n x : Node) : put n [] x = some x := by cases n <;> rfl

theorem put_one (es : Dict Str Node) (c : Str) (x : Node) : put (.dir es) [c] x = some (.dir (Dict.set es c x)) := rfl

theorem put_cons (es : Dict Str Node) (c d : Str) (p : List Str) (x : Node) :
    put (.dir es) (c :: d :: p) x =
      (Dict.get? es c).bind fun m => (put m (d :: p) x).map fun m' => .dir (Dict.set es c m') := by
  rw [put]
  · cases Dict.get? es c with
    | none => rfl
    | some m =>
      simp only [Option.bind_some]
      cases put m (d :: p) x <;> rfl
  · simp

/-- Whether something can be put at a path does not depend on what it is. -/
theorem put_isSome (n : Node) (p : List Str) (x y : Node) : (put n p x).isSome = (put n p y).isSome := by
  induction p generalizing n with
  | nil => simp [put_nil]
  | cons c p ih =>
    cases n with
    | file z => simp [put]
    | other => simp [put]
    | dir es =>
      cases p with
      | nil => rfl
      | cons d p =>
        rw [put_cons, put_cons]
        cases Dict.get? es c with
        | none => rfl
        | some m =>
          have := ih m
          simpa using this

theorem put_get {n : Node} {p : List Str} {x n' : Node} (h : put n p x = some n') : lookup n' p = some x := by
  induction p generalizing n n' with
  | nil => rw [put_nil] at h; cases h; exact lookup_nil _
  | cons c p ih =>
    cases n with
    | file z => simp [put] at h
    | other => simp [put] at h
    | dir es =>
      cases p with
      | nil =>
        rw [put_one] at h
        cases h
        rw [lookup_dir, Dict.get?_set_same]
        exact lookup_nil _
      | cons d p =>
        rw [put_cons] at h
        cases hg : Dict.get? es c with
        | none => rw [hg] at h; cases h
        | some m =>
          rw [hg] at h
          cases hp : put m (d :: p) x with
          | none => rw [Option.bind_some, hp] at h; cases h
          | some m' =>
            rw [Option.bind_some, hp] at h
            cases h
            rw [lookup_dir, Dict.get?_set_same]
            exact ih hp

theorem put_put {n : Node} {p : List Str} {x n' : Node} (h : put n p x = some n') (y : Node) : put n' p y = put n p y := by
  induction p generalizing n n' with
  | nil => rw [put_nil, put_nil]
  | cons c p ih =>
    cases n with
    | file z => simp [put] at h
    | other => simp [put] at h
    | dir es =>
      cases p with
      | nil =>
        rw [put_one] at h
        cases h
        rw [put_one, put_one, set_set]
      | cons d p =>
        rw [put_cons] at h
        cases hg : Dict.get? es c with
        | none => rw [hg] at h; cases h
        | some m =>
          rw [hg] at h
          cases hp : put m (d :: p) x with
          | none => rw [Option.bind_some, hp] at h; cases h
          | some m' =>
            rw [Option.bind_some, hp] at h
            cases h
            rw [put_cons, put_cons, Dict.get?_set_same, hg, Option.bind_some, Option.bind_some, ih hp]
            cases put m (d :: p) y with
            | none => rfl
            | some m'' => simp [set_set]

/-- Nothing changes at paths that are neither above nor below. -/
theorem put_other {n : Node} {p q : List Str} {x n' : Node} (h : put n p x = some n') (h1 : ¬ p <+: q) (h2 : ¬ q <+: p) :
    lookup n' q = lookup n q := by
  induction p generalizing n n' q with
  | nil => exact absurd List.nil_prefix h1
  | cons c p ih =>
    cases q with
    | nil => exact absurd List.nil_prefix h2
    | cons e q =>
      cases n with
      | file z => simp [put] at h
      | other => simp [put] at h
      | dir es =>
        cases p with
        | nil =>
          rw [put_one] at h
          cases h
          have hce : c ≠ e := by
            rintro rfl
            exact h1 (by simp)
          rw [lookup_dir, lookup_dir, Dict.get?_set_other _ _ _ _ hce]
        | cons d p =>
          rw [put_cons] at h
          cases hg : Dict.get? es c with
          | none => rw [hg] at h; cases h
          | some m =>
            rw [hg] at h
            cases hp : put m (d :: p) x with
            | none => rw [Option.bind_some, hp] at h; cases h
            | some m' =>
              rw [Option.bind_some, hp] at h
              cases h
              rw [lookup_dir, lookup_dir, Dict.get?_set]
              by_cases hce : c = e
              · subst hce
                rw [if_pos rfl, hg]
                exact ih hp (fun hh => h1 (by simpa using hh)) fun hh => h2 (by simpa using hh)
              · rw [if_neg hce]

/-- Putting something into a directory that has been put. -/
theorem put_sub {n : Node} {p : List Str} {es : Dict Str Node} {n' : Node} (h : put n p (.dir es) = some n') (c : Str) (m : Node) :
    put n' (p ++ [c]) m = put n p (.dir (Dict.set es c m)) := by
  induction p generalizing n n' with
  | nil => rw [put_nil] at h; cases h; rw [put_nil]; rfl
  | cons a p ih =>
    cases n with
    | file z => simp [put] at h
    | other => simp [put] at h
    | dir es0 =>
      cases p with
      | nil =>
        rw [put_one] at h
        cases h
        rw [List.cons_append, List.nil_append, put_cons, Dict.get?_set_same, put_one, Option.bind_some, put_one, Option.map_some,
          set_set]
      | cons d p =>
        rw [put_cons] at h
        cases hg : Dict.get? es0 a with
        | none => rw [hg] at h; cases h
        | some k =>
          rw [hg] at h
          cases hp : put k (d :: p) (.dir es) with
          | none => rw [Option.bind_some, hp] at h; cases h
          | some k' =>
            rw [Option.bind_some, hp] at h
            cases h
            have := ih hp
            rw [List.cons_append, List.cons_append, put_cons, put_cons, Dict.get?_set_same, hg, Option.bind_some, Option.bind_some,
              ← List.cons_append, this]
            cases put k (d :: p) (.dir (Dict.set es c m)) with
            | none => rfl
            | some k'' => simp [set_set]

/-- Something can be put into a directory. -/
theorem put_into {n : Node} {p : List Str} {es : Dict Str Node} (h : lookup n p = some (.dir es)) (c : Str) (x : Node) :
    ∃ n', put n (p ++ [c]) x = some n' := by
  induction p generalizing n with
  | nil => rw [lookup_nil] at h; cases h; exact ⟨_, rfl⟩
  | cons a p ih =>
    cases n with
    | file z => simp [lookup] at h
    | other => simp [lookup] at h
    | dir es0 =>
      rw [lookup_dir] at h
      cases hg : Dict.get? es0 a with
      | none => rw [hg] at h; cases h
      | some m =>
        rw [hg, Option.bind_some] at h
        obtain ⟨n', hn⟩ := ih h
        obtain ⟨d, q, e⟩ : ∃ d q, p ++ [c] = d :: q := by
          cases p with
          | nil => exact ⟨c, [], rfl⟩
          | cons d p => exact ⟨d, p ++ [c], rfl⟩
        rw [e] at hn
        exact ⟨_, by rw [List.cons_append, e, put_cons, hg, Option.bind_some, hn]; rfl⟩

/-- Putting back what is there changes nothing. -/
theorem put_back (n : Node) (p : List Str) (x : Node) (h : lookup n p = some x) : put n p x = some n := by
  induction p generalizing n with
  | nil => rw [lookup_nil] at h; cases h; exact put_nil _ _
  | cons c p ih =>
    cases n with
    | file z => simp [lookup] at h
    | other => simp [lookup] at h
    | dir es =>
      rw [lookup_dir] at h
      cases hg : Dict.get? es c with
      | none => rw [hg] at h; cases h
      | some m =>
        rw [hg, Option.bind_some] at h
        cases p with
        | nil =>
          rw [lookup_nil] at h
          cases h
          rw [put_one, set_same _ _ _ hg]
        | cons d p => rw [put_cons, hg, Option.bind_some, ih m h, Option.map_some, set_same _ _ _ hg]

/-- The entry of a directory. -/
theorem lookup_child {n : Node} {p : List Str} {es : Dict Str Node} (h : lookup n p = some (.dir es)) (c : Str) :
    lookup n (p ++ [c]) = Dict.get? es c := by
  rw [lookup_append, h, Option.bind_some, lookup_dir]
  cases Dict.get? es c with
  | none => rfl
  | some m => exact lookup_nil m

theorem lookup_prefix {n : Node} {p q : List Str} (h : p <+: q) (hp : lookup n p = none) : lookup n q = none := by
  obtain ⟨t, rfl⟩ := h
  rw [lookup_append, hp]
  rfl

theorem copyLoop_spec (k : Nat) (hk : 0 < k) (fuel : Nat) (rest written : List Nat) (hf : rest.length < fuel) :
    copyLoop k fuel rest written = some (written ++ rest) := by
  induction fuel generalizing rest written with
  | zero => omega
  | succ fuel ih =>
    simp only [copyLoop]
    split
    · rename_i h
      rw [List.length_take] at h
      rw [List.take_of_length_le (by omega)]
    · rename_i h
      rw [List.length_take] at h
      rw [ih _ _ (by rw [List.length_drop]; omega), List.append_assoc, List.take_append_drop]

end Verif.FilePath
