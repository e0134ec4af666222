import Verif.Model.FileLinks
import Verif.Lemmas.FilePathOps
/-!
# Facts about path resolution
-/
namespace Verif.FileLinks
open Verif.Py Verif.Py.Path Verif.FilePath

/-- Two things of the same kind; files have the same contents. -/
def same : Node → Node → Prop
  | .file a, .file b => a = b
  | .dir _, .dir _ => True
  | .other, .other => True
  | _, _ => False

theorem same_refl (m : Node) : same m m := by cases m <;> simp [same]

theorem same_trans {a b c : Node} (h1 : same a b) (h2 : same b c) : same a c := by
  cases a <;> cases b <;> simp only [same] at h1 <;> cases c <;> simp_all [same]

/-- Everything in the first file system is in the second as well, and of the same kind. -/
def Sub (a b : Node) : Prop := ∀ q m, lookup a q = some m → ∃ m', lookup b q = some m' ∧ same m m'

theorem Sub.refl (a : Node) : Sub a a := fun _ m h => ⟨m, h, same_refl m⟩

theorem Sub.trans {a b c : Node} (h1 : Sub a b) (h2 : Sub b c) : Sub a c := fun q m h => by
  obtain ⟨m', h', s⟩ := h1 q m h
  obtain ⟨m'', h'', s'⟩ := h2 q m' h'
  exact ⟨m'', h'', same_trans s s'⟩

theorem linkAt_sub {L : Links} {a b : Node} (h : Sub a b) {q : List Str} {m : Node} (hl : lookup a q = some m) :
    linkAt L b q = linkAt L a q := by
  obtain ⟨m', h', s⟩ := h q m hl
  unfold linkAt
  rw [hl, h']
  cases m <;> cases m' <;> simp_all [same]

theorem follow_sub {L : Links} {a b : Node} (h : Sub a b) {ra rb : List Str → Option (List Str)}
    (hr : ∀ p q, ra p = some q → rb p = some q) (todo : List Str) (done q : List Str) (hf : follow L a false ra done todo = some q) :
    follow L b false rb done todo = some q := by
  induction todo generalizing done with
  | nil => exact hf
  | cons c rest ih =>
    simp only [follow] at hf ⊢
    cases hl : lookup a (done ++ [c]) with
    | none => rw [hl] at hf; simp at hf
    | some m =>
      obtain ⟨m', h', s⟩ := h _ m hl
      have he := linkAt_sub (L := L) h hl
      rw [hl] at hf
      rw [h', he]
      dsimp only at hf ⊢
      cases hk : linkAt L a (done ++ [c]) with
      | some t => rw [hk] at hf; exact hr _ _ hf
      | none => rw [hk] at hf; exact ih _ hf

theorem resolve_sub {L : Links} {a b : Node} (h : Sub a b) (n : Nat) (p q : List Str) (hr : resolve L a false n p = some q) :
    resolve L b false n p = some q := by
  induction n generalizing p q with
  | zero => exact follow_sub h (fun _ _ h => by cases h) p [] q hr
  | succ n ih => exact follow_sub h ih p [] q hr

theorem stat_sub {L : Links} {a b : Node} (h : Sub a b) (n : Nat) (p : List Str) (m : Node) (hr : stat L n a p = some m) :
    ∃ m', stat L n b p = some m' ∧ same m m' := by
  unfold stat at hr ⊢
  cases hq : resolve L a false n p with
  | none => rw [hq] at hr; cases hr
  | some q =>
    rw [hq] at hr
    rw [resolve_sub h n p q hq]
    exact h q m hr

theorem resolve_eq (L : Links) (fs : Node) (new : Bool) (n : Nat) (p : List Str) :
    resolve L fs new n p = follow L fs new (match n with | 0 => fun _ => none | n + 1 => resolve L fs new n) [] p := by
  cases n <;> rfl

/-- A path of directories leads to itself. -/
theorem follow_phys {L : Links} {fs : Node} {new : Bool} {r : List Str → Option (List Str)} (todo done : List Str) {m : Node}
    (h : lookup fs (done ++ todo) = some m) (hm : linkAt L fs (done ++ todo) = none) : follow L fs new r done todo = some (done ++ todo) := by
  induction todo generalizing done with
  | nil => simp [follow]
  | cons c rest ih =>
    have e : done ++ c :: rest = done ++ [c] ++ rest := by simp
    rw [e] at h hm ⊢
    have hl : ∃ x, lookup fs (done ++ [c]) = some x := by
      cases hx : lookup fs (done ++ [c]) with
      | none => rw [lookup_append, hx] at h; cases h
      | some x => exact ⟨x, rfl⟩
    obtain ⟨x, hx⟩ := hl
    have hk : linkAt L fs (done ++ [c]) = none := by
      cases rest with
      | nil => simpa using hm
      | cons d rest =>
        unfold linkAt
        rw [hx]
        cases x with
        | other => rw [lookup_append, hx] at h; cases h
        | file => rfl
        | dir => rfl
    simp only [follow, hx, hk]
    exact ih _ h hm

theorem resolve_phys {L : Links} {fs : Node} {new : Bool} {n : Nat} {p : List Str} {m : Node} (h : lookup fs p = some m)
    (hm : linkAt L fs p = none) : resolve L fs new n p = some p := by
  rw [resolve_eq]
  exact follow_phys p [] h hm

theorem linkAt_dir {L : Links} {fs : Node} {p : List Str} {es : Dict Str Node} (h : lookup fs p = some (.dir es)) :
    linkAt L fs p = none := by unfold linkAt; rw [h]

theorem linkAt_file {L : Links} {fs : Node} {p : List Str} {z : List Nat} (h : lookup fs p = some (.file z)) :
    linkAt L fs p = none := by unfold linkAt; rw [h]

theorem linkAt_none {L : Links} {fs : Node} {p : List Str} (h : lookup fs p = none) : linkAt L fs p = none := by unfold linkAt; rw [h]

/-- One component more. -/
theorem follow_snoc {L : Links} {fs : Node} {r : List Str → Option (List Str)} (c : Str)
    (hr : ∀ p q, r p = some q → (lookup fs (q ++ [c]) = none → r (p ++ [c]) = none) ∧
      (∀ x, lookup fs (q ++ [c]) = some x → linkAt L fs (q ++ [c]) = none → r (p ++ [c]) = some (q ++ [c])) ∧
      (∀ t, linkAt L fs (q ++ [c]) = some t → r (p ++ [c]) = none ∨ ∃ k, r (p ++ [c]) = resolve L fs false k t))
    (hn : ∀ t, r t = none ∨ ∃ k, r t = resolve L fs false k t)
    (todo done q : List Str) (hf : follow L fs false r done todo = some q) :
    (lookup fs (q ++ [c]) = none → follow L fs false r done (todo ++ [c]) = none) ∧
    (∀ x, lookup fs (q ++ [c]) = some x → linkAt L fs (q ++ [c]) = none → follow L fs false r done (todo ++ [c]) = some (q ++ [c])) ∧
    (∀ t, linkAt L fs (q ++ [c]) = some t → follow L fs false r done (todo ++ [c]) = none ∨
      ∃ k, follow L fs false r done (todo ++ [c]) = resolve L fs false k t) := by
  induction todo generalizing done with
  | nil =>
    simp only [follow, Option.some.injEq] at hf
    subst hf
    simp only [List.nil_append, follow]
    refine ⟨fun h => by rw [h]; simp, fun x hx hk => by rw [hx, hk], fun t ht => ?_⟩
    have : ∃ x, lookup fs (done ++ [c]) = some x := by
      cases hx : lookup fs (done ++ [c]) with
      | none => rw [linkAt_none hx] at ht; cases ht
      | some x => exact ⟨x, rfl⟩
    obtain ⟨x, hx⟩ := this
    rw [hx, ht]
    dsimp only
    rw [List.append_nil]
    exact hn t
  | cons d rest ih =>
    simp only [follow, List.cons_append] at hf ⊢
    cases hl : lookup fs (done ++ [d]) with
    | none => rw [hl] at hf; simp at hf
    | some m =>
      rw [hl] at hf
      dsimp only at hf ⊢
      cases hk : linkAt L fs (done ++ [d]) with
      | some t =>
        rw [hk] at hf
        dsimp only at hf ⊢
        have := hr _ _ hf
        rw [List.append_assoc] at this
        exact this
      | none =>
        rw [hk] at hf
        exact ih _ hf

theorem resolve_snoc {L : Links} {fs : Node} (n : Nat) (p q : List Str) (c : Str) (hf : resolve L fs false n p = some q) :
    (lookup fs (q ++ [c]) = none → resolve L fs false n (p ++ [c]) = none) ∧
    (∀ x, lookup fs (q ++ [c]) = some x → linkAt L fs (q ++ [c]) = none → resolve L fs false n (p ++ [c]) = some (q ++ [c])) ∧
    (∀ t, linkAt L fs (q ++ [c]) = some t → resolve L fs false n (p ++ [c]) = none ∨
      ∃ k, resolve L fs false n (p ++ [c]) = resolve L fs false k t) := by
  induction n generalizing p q with
  | zero => exact follow_snoc c (fun p q h => by cases h) (fun t => .inl rfl) p [] q hf
  | succ n ih => exact follow_snoc c ih (fun t => .inr ⟨n, rfl⟩) p [] q hf

theorem place_snoc (L : Links) (n : Nat) (fs : Node) (p : List Str) (c : Str) :
    place L n fs (p ++ [c]) = (resolve L fs false n p).map (· ++ [c]) := by
  unfold place
  rw [List.getLast?_concat, List.dropLast_concat]
  cases resolve L fs false n p <;> rfl

/-- A place in a directory is named by its own path. -/
theorem place_phys {L : Links} {n : Nat} {fs : Node} {d : List Str} {es : Dict Str Node} (c : Str) (h : lookup fs d = some (.dir es)) :
    place L n fs (d ++ [c]) = some (d ++ [c]) := by
  rw [place_snoc, resolve_phys h (linkAt_dir h)]
  rfl

/-- A link is followed. -/
theorem follow_link {L : Links} {fs : Node} {new : Bool} {r : List Str → Option (List Str)} (todo done : List Str) {t : List Str}
    (hm : linkAt L fs (done ++ todo) = some t) (hne : todo ≠ []) : follow L fs new r done todo = r t := by
  have h : lookup fs (done ++ todo) = some .other := by
    unfold linkAt at hm
    split at hm
    · assumption
    · cases hm
  induction todo generalizing done with
  | nil => exact absurd rfl hne
  | cons c rest ih =>
    have e : done ++ c :: rest = done ++ [c] ++ rest := by simp
    rw [e] at h hm
    cases rest with
    | nil =>
      rw [List.append_nil] at h hm
      simp only [follow, h, hm, List.append_nil]
    | cons d rest =>
      have hl : ∃ x, lookup fs (done ++ [c]) = some x := by
        cases hx : lookup fs (done ++ [c]) with
        | none => rw [lookup_append, hx] at h; cases h
        | some x => exact ⟨x, rfl⟩
      obtain ⟨x, hx⟩ := hl
      have hk : linkAt L fs (done ++ [c]) = none := by
        unfold linkAt
        rw [hx]
        cases x with
        | other => rw [lookup_append, hx] at h; cases h
        | file => rfl
        | dir => rfl
      rw [follow, hx]
      dsimp only
      rw [hk]
      exact ih _ hm (by simp) h

theorem resolve_link {L : Links} {fs : Node} {new : Bool} {n : Nat} {p t : List Str} (h : linkAt L fs p = some t) (hp : p ≠ []) :
    resolve L fs new (n + 1) p = resolve L fs new n t := follow_link p [] h hp

/-- Whatever a path leads to exists. -/
theorem follow_exists {L : Links} {fs : Node} {r : List Str → Option (List Str)} (hr : ∀ p q, r p = some q → ∃ m, lookup fs q = some m)
    (todo done q : List Str) (hd : ∃ m, lookup fs done = some m) (h : follow L fs false r done todo = some q) :
    ∃ m, lookup fs q = some m := by
  induction todo generalizing done with
  | nil => simp only [follow, Option.some.injEq] at h; subst h; exact hd
  | cons c rest ih =>
    simp only [follow] at h
    cases hl : lookup fs (done ++ [c]) with
    | none => rw [hl] at h; simp at h
    | some m =>
      rw [hl] at h
      dsimp only at h
      cases hk : linkAt L fs (done ++ [c]) with
      | some t => rw [hk] at h; exact hr _ _ h
      | none => rw [hk] at h; exact ih _ ⟨m, hl⟩ h

theorem resolve_exists {L : Links} {fs : Node} {n : Nat} {p q : List Str} (h : resolve L fs false n p = some q) :
    ∃ m, lookup fs q = some m := by
  induction n generalizing p q with
  | zero => exact follow_exists (fun _ _ h => by cases h) p [] q ⟨fs, lookup_nil fs⟩ h
  | succ n ih => exact follow_exists (fun _ _ h => ih h) p [] q ⟨fs, lookup_nil fs⟩ h

/-! ## What deleting and putting change -/

theorem prefix_ne {a b : List Str} (h : a <+: b) (hne : a ≠ b) : ∃ c t, b = a ++ c :: t := by
  obtain ⟨t, rfl⟩ := h
  cases t with
  | nil => simp at hne
  | cons c t => exact ⟨c, t, rfl⟩

/-- What contains something is a directory. -/
theorem lookup_above {n : Node} {q : List Str} {c : Str} {t : List Str} {m : Node} (h : lookup n (q ++ c :: t) = some m) :
    ∃ es, lookup n q = some (.dir es) := by
  rw [lookup_append] at h
  cases hq : lookup n q with
  | none => rw [hq] at h; cases h
  | some x =>
    rw [hq] at h
    cases x with
    | dir es => exact ⟨es, rfl⟩
    | file => cases h
    | other => cases h

/-- The directories above what is put keep their entries; only the one that gets it may have one more. -/
theorem put_above {n : Node} {p q : List Str} {x n' : Node} (h : put n p x = some n') (hq : q <+: p) (hne : q ≠ p) :
    ∃ es es', lookup n q = some (.dir es) ∧ lookup n' q = some (.dir es') ∧
      (p.length ≠ q.length + 1 → es'.map Prod.fst = es.map Prod.fst) := by
  induction p generalizing n n' q with
  | nil => rw [List.prefix_nil] at hq; exact absurd hq hne
  | cons c p ih =>
    cases n with
    | file z => simp [put] at h
    | other => simp [put] at h
    | dir es =>
      cases p with
      | nil =>
        rw [put_one] at h
        cases h
        cases q with
        | nil => exact ⟨es, _, lookup_nil _, lookup_nil _, fun h => absurd rfl h⟩
        | cons d q =>
          obtain ⟨t, ht⟩ := hq
          simp only [List.cons_append, List.cons.injEq, List.append_eq_nil_iff] at ht
          obtain ⟨rfl, rfl, _⟩ := ht
          exact absurd rfl hne
      | cons d p =>
        rw [put_cons] at h
        cases hg : Dict.get? es c with
        | none => rw [hg] at h; cases h
        | some k =>
          rw [hg, Option.bind_some] at h
          cases hk : put k (d :: p) x with
          | none => rw [hk] at h; cases h
          | some k' =>
            rw [hk] at h
            cases h
            cases q with
            | nil =>
              refine ⟨es, _, lookup_nil _, lookup_nil _, fun _ => ?_⟩
              exact Dict.keys_set_of_mem _ (Decidable.byContradiction fun hc => by
                rw [(Dict.get?_eq_none_iff _ _).mpr hc] at hg; cases hg)
            | cons e q =>
              obtain ⟨t, ht⟩ := hq
              simp only [List.cons_append, List.cons.injEq] at ht
              obtain ⟨rfl, ht⟩ := ht
              obtain ⟨es1, es2, h1, h2, h3⟩ := ih hk ⟨t, ht⟩ (fun e => hne (by rw [e]))
              refine ⟨es1, es2, ?_, ?_, fun hl => h3 (by simpa using hl)⟩
              · rw [lookup_dir, hg]; exact h1
              · rw [lookup_dir, Dict.get?_set_same]; exact h2

end Verif.FileLinks
