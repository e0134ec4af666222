import Verif.Props.FileLinksWrite
/-!
# C141: copying over what is there

`entry w q` is what is at the place `q` (no links are followed in `q`).  The theorems say what `copyTo` does to the entries of all
places when there is something at the destination already, links included, and also when it stops with an error.
-/
namespace Verif.FileLinks
open Verif.Py Verif.Py.Path Verif.FilePath

/-- Of the same sort: a file, a directory, or something else. -/
def alike : Node → Node → Prop
  | .dir _, .dir _ => True
  | .file _, .file _ => True
  | .other, .other => True
  | _, _ => False

theorem alike_refl (m : Node) : alike m m := by cases m <;> simp [alike]

theorem alike_trans {a b c : Node} (h1 : alike a b) (h2 : alike b c) : alike a c := by
  cases a <;> cases b <;> cases c <;> simp_all [alike]

/-- Nothing has gone, and everything is still of its sort. -/
def Stays (a b : Node) : Prop := ∀ q m, lookup a q = some m → ∃ m', lookup b q = some m' ∧ alike m m'

theorem Stays.refl (a : Node) : Stays a a := fun _ m h => ⟨m, h, alike_refl m⟩

theorem Stays.trans {a b c : Node} (h1 : Stays a b) (h2 : Stays b c) : Stays a c := fun q m h => by
  obtain ⟨m1, e1, s1⟩ := h1 q m h
  obtain ⟨m2, e2, s2⟩ := h2 q m1 e1
  exact ⟨m2, e2, alike_trans s1 s2⟩

theorem Stays.keeps {a b : Node} (h : Stays a b) : Keeps a b := fun q m hl => by
  obtain ⟨m', h', s⟩ := h q m hl
  refine ⟨m', h', ?_⟩
  cases m <;> cases m' <;> simp_all [alike]

theorem stat_stays {L : Links} {a b : Node} (h : Stays a b) {n : Nat} {p : List Str} {m : Node} (hs : stat L n a p = some m) :
    ∃ m', stat L n b p = some m' ∧ alike m m' := by
  unfold stat at hs ⊢
  cases hr : resolve L a false n p with
  | none => rw [hr] at hs; cases hs
  | some q =>
    rw [hr] at hs
    rw [resolve_keeps h.keeps n p q hr]
    exact h q m hs

theorem Stays.entry_file {L : Links} {a b : Node} (h : Stays a b) {q : List Str}
    (hb : entry ⟨b, L⟩ q = none ∨ ∃ y, entry ⟨b, L⟩ q = some (.file y)) :
    entry ⟨a, L⟩ q = none ∨ ∃ y, entry ⟨a, L⟩ q = some (.file y) := by
  cases hl : lookup a q with
  | none => exact .inl (entry_none.2 hl)
  | some m =>
    obtain ⟨m', h', s⟩ := h q m hl
    rcases hb with hb | ⟨y, hb⟩
    · rw [entry_none] at hb
      dsimp only at hb
      rw [hb] at h'; cases h'
    · rw [FileLinks.entry_file] at hb
      dsimp only at hb
      rw [hb] at h'; cases h'
      cases m with
      | file z => exact .inr ⟨z, FileLinks.entry_file.2 hl⟩
      | dir es => exact absurd s (by simp [alike])
      | other => exact absurd s (by simp [alike])

theorem Stays.entry_none {L : Links} {a b : Node} (h : Stays a b) {q : List Str} (hb : entry ⟨b, L⟩ q = none) :
    entry ⟨a, L⟩ q = none := by
  rw [FileLinks.entry_none] at hb ⊢
  dsimp only at hb ⊢
  cases hl : lookup a q with
  | none => rfl
  | some m =>
    obtain ⟨m', h', -⟩ := h q m hl
    rw [hb] at h'; cases h'

theorem put_stays {fs fs' : Node} {r : List Str} {x : Node} (h : put fs r x = some fs')
    (hr : ∀ m, lookup fs r = some m → alike m x) (hb : ∀ m, lookup fs r = some m → ∀ es, m ≠ .dir es) : Stays fs fs' := by
  intro q m hq
  by_cases e : q = r
  · subst e
    exact ⟨_, put_get h, hr m hq⟩
  · have h1 : ¬ r <+: q := by
      intro h1
      obtain ⟨c, t, rfl⟩ := prefix_ne h1 (Ne.symm e)
      rw [lookup_append] at hq
      cases hl : lookup fs r with
      | none => rw [hl] at hq; cases hq
      | some m0 =>
        rw [hl] at hq
        cases m0 with
        | dir es => exact hb _ hl es rfl
        | file => simp [lookup] at hq
        | other => simp [lookup] at hq
    by_cases h2 : q <+: r
    · obtain ⟨e1, e2, h3, h4, -⟩ := put_above h h2 e
      rw [hq] at h3
      cases h3
      exact ⟨_, h4, by simp [alike]⟩
    · exact ⟨m, by rw [put_other h h1 h2, hq], alike_refl m⟩

/-- A new directory. -/
theorem put_entries_dir {L : Links} {fs fs' : Node} {r : List Str} (h : put fs r (.dir []) = some fs')
    (hr : lookup fs r = none) (q : List Str) : entry ⟨fs', L⟩ q = if q = r then some .dir else entry ⟨fs, L⟩ q := by
  by_cases e : q = r
  · subst e
    rw [if_pos rfl]
    exact entry_dir.2 ⟨_, put_get h⟩
  · rw [if_neg e]
    by_cases h1 : r <+: q
    · obtain ⟨c, t, rfl⟩ := prefix_ne h1 (Ne.symm e)
      have a : lookup fs (r ++ c :: t) = none := by rw [lookup_append, hr]; rfl
      have b : lookup fs' (r ++ c :: t) = none := by
        rw [lookup_append, put_get h]
        simp [lookup_dir, Dict.get?]
      exact (entry_none (w := ⟨fs', L⟩).2 b).trans (entry_none (w := ⟨fs, L⟩).2 a).symm
    · by_cases h2 : q <+: r
      · obtain ⟨e1, e2, h3, h4, -⟩ := put_above h h2 e
        exact (entry_dir (w := ⟨fs', L⟩).2 ⟨_, h4⟩).trans (entry_dir (w := ⟨fs, L⟩).2 ⟨_, h3⟩).symm
      · unfold entry
        dsimp only
        rw [put_other h h1 h2]

/-- What a path leads to once it has been made. -/
theorem follow_made {L : Links} {a b : Node} (h : Keeps a b) {ra rb : List Str → Option (List Str)} {q : List Str} {m : Node}
    (hr : ∀ p, ra p = some q → rb p = some q) (hq : lookup b q = some m) (hk : linkAt L b q = none) (todo done : List Str)
    (hf : follow L a true ra done todo = some q) : follow L b false rb done todo = some q := by
  induction todo generalizing done with
  | nil => exact hf
  | cons c rest ih =>
    rw [follow] at hf ⊢
    cases hl : lookup a (done ++ [c]) with
    | none =>
      rw [hl] at hf
      cases rest with
      | nil =>
        simp only [List.isEmpty_nil, Bool.and_self, if_true, Option.some.injEq] at hf
        rw [hf, hq]
        dsimp only
        rw [hk]
        rfl
      | cons x y => simp at hf
    | some m' =>
      obtain ⟨m2, h', -⟩ := h _ m' hl
      rw [hl] at hf
      rw [h', h.linkAt hl]
      dsimp only at hf ⊢
      cases hk' : linkAt L a (done ++ [c]) with
      | none => rw [hk'] at hf; exact ih _ hf
      | some t => rw [hk'] at hf; exact hr _ hf

theorem resolve_made {L : Links} {a b : Node} (h : Keeps a b) {q : List Str} {m : Node} (hq : lookup b q = some m)
    (hk : linkAt L b q = none) (n : Nat) (p : List Str) (hr : resolve L a true n p = some q) : resolve L b false n p = some q := by
  induction n generalizing p with
  | zero => exact follow_made h (fun _ h => by cases h) hq hk p [] hr
  | succ n ih => exact follow_made h ih hq hk p [] hr

/-! ## What can change -/

/-- What may happen to the entry of the place `q`: a file is made or its contents change, where the path leads to a file of the
source; a directory is made, where the path leads to a directory of the source. -/
def Change (L : Links) (n : Nat) (src dst : List Str) (a b : Node) (q : List Str) : Prop :=
  ∃ r, resolve L b false n (dst ++ r) = some q ∧
    ((∃ x y, entry ⟨b, L⟩ q = some (.file x) ∧ stat L n b (src ++ r) = some (.file y) ∧
        (entry ⟨a, L⟩ q = none ∨ ∃ z, entry ⟨a, L⟩ q = some (.file z))) ∨
     (∃ es, entry ⟨b, L⟩ q = some .dir ∧ stat L n b (src ++ r) = some (.dir es) ∧ entry ⟨a, L⟩ q = none))

def Touches (L : Links) (n : Nat) (src dst : List Str) (a b : Node) : Prop :=
  Stays a b ∧ ∀ q, entry ⟨b, L⟩ q ≠ entry ⟨a, L⟩ q → Change L n src dst a b q

theorem Touches.refl (L : Links) (n : Nat) (src dst : List Str) (a : Node) : Touches L n src dst a a :=
  ⟨.refl a, fun _ h => absurd rfl h⟩

theorem Touches.trans {L : Links} {n : Nat} {src dst : List Str} {a b c : Node} (h1 : Touches L n src dst a b)
    (h2 : Touches L n src dst b c) : Touches L n src dst a c := by
  refine ⟨h1.1.trans h2.1, fun q hq => ?_⟩
  by_cases e : entry ⟨c, L⟩ q = entry ⟨b, L⟩ q
  · obtain ⟨r, hr, h⟩ := h1.2 q (by rw [← e]; exact hq)
    refine ⟨r, resolve_keeps h2.1.keeps n _ q hr, ?_⟩
    rcases h with ⟨x, y, e1, e2, e3⟩ | ⟨es, e1, e2, e3⟩
    · obtain ⟨m', e4, s⟩ := stat_stays h2.1 e2
      cases m' with
      | file y' => exact .inl ⟨x, y', by rw [e, e1], e4, e3⟩
      | dir => exact absurd s (by simp [alike])
      | other => exact absurd s (by simp [alike])
    · obtain ⟨m', e4, s⟩ := stat_stays h2.1 e2
      cases m' with
      | dir y' => exact .inr ⟨y', by rw [e, e1], e4, e3⟩
      | file => exact absurd s (by simp [alike])
      | other => exact absurd s (by simp [alike])
  · obtain ⟨r, hr, h⟩ := h2.2 q e
    refine ⟨r, hr, ?_⟩
    rcases h with ⟨x, y, e1, e2, e3⟩ | ⟨es, e1, e2, e3⟩
    · exact .inl ⟨x, y, e1, e2, h1.1.entry_file e3⟩
    · exact .inr ⟨es, e1, e2, h1.1.entry_none e3⟩

theorem Touches.child {L : Links} {n : Nat} {src dst : List Str} {c : Str} {a b : Node}
    (h : Touches L n (src ++ [c]) (dst ++ [c]) a b) : Touches L n src dst a b := by
  refine ⟨h.1, fun q hq => ?_⟩
  obtain ⟨r, hr, h⟩ := h.2 q hq
  refine ⟨c :: r, by simpa using hr, ?_⟩
  simpa using h

theorem touches_children {L : Links} {n : Nat} {src dst : List Str} {rec : Node → Str → Option (Node × Option PyErr)}
    (hrec : ∀ fs c fs' e, rec fs c = some (fs', e) → Touches L n src dst fs fs') (cs : List Str) (fs fs' : Node) (e : Option PyErr)
    (h : copyChildren rec fs cs = some (fs', e)) : Touches L n src dst fs fs' := by
  induction cs generalizing fs with
  | nil => cases h; exact .refl ..
  | cons c cs ih =>
    rw [copyChildren] at h
    split at h
    · cases h
    · next fs1 e1 h1 => cases h; exact hrec _ _ _ _ h1
    · next fs1 h1 => exact (hrec _ _ _ _ h1).trans (ih _ h)

theorem openW_ok {fs fs1 : Node} {q : List Str} (h : openW fs q = .ok fs1) :
    put fs q (.file []) = some fs1 ∧ (lookup fs q = none ∨ ∃ y, lookup fs q = some (.file y)) := by
  unfold openW at h
  split at h
  · cases h
  · cases h
  · next h1 h2 =>
    refine ⟨?_, ?_⟩
    · split at h
      · next fs' hp => cases h; exact hp
      · cases h
    · cases hl : lookup fs q with
      | none => exact .inl rfl
      | some m =>
        cases m with
        | dir es => exact absurd hl (h1 es)
        | other => exact absurd hl h2
        | file y => exact .inr ⟨y, rfl⟩

theorem mkdir_ok {fs fs1 : Node} {q : List Str} (h : mkdir fs q = .ok fs1) :
    put fs q (.dir []) = some fs1 ∧ lookup fs q = none := by
  unfold mkdir at h
  split at h
  · cases h
  · next hl =>
    split at h
    · next fs' hp => cases h; exact ⟨hp, hl⟩
    · cases h

theorem touches_file {L : Links} {n : Nat} {src dst : List Str} {fs fs' : Node} {q : List Str} {x y : List Nat}
    (hq : resolve L fs true n dst = some q ∨ resolve L fs false n dst = some q) (hp : put fs q (.file x) = some fs')
    (hl : lookup fs q = none ∨ ∃ y, lookup fs q = some (.file y)) (hs : stat L n fs src = some (.file y)) :
    Touches L n src dst fs fs' := by
  have hst : Stays fs fs' := by
    refine put_stays hp (fun m hm => ?_) (fun m hm es => ?_)
    · rcases hl with hl | ⟨y, hl⟩ <;> rw [hl] at hm <;> cases hm
      simp [alike]
    · rcases hl with hl | ⟨y, hl⟩ <;> rw [hl] at hm <;> cases hm
      simp
  refine ⟨hst, fun p hne => ?_⟩
  rw [put_entries hp hl] at hne
  split at hne
  · next e =>
    subst e
    obtain ⟨m', e4, s⟩ := stat_stays hst hs
    cases m' with
    | file y' =>
      refine ⟨[], ?_, .inl ⟨x, y', ?_, by simpa using e4, ?_⟩⟩
      · rw [List.append_nil]
        rcases hq with hq | hq
        · exact resolve_made hst.keeps (put_get hp) (linkAt_file (put_get hp)) n dst hq
        · exact resolve_keeps hst.keeps n dst p hq
      · exact entry_file.2 (put_get hp)
      · rcases hl with hl | ⟨y, hl⟩
        · exact .inl (entry_none.2 hl)
        · exact .inr ⟨y, entry_file.2 hl⟩
    | dir => exact absurd s (by simp [alike])
    | other => exact absurd s (by simp [alike])
  · exact absurd rfl hne

theorem resolve_mkdir {L : Links} {n : Nat} {dst q : List Str} {fs fs' : Node} (hst : Keeps fs fs') (hp : place L n fs dst = some q)
    (hn : lookup fs q = none) {m : Node} (hl : lookup fs' q = some m) (hk : linkAt L fs' q = none) : resolve L fs' false n dst = some q := by
  cases dst using List.reverseRecOn with
  | nil =>
    simp only [place, List.getLast?_nil, Option.some.injEq] at hp
    subst hp
    rw [lookup_nil] at hn
    cases hn
  | append_singleton d c =>
    rw [place_snoc] at hp
    cases hr : resolve L fs false n d with
    | none => rw [hr] at hp; cases hp
    | some d' =>
      rw [hr] at hp
      simp only [Option.map_some, Option.some.injEq] at hp
      subst hp
      exact (resolve_snoc n d d' c (resolve_keeps hst n d d' hr)).2.1 m hl hk

theorem touches_mkdir {L : Links} {n : Nat} {src dst : List Str} {fs fs' : Node} {es : Dict Str Node}
    (h : mkdirAt L n fs dst = .ok fs') (hs : stat L n fs src = some (.dir es)) : Touches L n src dst fs fs' := by
  unfold mkdirAt at h
  split at h
  · cases h
  · next q hq =>
    obtain ⟨hp, hl⟩ := mkdir_ok h
    have hst : Stays fs fs' := put_stays hp (fun m hm => by rw [hl] at hm; cases hm) (fun m hm => by rw [hl] at hm; cases hm)
    refine ⟨hst, fun p hne => ?_⟩
    rw [put_entries_dir hp hl] at hne
    split at hne
    · next e =>
      subst e
      obtain ⟨m', e4, s⟩ := stat_stays hst hs
      cases m' with
      | dir y' =>
        refine ⟨[], ?_, .inr ⟨y', entry_dir.2 ⟨_, put_get hp⟩, by simpa using e4, entry_none.2 hl⟩⟩
        rw [List.append_nil]
        exact resolve_mkdir hst.keeps hq hl (put_get hp) (linkAt_dir (put_get hp))
      | file => exact absurd s (by simp [alike])
      | other => exact absurd s (by simp [alike])
    · exact absurd rfl hne

theorem copyTo_touches (L : Links) (n k : Nat) (fuel : Nat) (fs : Node) (src dst : List Str) (fs' : Node) (e : Option PyErr)
    (h : copyTo L n k fuel fs src dst = some (fs', e)) : Touches L n src dst fs fs' := by
  induction fuel generalizing fs src dst fs' e with
  | zero => cases h
  | succ fuel ih =>
    rw [copyTo] at h
    split at h
    · next es hs =>
      split at h
      · cases h; exact .refl ..
      · next fs1 h1 =>
        have ht : Touches L n src dst fs fs1 := by
          split at h1
          · cases h1; exact .refl ..
          · exact touches_mkdir h1 hs
        split at h
        · exact ht.trans (touches_children (fun a c b e hc => (ih _ _ _ _ _ hc).child) _ _ _ _ h)
        · cases h; exact ht
    · next y hs =>
      split at h
      · cases h; exact .refl ..
      · next q hq =>
        split at h
        · cases h; exact .refl ..
        · next fs1 h1 =>
          obtain ⟨hp, hl⟩ := openW_ok h1
          have ht : Touches L n src dst fs fs1 := touches_file (.inl hq) hp hl hs
          split at h
          · next z hz =>
            split at h
            · cases h
            · next w hw =>
              split at h
              · next fs2 h2 =>
                cases h
                exact ht.trans (touches_file
                  (.inr (resolve_made ht.1.keeps (put_get hp) (linkAt_file (put_get hp)) n dst hq)) h2 (.inr ⟨_, put_get hp⟩) hz)
              · cases h; exact ht
          · cases h; exact ht
    · cases h; exact .refl ..

/-- **C141**: `copyTo` removes nothing and replaces nothing by something of another sort, whatever is at the destination and
whether it returns or raises: a directory stays a directory, a link stays the link it was, a file stays a file. -/
theorem copyTo_keeps (L : Links) (n k fuel : Nat) (fs : Node) (src dst : List Str) (fs' : Node) (e : Option PyErr)
    (h : copyTo L n k fuel fs src dst = some (fs', e)) (q : List Str) :
    (entry ⟨fs, L⟩ q = some .dir → entry ⟨fs', L⟩ q = some .dir) ∧
    (∀ t, entry ⟨fs, L⟩ q = some (.link t) → entry ⟨fs', L⟩ q = some (.link t)) ∧
    (entry ⟨fs, L⟩ q = some .special → entry ⟨fs', L⟩ q = some .special) ∧
    (∀ x, entry ⟨fs, L⟩ q = some (.file x) → ∃ y, entry ⟨fs', L⟩ q = some (.file y)) := by
  have ht := copyTo_touches L n k fuel fs src dst fs' e h
  by_cases he : entry ⟨fs', L⟩ q = entry ⟨fs, L⟩ q
  · rw [he]
    exact ⟨id, fun _ => id, id, fun x hx => ⟨x, hx⟩⟩
  · obtain ⟨r, -, ⟨x, y, h1, -, h2⟩ | ⟨es, h1, -, h2⟩⟩ := ht.2 q he
    · rcases h2 with h2 | ⟨z, h2⟩ <;> rw [h1, h2] <;> simp
    · rw [h2]; simp

/-- **C141**: every entry that is changed or made is one that the destination, followed by a path of the source, leads to: a file
where the source has a file, a new directory where the source has a directory.  Also when `copyTo` raises. -/
theorem copyTo_changes (L : Links) (n k fuel : Nat) (fs : Node) (src dst : List Str) (fs' : Node) (e : Option PyErr)
    (h : copyTo L n k fuel fs src dst = some (fs', e)) (q : List Str) (hq : entry ⟨fs', L⟩ q ≠ entry ⟨fs, L⟩ q) :
    ∃ r, resolve L fs' false n (dst ++ r) = some q ∧
      ((∃ x y, entry ⟨fs', L⟩ q = some (.file x) ∧ stat L n fs' (src ++ r) = some (.file y) ∧
          (entry ⟨fs, L⟩ q = none ∨ ∃ z, entry ⟨fs, L⟩ q = some (.file z))) ∨
       (∃ es, entry ⟨fs', L⟩ q = some .dir ∧ stat L n fs' (src ++ r) = some (.dir es) ∧ entry ⟨fs, L⟩ q = none)) :=
  (copyTo_touches L n k fuel fs src dst fs' e h).2 q hq

/-! ## Within the destination -/

theorem linkAt_entry {L : Links} {fs : Node} {q : List Str} : linkAt L fs q = none ↔ ∀ t, entry ⟨fs, L⟩ q ≠ some (.link t) := by
  constructor
  · intro h t ht
    have := entry_link.1 ht
    dsimp only at this
    rw [h] at this
    cases this
  · intro h
    cases hl : linkAt L fs q with
    | none => rfl
    | some t => exact absurd (entry_link (w := ⟨fs, L⟩).2 hl) (h t)

theorem follow_upto {L : Links} {fs : Node} {r : List Str → Option (List Str)} (b : List Str)
    (hr : ∀ p q, r (p ++ b) = some q → ∃ q', r p = some q') (todo done q : List Str)
    (h : follow L fs false r done (todo ++ b) = some q) : ∃ q', follow L fs false r done todo = some q' := by
  induction todo generalizing done with
  | nil => exact ⟨done, rfl⟩
  | cons c rest ih =>
    rw [List.cons_append, follow] at h
    rw [follow]
    cases hl : lookup fs (done ++ [c]) with
    | none => rw [hl] at h; simp at h
    | some m =>
      rw [hl] at h
      dsimp only at h ⊢
      cases hk : linkAt L fs (done ++ [c]) with
      | none => rw [hk] at h; exact ih _ h
      | some t =>
        rw [hk] at h
        dsimp only at h ⊢
        rw [← List.append_assoc] at h
        exact hr _ _ h

theorem resolve_upto {L : Links} {fs : Node} (n : Nat) (a b q : List Str) (h : resolve L fs false n (a ++ b) = some q) :
    ∃ q', resolve L fs false n a = some q' := by
  induction n generalizing a q with
  | zero => exact follow_upto b (fun _ _ h => by cases h) a [] q h
  | succ n ih => exact follow_upto b ih a [] q h

/-- Where there are no links, a path leads to the place it names. -/
theorem resolve_below {L : Links} {fs : Node} {n : Nat} {p q0 : List Str} (h : resolve L fs false n p = some q0)
    (hno : ∀ r, linkAt L fs (q0 ++ r) = none) (r q : List Str) (hq : resolve L fs false n (p ++ r) = some q) : q = q0 ++ r := by
  induction r generalizing p q0 with
  | nil => simp_all
  | cons c r ih =>
    have e : p ++ c :: r = p ++ [c] ++ r := by simp
    rw [e] at hq
    obtain ⟨q', hq'⟩ := resolve_upto n _ _ _ hq
    obtain ⟨h1, h2, -⟩ := resolve_snoc n p q0 c h
    cases hl : lookup fs (q0 ++ [c]) with
    | none => rw [h1 hl] at hq'; cases hq'
    | some m =>
      have := ih (h2 m hl (hno [c])) (fun r => by simpa using hno (c :: r)) hq
      simpa using this

/-- The destination, once there is something. -/
theorem resolve_place {L : Links} {n : Nat} {dst d q : List Str} {fs fs' : Node} (hst : Keeps fs fs') (hp : place L n fs dst = some d)
    (hk : linkAt L fs' d = none) (h : resolve L fs' false n dst = some q) : q = d := by
  cases dst using List.reverseRecOn with
  | nil =>
    simp only [place, List.getLast?_nil, Option.some.injEq] at hp
    rw [resolve_eq, follow] at h
    cases h
    exact hp
  | append_singleton d0 c =>
    rw [place_snoc] at hp
    cases hr : resolve L fs false n d0 with
    | none => rw [hr] at hp; cases hp
    | some d' =>
      rw [hr] at hp
      simp only [Option.map_some, Option.some.injEq] at hp
      subst hp
      obtain ⟨h1, h2, -⟩ := resolve_snoc n d0 d' c (resolve_keeps hst n d0 d' hr)
      cases hl : lookup fs' (d' ++ [c]) with
      | none => rw [h1 hl] at h; cases h
      | some m => rw [h2 m hl hk] at h; cases h; rfl

theorem no_links_after {L : Links} {n : Nat} {src dst : List Str} {fs fs' : Node} (ht : Touches L n src dst fs fs') {q : List Str}
    (h : linkAt L fs q = none) : linkAt L fs' q = none := by
  rw [linkAt_entry] at h ⊢
  intro t
  by_cases he : entry ⟨fs', L⟩ q = entry ⟨fs, L⟩ q
  · rw [he]; exact h t
  · obtain ⟨r, -, ⟨x, y, h1, -, h2⟩ | ⟨es, h1, -, h2⟩⟩ := ht.2 q he <;> rw [h1] <;> simp

theorem touches_within {L : Links} {n : Nat} {src dst d : List Str} {fs fs' : Node} (ht : Touches L n src dst fs fs')
    (hd : place L n fs dst = some d) (hno : ∀ r, linkAt L fs (d ++ r) = none) (q : List Str)
    (hq : entry ⟨fs', L⟩ q ≠ entry ⟨fs, L⟩ q) : ∃ r m, q = d ++ r ∧ stat L n fs' (src ++ r) = some m := by
  obtain ⟨r, hr, hc⟩ := ht.2 q hq
  obtain ⟨q', hq'⟩ := resolve_upto n _ _ _ hr
  have hno' := fun r => no_links_after ht (hno r)
  have e := resolve_place ht.1.keeps hd (by simpa using hno' []) hq'
  subst e
  have := resolve_below hq' hno' r q hr
  rcases hc with ⟨x, y, -, h2, -⟩ | ⟨es, -, h2, -⟩
  · exact ⟨r, _, this, h2⟩
  · exact ⟨r, _, this, h2⟩

/-- **C141**: if there are no links at or below the place `d` of the destination, nothing changes outside it; and in it only what
the source has too.  Also when `copyTo` raises.

Missing: destinations with links (`copyTo_escapes_fails`). -/
theorem copyTo_within_partial (L : Links) (n k fuel : Nat) (fs : Node) (src dst d : List Str) (fs' : Node) (e : Option PyErr)
    (h : copyTo L n k fuel fs src dst = some (fs', e)) (hd : place L n fs dst = some d) (hno : ∀ r, linkAt L fs (d ++ r) = none)
    (q : List Str) (hq : ∀ r m, stat L n fs' (src ++ r) = some m → q ≠ d ++ r) : entry ⟨fs', L⟩ q = entry ⟨fs, L⟩ q := by
  by_cases he : entry ⟨fs', L⟩ q = entry ⟨fs, L⟩ q
  · exact he
  · obtain ⟨r, m, e1, e2⟩ := touches_within (copyTo_touches L n k fuel fs src dst fs' e h) hd hno q he
    exact absurd e1 (hq r m e2)

/-! ## The result -/

/-- What is at a place afterwards, from what the source has and what was there. -/
def overlay : Option Entry → Option Entry → Option Entry
  | none, old => old
  | some .dir, some old => some old
  | some new, _ => some new

theorem overlay_twice (a b : Option Entry) : overlay a (overlay a b) = overlay a b := by
  rcases a with _ | (_ | _ | _ | _) <;> rcases b with _ | b <;> rfl

theorem copyLoop_some (k fuel : Nat) (rest written w : List Nat) (h : copyLoop k fuel rest written = some w) : w = written ++ rest := by
  induction fuel generalizing rest written with
  | zero => cases h
  | succ fuel ih =>
    rw [copyLoop] at h
    split at h
    · next hlt =>
      cases h
      rw [List.length_take] at hlt
      rw [List.take_of_length_le (by omega)]
    · rw [ih _ _ h, List.append_assoc, List.take_append_drop]

theorem not_prefix_snoc {a b : List Str} (c : Str) (h : ¬ a <+: b) (h' : ¬ b <+: a) : ¬ a ++ [c] <+: b ++ [c] := by
  intro hp
  have h1 : a <+: b ++ [c] := (List.prefix_append a [c]).trans hp
  rcases List.prefix_or_prefix_of_prefix h1 (List.prefix_append b [c]) with h2 | h2
  · exact h h2
  · exact h' h2

theorem entry_below_nondir {L : Links} {fs : Node} {s : List Str} (h : ∀ es, lookup fs s ≠ some (.dir es)) (c : Str) (r : List Str) :
    entry ⟨fs, L⟩ (s ++ c :: r) = none := by
  rw [entry_none]
  dsimp only
  rw [lookup_append]
  cases hl : lookup fs s with
  | none => rfl
  | some m =>
    cases m with
    | dir es => exact absurd hl (h es)
    | file => rfl
    | other => rfl

theorem entry_ne_none {L : Links} {fs : Node} {q : List Str} (h : entry ⟨fs, L⟩ q ≠ none) : ∃ m, lookup fs q = some m := by
  cases hl : lookup fs q with
  | none => exact absurd (entry_none (w := ⟨fs, L⟩).2 hl) h
  | some m => exact ⟨m, rfl⟩

theorem overlay_aux (L : Links) (n k fuel : Nat) (fs : Node) (src dst s d : List Str) (fs' : Node)
    (hs : resolve L fs false n src = some s) (hd : place L n fs dst = some d) (hsd : ¬ s <+: d) (hds : ¬ d <+: s)
    (hns : ∀ r, linkAt L fs (s ++ r) = none) (hnd : ∀ r, linkAt L fs (d ++ r) = none)
    (h : copyTo L n k fuel fs src dst = some (fs', none)) (r : List Str) :
    entry ⟨fs', L⟩ (d ++ r) = overlay (entry ⟨fs, L⟩ (s ++ r)) (entry ⟨fs, L⟩ (d ++ r)) := by
  induction fuel generalizing fs src dst s d fs' r with
  | zero => cases h
  | succ fuel ih =>
    have hst : ∀ m, stat L n fs src = some m → lookup fs s = some m := by
      intro m hm; unfold stat at hm; rw [hs] at hm; exact hm
    rw [copyTo] at h
    split at h
    · next es0 hs0 =>
      have hls := hst _ hs0
      split at h
      · cases h
      · next fs1 h1 =>
        have ht1 : Touches L n src dst fs fs1 := by
          split at h1
          · cases h1; exact .refl ..
          · exact touches_mkdir h1 hs0
        -- the destination after it has perhaps been made
        have hfirst : resolve L fs1 false n dst = some d ∧ (∀ q, q ≠ d → entry ⟨fs1, L⟩ q = entry ⟨fs, L⟩ q) ∧
            entry ⟨fs1, L⟩ d = overlay (some .dir) (entry ⟨fs, L⟩ d) := by
          split at h1
          · next m hm =>
            cases h1
            unfold stat at hm
            cases hr : resolve L fs false n dst with
            | none => rw [hr] at hm; cases hm
            | some q =>
              have e : q = d := resolve_place (fun q m hl => ⟨m, hl, Iff.rfl⟩) hd (by simpa using hnd []) hr
              subst e
              rw [hr] at hm
              dsimp only at hm
              refine ⟨rfl, fun _ _ => rfl, ?_⟩
              cases he : entry ⟨fs, L⟩ q with
              | none => rw [entry_none] at he; dsimp only at he; rw [he] at hm; cases hm
              | some x => rfl
          · next hm =>
            unfold mkdirAt at h1
            rw [hd] at h1
            dsimp only at h1
            obtain ⟨hp, hl⟩ := mkdir_ok h1
            refine ⟨resolve_mkdir ht1.1.keeps hd hl (put_get hp) (linkAt_dir (put_get hp)), fun q hq => ?_, ?_⟩
            · rw [put_entries_dir hp hl, if_neg hq]
            · rw [put_entries_dir hp hl, if_pos rfl, entry_none.2 hl]; rfl
        obtain ⟨hrd, hoth, hown⟩ := hfirst
        split at h
        · next es hes =>
          have hrs1 := resolve_keeps ht1.1.keeps n src s hs
          have hls1 : lookup fs1 s = some (.dir es) := by unfold stat at hes; rw [hrs1] at hes; exact hes
          have hkeys : ∀ c, c ∈ es.map Prod.fst ↔ entry ⟨fs, L⟩ (s ++ [c]) ≠ none := by
            intro c
            rw [← hoth (s ++ [c]) (fun e => hsd (by rw [← e]; exact List.prefix_append ..)), Ne, entry_none]
            dsimp only
            rw [lookup_child hls1, Dict.get?_eq_none_iff]
            simp [Dict.keys]
          have loop : ∀ cs fsi, (∀ c ∈ cs, c ∈ es.map Prod.fst) →
              copyChildren (fun fs c => copyTo L n k fuel fs (src ++ [c]) (dst ++ [c])) fsi cs = some (fs', none) →
              Stays fs1 fsi → (∀ q, ¬ d <+: q → entry ⟨fsi, L⟩ q = entry ⟨fs, L⟩ q) →
              entry ⟨fsi, L⟩ d = entry ⟨fs1, L⟩ d →
              (∀ c r, entry ⟨fsi, L⟩ (d ++ c :: r) = entry ⟨fs, L⟩ (d ++ c :: r) ∨
                entry ⟨fsi, L⟩ (d ++ c :: r) = overlay (entry ⟨fs, L⟩ (s ++ c :: r)) (entry ⟨fs, L⟩ (d ++ c :: r))) →
              entry ⟨fs', L⟩ d = entry ⟨fs1, L⟩ d ∧
              ∀ c r, entry ⟨fs', L⟩ (d ++ c :: r) = if c ∈ cs
                then overlay (entry ⟨fs, L⟩ (s ++ c :: r)) (entry ⟨fs, L⟩ (d ++ c :: r)) else entry ⟨fsi, L⟩ (d ++ c :: r) := by
            intro cs
            induction cs with
            | nil =>
              intro fsi _ hc _ _ h3 _
              cases hc
              exact ⟨h3, fun c r => by simp⟩
            | cons c cs ihc =>
              intro fsi hin hc hsi hout hd1 hmid
              rw [copyChildren] at hc
              split at hc
              · cases hc
              · cases hc
              · next fsj hj =>
                have hsrc : ∀ r, entry ⟨fsi, L⟩ (s ++ r) = entry ⟨fs, L⟩ (s ++ r) := by
                  intro r
                  refine hout _ fun hp => ?_
                  rcases List.prefix_or_prefix_of_prefix hp (List.prefix_append s r) with h2 | h2
                  · exact hds h2
                  · exact hsd h2
                have hnsi : ∀ r, linkAt L fsi (s ++ [c] ++ r) = none := by
                  intro r
                  rw [List.append_assoc, linkAt_entry, hsrc, ← linkAt_entry]
                  exact hns _
                have hndi : ∀ r, linkAt L fsi (d ++ [c] ++ r) = none := by
                  intro r
                  have e1 := linkAt_entry.1 (hns (c :: r))
                  have e2 := linkAt_entry.1 (hnd (c :: r))
                  rw [List.append_assoc, List.singleton_append, linkAt_entry]
                  intro t ht
                  rcases hmid c r with e | e
                  · rw [e] at ht; exact e2 t ht
                  · rw [e] at ht
                    generalize entry ⟨fs, L⟩ (s ++ c :: r) = x at *
                    generalize entry ⟨fs, L⟩ (d ++ c :: r) = y at *
                    rcases x with _ | (_ | _ | _ | _) <;> rcases y with _ | y <;> simp_all [overlay]
                obtain ⟨m, hm⟩ := entry_ne_none (L := L) (fs := fsi) (q := s ++ [c]) (by
                  rw [hsrc]; exact (hkeys c).1 (hin c (by simp)))
                have hri : resolve L fsi false n (src ++ [c]) = some (s ++ [c]) :=
                  (resolve_snoc n src s c (resolve_keeps hsi.keeps n src s hrs1)).2.1 m hm (by simpa using hnsi [])
                have hpi : place L n fsi (dst ++ [c]) = some (d ++ [c]) := by
                  rw [place_snoc, resolve_keeps hsi.keeps n dst d hrd]; rfl
                have hrec := fun r => ih fsi (src ++ [c]) (dst ++ [c]) (s ++ [c]) (d ++ [c]) fsj hri hpi
                  (not_prefix_snoc c hsd hds) (not_prefix_snoc c hds hsd) hnsi hndi hj r
                have htj := copyTo_touches L n k fuel fsi _ _ fsj none hj
                have hother : ∀ q, ¬ d ++ [c] <+: q → entry ⟨fsj, L⟩ q = entry ⟨fsi, L⟩ q := by
                  intro q hq
                  by_cases he : entry ⟨fsj, L⟩ q = entry ⟨fsi, L⟩ q
                  · exact he
                  · obtain ⟨r, m, e1, -⟩ := touches_within htj hpi hndi q he
                    exact absurd ⟨r, e1.symm⟩ hq
                have hthis : ∀ r, entry ⟨fsj, L⟩ (d ++ c :: r) =
                    overlay (entry ⟨fs, L⟩ (s ++ c :: r)) (entry ⟨fs, L⟩ (d ++ c :: r)) := by
                  intro r
                  have e := hrec r
                  rw [List.append_assoc, List.append_assoc, List.singleton_append, hsrc] at e
                  rw [e]
                  rcases hmid c r with e' | e' <;> rw [e']
                  exact overlay_twice _ _
                have hne : ∀ c' r, c' ≠ c → entry ⟨fsj, L⟩ (d ++ c' :: r) = entry ⟨fsi, L⟩ (d ++ c' :: r) := by
                  intro c' r hne
                  refine hother _ fun hp => hne ?_
                  rw [List.prefix_append_right_inj] at hp
                  simpa using ((List.cons_prefix_cons.1 hp).1).symm
                obtain ⟨g1, g2⟩ := ihc fsj (fun x hx => hin x (List.mem_cons_of_mem _ hx)) hc (hsi.trans htj.1)
                  (fun q hq => by
                    rw [hother q fun hp => hq ((List.prefix_append d [c]).trans hp)]; exact hout q hq)
                  (by
                    rw [hother d (fun hp => by
                      have hle := hp.length_le
                      rw [List.length_append, List.length_singleton] at hle
                      omega), hd1])
                  (fun c' r => by
                    by_cases e : c' = c
                    · subst e; exact .inr (hthis r)
                    · rw [hne c' r e]; exact hmid c' r)
                refine ⟨g1, fun c' r => ?_⟩
                rw [g2]
                by_cases e : c' = c
                · subst e
                  rw [hthis]
                  simp
                · rw [hne c' r e]
                  simp [e]
          obtain ⟨g1, g2⟩ := loop _ fs1 (fun _ h => h) h (.refl _)
            (fun q hq => hoth q fun e => hq (by rw [e])) rfl
            (fun c r => .inl (hoth _ fun e => by
              have := congrArg List.length e
              simp at this))
          cases r with
          | nil =>
            rw [List.append_nil, List.append_nil, g1, hown, entry_dir (w := ⟨fs, L⟩).2 ⟨_, hls⟩]
          | cons c r =>
            rw [g2]
            split
            · rfl
            · next hc =>
              have e : entry ⟨fs, L⟩ (s ++ c :: r) = none := by
                rw [hkeys, Ne, not_not, entry_none] at hc
                rw [entry_none]
                dsimp only at hc ⊢
                have : s ++ c :: r = s ++ [c] ++ r := by simp
                rw [this, lookup_append, hc]
                rfl
              rw [e, overlay]
              exact hoth _ fun e => by
                have := congrArg List.length e
                simp at this
        · cases h
    · next y hs0 =>
      have hls := hst _ hs0
      split at h
      · cases h
      · next q hq =>
        have e : q = d := by
          cases dst using List.reverseRecOn with
          | nil =>
            simp only [place, List.getLast?_nil, Option.some.injEq] at hd
            rw [resolve_eq, follow] at hq
            cases hq
            exact hd
          | append_singleton d0 c =>
            rw [place_snoc] at hd
            cases hr : resolve L fs false n d0 with
            | none => rw [hr] at hd; cases hd
            | some d' =>
              rw [hr] at hd
              simp only [Option.map_some, Option.some.injEq] at hd
              subst hd
              rw [resolve_snoc_new n d0 d' c hr (by simpa using hnd [])] at hq
              cases hq
              rfl
        subst e
        split at h
        · cases h
        · next fs1 h1 =>
          obtain ⟨hp, hl⟩ := openW_ok h1
          have ht : Touches L n src dst fs fs1 := touches_file (.inl hq) hp hl hs0
          split at h
          · next z hz =>
            have ez : z = y := by
              unfold stat at hz
              rw [resolve_keeps ht.1.keeps n src s hs] at hz
              dsimp only at hz
              rw [put_other hp hds hsd, hls] at hz
              cases hz
              rfl
            subst ez
            split at h
            · cases h
            · next w hw =>
              have ew := copyLoop_some _ _ _ _ _ hw
              rw [List.nil_append] at ew
              subst ew
              split at h
              · next fs2 h2 =>
                cases h
                rw [put_entries h2 (.inr ⟨_, put_get hp⟩), put_entries hp hl]
                cases r with
                | nil =>
                  rw [List.append_nil, List.append_nil, if_pos rfl, entry_file (w := ⟨fs, L⟩).2 hls]
                  rfl
                | cons c r =>
                  have e1 : q ++ c :: r ≠ q := fun e => by
                    have := congrArg List.length e
                    simp at this
                  rw [if_neg e1, if_neg e1, entry_below_nondir (s := s) (fun es => by rw [hls]; simp)]
                  rfl
              · cases h
          · cases h
    · cases h

/-- **C141**: when `copyTo` returns, with the source at the place `s` and the destination at the place `d`, neither within the
other and no links in either, the destination is what it was with the source laid over it: every file of the source is there with
its contents, every directory is there unless there was something already, and what the source has not is as it was.  Nothing
else has changed.

Missing: links in the source or the destination (`copyTo_escapes_fails`), and overlapping trees. -/
theorem copyTo_merges_partial (L : Links) (n k fuel : Nat) (fs : Node) (src dst s d : List Str) (fs' : Node)
    (hs : resolve L fs false n src = some s) (hd : place L n fs dst = some d) (hsd : ¬ s <+: d) (hds : ¬ d <+: s)
    (hns : ∀ r, linkAt L fs (s ++ r) = none) (hnd : ∀ r, linkAt L fs (d ++ r) = none)
    (h : copyTo L n k fuel fs src dst = some (fs', none)) :
    (∀ r, entry ⟨fs', L⟩ (d ++ r) = overlay (entry ⟨fs, L⟩ (s ++ r)) (entry ⟨fs, L⟩ (d ++ r))) ∧
    (∀ q, ¬ d <+: q → entry ⟨fs', L⟩ q = entry ⟨fs, L⟩ q) :=
  ⟨overlay_aux L n k fuel fs src dst s d fs' hs hd hsd hds hns hnd h,
   fun q hq => copyTo_within_partial L n k fuel fs src dst d fs' none h hd hnd q
    (fun r _ _ e => hq ⟨r, e.symm⟩)⟩

/-! ## When it returns -/

/-- The source and the destination fit: no file over something that is not a file, no directory over something that is not one. -/
def Fits (L : Links) (fs : Node) (s d : List Str) : Prop :=
  ∀ r, (∀ x, entry ⟨fs, L⟩ (s ++ r) = some (.file x) → entry ⟨fs, L⟩ (d ++ r) = none ∨ ∃ y, entry ⟨fs, L⟩ (d ++ r) = some (.file y)) ∧
    (entry ⟨fs, L⟩ (s ++ r) = some .dir → entry ⟨fs, L⟩ (d ++ r) = none ∨ entry ⟨fs, L⟩ (d ++ r) = some .dir)

/-- While the children are copied: what has happened since `fs`. -/
def Mid (L : Links) (s d : List Str) (fs fsi : Node) : Prop :=
  (∀ q, ¬ d <+: q → entry ⟨fsi, L⟩ q = entry ⟨fs, L⟩ q) ∧ entry ⟨fsi, L⟩ d = entry ⟨fs, L⟩ d ∧
  ∀ c r, entry ⟨fsi, L⟩ (d ++ c :: r) = entry ⟨fs, L⟩ (d ++ c :: r) ∨
    entry ⟨fsi, L⟩ (d ++ c :: r) = overlay (entry ⟨fs, L⟩ (s ++ c :: r)) (entry ⟨fs, L⟩ (d ++ c :: r))

theorem Mid.source {L : Links} {s d : List Str} {fs fsi : Node} (h : Mid L s d fs fsi) (hsd : ¬ s <+: d) (hds : ¬ d <+: s) (r : List Str) :
    entry ⟨fsi, L⟩ (s ++ r) = entry ⟨fs, L⟩ (s ++ r) := by
  refine h.1 _ fun hp => ?_
  rcases List.prefix_or_prefix_of_prefix hp (List.prefix_append s r) with h2 | h2
  · exact hds h2
  · exact hsd h2

theorem overlay_link {a b : Option Entry} (ha : ∀ t, a ≠ some (.link t)) (hb : ∀ t, b ≠ some (.link t)) (t : List Str) :
    overlay a b ≠ some (.link t) := by
  rcases a with _ | (_ | _ | _ | _) <;> rcases b with _ | b <;> simp_all [overlay]

theorem Mid.links {L : Links} {s d : List Str} {fs fsi : Node} (h : Mid L s d fs fsi)
    (hns : ∀ r, linkAt L fs (s ++ r) = none) (hnd : ∀ r, linkAt L fs (d ++ r) = none) (c : Str) (r : List Str) :
    linkAt L fsi (d ++ [c] ++ r) = none := by
  have e1 := linkAt_entry.1 (hns (c :: r))
  have e2 := linkAt_entry.1 (hnd (c :: r))
  rw [List.append_assoc, List.singleton_append, linkAt_entry]
  intro t
  rcases h.2.2 c r with e | e <;> rw [e]
  · exact e2 t
  · exact overlay_link e1 e2 t

theorem Mid.step {L : Links} {n k fuel : Nat} {src dst s d : List Str} {fs fsi fsj : Node} {c : Str} (h : Mid L s d fs fsi)
    (hsd : ¬ s <+: d) (hds : ¬ d <+: s) (hns : ∀ r, linkAt L fs (s ++ r) = none) (hnd : ∀ r, linkAt L fs (d ++ r) = none)
    (hri : resolve L fsi false n (src ++ [c]) = some (s ++ [c])) (hpi : place L n fsi (dst ++ [c]) = some (d ++ [c]))
    (hj : copyTo L n k fuel fsi (src ++ [c]) (dst ++ [c]) = some (fsj, none)) : Mid L s d fs fsj := by
  have hnsi : ∀ r, linkAt L fsi (s ++ [c] ++ r) = none := by
    intro r
    rw [List.append_assoc, linkAt_entry, h.source hsd hds, ← linkAt_entry]
    exact hns _
  have hndi := h.links hns hnd c
  obtain ⟨h1, h2⟩ := copyTo_merges_partial L n k fuel fsi (src ++ [c]) (dst ++ [c]) (s ++ [c]) (d ++ [c]) fsj hri hpi
    (not_prefix_snoc c hsd hds) (not_prefix_snoc c hds hsd) hnsi hndi hj
  refine ⟨fun q hq => ?_, ?_, fun c' r => ?_⟩
  · rw [h2 q fun hp => hq ((List.prefix_append d [c]).trans hp)]; exact h.1 q hq
  · rw [h2 d (fun hp => by
      have hle := hp.length_le
      rw [List.length_append, List.length_singleton] at hle
      omega)]
    exact h.2.1
  · by_cases e : c' = c
    · subst e
      have e1 := h1 r
      rw [List.append_assoc, List.append_assoc, List.singleton_append, h.source hsd hds] at e1
      refine .inr ?_
      rw [e1]
      rcases h.2.2 c' r with e' | e' <;> rw [e']
      exact overlay_twice _ _
    · rw [h2 _ fun hp => e ?_]
      · exact h.2.2 c' r
      · rw [List.prefix_append_right_inj] at hp
        simpa using ((List.cons_prefix_cons.1 hp).1).symm

theorem put_made {fs : Node} {L : Links} {d : List Str} (hne : d ≠ []) (h : entry ⟨fs, L⟩ d.dropLast = some .dir) (x : Node) :
    ∃ fs', put fs d x = some fs' := by
  obtain ⟨es, he⟩ := entry_dir.1 h
  dsimp only at he
  rw [← List.dropLast_concat_getLast hne]
  exact put_into he _ x

theorem place_here {L : Links} {n : Nat} {fs : Node} {dst d : List Str} {m : Node} (hp : place L n fs dst = some d)
    (hl : lookup fs d = some m) (hk : linkAt L fs d = none) : resolve L fs false n dst = some d := by
  cases dst using List.reverseRecOn with
  | nil =>
    simp only [place, List.getLast?_nil, Option.some.injEq] at hp
    rw [resolve_eq, follow, hp]
  | append_singleton d0 c =>
    rw [place_snoc] at hp
    cases hr : resolve L fs false n d0 with
    | none => rw [hr] at hp; cases hp
    | some d' =>
      rw [hr] at hp
      simp only [Option.map_some, Option.some.injEq] at hp
      subst hp
      exact (resolve_snoc n d0 d' c hr).2.1 m hl hk

theorem place_resolve {L : Links} {n : Nat} {fs : Node} {dst d : List Str} (hp : place L n fs dst = some d)
    (hk : linkAt L fs d = none) : resolve L fs true n dst = some d := by
  cases dst using List.reverseRecOn with
  | nil =>
    simp only [place, List.getLast?_nil, Option.some.injEq] at hp
    rw [resolve_eq, follow, hp]
  | append_singleton d0 c =>
    rw [place_snoc] at hp
    cases hr : resolve L fs false n d0 with
    | none => rw [hr] at hp; cases hp
    | some d' =>
      rw [hr] at hp
      simp only [Option.map_some, Option.some.injEq] at hp
      subst hp
      exact resolve_snoc_new n d0 d' c hr hk

theorem place_keeps {L : Links} {n : Nat} {a b : Node} {dst d : List Str} (h : Keeps a b) (hp : place L n a dst = some d) :
    place L n b dst = some d := by
  cases dst using List.reverseRecOn with
  | nil => exact hp
  | append_singleton d0 c =>
    rw [place_snoc] at hp ⊢
    cases hr : resolve L a false n d0 with
    | none => rw [hr] at hp; cases hp
    | some d' => rw [hr] at hp; rw [resolve_keeps h n d0 d' hr]; exact hp

theorem returns_aux (L : Links) (n k : Nat) (hk : 0 < k) (M j fuel : Nat) (fs : Node) (src dst s d : List Str)
    (hf : j + M + 2 ≤ fuel) (hj : ∀ r, entry ⟨fs, L⟩ (s ++ r) ≠ none → r.length ≤ j)
    (hM : ∀ r x, entry ⟨fs, L⟩ (s ++ r) = some (.file x) → x.length ≤ M)
    (hs : resolve L fs false n src = some s) (hd : place L n fs dst = some d) (hsd : ¬ s <+: d) (hds : ¬ d <+: s)
    (hns : ∀ r, linkAt L fs (s ++ r) = none) (hnd : ∀ r, linkAt L fs (d ++ r) = none)
    (hsp : ∀ r, entry ⟨fs, L⟩ (s ++ r) ≠ some .special) (hfit : Fits L fs s d) (hpar : entry ⟨fs, L⟩ d.dropLast = some .dir) :
    ∃ fs', copyTo L n k fuel fs src dst = some (fs', none) := by
  have hne : d ≠ [] := fun e => hds (by rw [e]; exact List.nil_prefix)
  induction j using Nat.strongRecOn generalizing fuel fs src dst s d with
  | ind j ih =>
    obtain ⟨fuel, rfl⟩ : ∃ f, fuel = f + 1 := ⟨fuel - 1, by omega⟩
    obtain ⟨m, hm⟩ := resolve_exists hs
    have hstat : stat L n fs src = some m := by unfold stat; rw [hs]; exact hm
    have hdk : linkAt L fs d = none := by simpa using hnd []
    have hfit0 := hfit []
    rw [List.append_nil, List.append_nil] at hfit0
    cases m with
    | other =>
      have h1 := hns []
      have h2 := hsp []
      rw [List.append_nil] at h1 h2
      unfold linkAt at h1
      unfold entry at h2
      dsimp only at h2
      rw [hm] at h1 h2
      dsimp only at h1
      rw [Option.map_some, h1] at h2
      exact absurd rfl h2
    | file x =>
      have hold : lookup fs d = none ∨ ∃ y, lookup fs d = some (.file y) := by
        rcases hfit0.1 x (entry_file.2 hm) with h | ⟨y, h⟩
        · exact .inl (entry_none.1 h)
        · exact .inr ⟨y, entry_file.1 h⟩
      obtain ⟨fs1, h1⟩ := put_made hne hpar (.file [])
      obtain ⟨fs2, h2⟩ := put_made hne hpar (.file x)
      have hopen : openW fs d = .ok fs1 := by
        unfold openW
        rcases hold with h | ⟨y, h⟩ <;> rw [h] <;> dsimp only <;> rw [h1]
      have hst : Stays fs fs1 := (touches_file (src := src) (dst := dst) (.inl (place_resolve hd hdk)) h1 hold hstat).1
      have hstat1 : stat L n fs1 src = some (.file x) := by
        unfold stat
        rw [resolve_keeps hst.keeps n src s hs]
        dsimp only
        rw [put_other h1 hds hsd, hm]
      have hx : x.length ≤ M := hM [] x (by rw [List.append_nil]; exact entry_file.2 hm)
      refine ⟨fs2, ?_⟩
      rw [copyTo, hstat]
      dsimp only
      rw [place_resolve hd hdk]
      dsimp only
      rw [hopen]
      dsimp only
      rw [hstat1]
      dsimp only
      rw [copyLoop_spec k hk fuel x [] (by omega), List.nil_append]
      dsimp only
      rw [put_put h1, h2]
    | dir es0 =>
      obtain ⟨fs1, hmk, ht1, hdir⟩ : ∃ fs1, ((∃ m, stat L n fs dst = some m ∧ fs1 = fs) ∨
          (stat L n fs dst = none ∧ mkdirAt L n fs dst = .ok fs1)) ∧ Touches L n src dst fs fs1 ∧ (∃ es, lookup fs1 d = some (.dir es)) ∧
             ∀ q, q ≠ d → entry ⟨fs1, L⟩ q = entry ⟨fs, L⟩ q := by
        rcases hfit0.2 (entry_dir.2 ⟨_, hm⟩) with h | h
        · rw [entry_none] at h
          dsimp only at h
          obtain ⟨fs1, h1⟩ := put_made hne hpar (.dir [])
          have hmk : mkdirAt L n fs dst = .ok fs1 := by
            unfold mkdirAt mkdir
            rw [hd]
            dsimp only
            rw [h]
            dsimp only
            rw [h1]
          have hno : stat L n fs dst = none := by
            unfold stat
            cases hr : resolve L fs false n dst with
            | none => rfl
            | some q =>
              rw [resolve_place (fun q m hl => ⟨m, hl, Iff.rfl⟩) hd hdk hr]
              exact h
          refine ⟨fs1, .inr ⟨hno, hmk⟩, touches_mkdir hmk hstat, ⟨[], put_get h1⟩, fun q hq => ?_⟩
          rw [put_entries_dir h1 h, if_neg hq]
        · obtain ⟨es, he⟩ := entry_dir.1 h
          dsimp only at he
          have hr : stat L n fs dst = some (.dir es) := by
            unfold stat
            rw [place_here hd he hdk]
            exact he
          exact ⟨fs, .inl ⟨_, hr, rfl⟩, .refl .., ⟨es, he⟩, fun _ _ => rfl⟩
      obtain ⟨⟨ed, hed⟩, hoth⟩ := hdir
      have hrs1 := resolve_keeps ht1.1.keeps n src s hs
      have hrd1 : resolve L fs1 false n dst = some d := place_here (place_keeps ht1.1.keeps hd) hed (linkAt_dir hed)
      have hsrc : ∀ r, entry ⟨fs1, L⟩ (s ++ r) = entry ⟨fs, L⟩ (s ++ r) :=
        fun r => hoth _ fun e => hsd (by rw [← e]; exact List.prefix_append ..)
      obtain ⟨es, hes⟩ : ∃ es, lookup fs1 s = some (.dir es) := by
        have := hsrc []
        rw [List.append_nil, entry_dir (w := ⟨fs, L⟩).2 ⟨_, hm⟩] at this
        exact entry_dir.1 this
      have hstat1 : stat L n fs1 src = some (.dir es) := by unfold stat; rw [hrs1]; exact hes
      have hgo : copyTo L n k (fuel + 1) fs src dst =
          copyChildren (fun fs c => copyTo L n k fuel fs (src ++ [c]) (dst ++ [c])) fs1 (es.map Prod.fst) := by
        rw [copyTo, hstat]
        dsimp only
        rcases hmk with ⟨m, e1, rfl⟩ | ⟨e1, e2⟩
        · rw [e1]
          dsimp only
          rw [hstat1]
        · rw [e1]
          dsimp only
          rw [e2]
          dsimp only
          rw [hstat1]
      rw [hgo]
      have hkeys : ∀ c ∈ es.map Prod.fst, entry ⟨fs1, L⟩ (s ++ [c]) ≠ none := by
        intro c hc
        rw [Ne, entry_none]
        dsimp only
        rw [lookup_child hes, Dict.get?_eq_none_iff]
        simpa [Dict.keys] using hc
      have hdne : ∀ c r, d ++ c :: r ≠ d := fun c r e => by
        have := congrArg List.length e
        simp at this
      have hns1 : ∀ r, linkAt L fs1 (s ++ r) = none := fun r => no_links_after ht1 (hns r)
      have hnd1 : ∀ r, linkAt L fs1 (d ++ r) = none := fun r => no_links_after ht1 (hnd r)
      have loop : ∀ cs fsi, (∀ c ∈ cs, c ∈ es.map Prod.fst) → Stays fs1 fsi → Mid L s d fs1 fsi →
          ∃ fs', copyChildren (fun fs c => copyTo L n k fuel fs (src ++ [c]) (dst ++ [c])) fsi cs = some (fs', none) := by
        intro cs
        induction cs with
        | nil => exact fun fsi _ _ _ => ⟨fsi, rfl⟩
        | cons c cs ihc =>
          intro fsi hin hsi hmid
          have hent : ∀ r, entry ⟨fsi, L⟩ (s ++ [c] ++ r) = entry ⟨fs, L⟩ (s ++ c :: r) := by
            intro r
            rw [List.append_assoc, hmid.source hsd hds, hsrc]
            rfl
          have hnsi : ∀ r, linkAt L fsi (s ++ [c] ++ r) = none := by
            intro r
            rw [linkAt_entry, hent, ← linkAt_entry]
            exact hns _
          have hndi := hmid.links hns1 hnd1 c
          have hc1 : entry ⟨fsi, L⟩ (s ++ [c]) ≠ none := by
            rw [hmid.source hsd hds]
            exact hkeys c (hin c (by simp))
          obtain ⟨m, hm⟩ := entry_ne_none hc1
          have hj1 : 1 ≤ j := hj [c] (by rw [← hsrc, ← hmid.source hsd hds]; exact hc1)
          have hri : resolve L fsi false n (src ++ [c]) = some (s ++ [c]) :=
            (resolve_snoc n src s c (resolve_keeps hsi.keeps n src s hrs1)).2.1 m hm (by simpa using hnsi [])
          have hpi : place L n fsi (dst ++ [c]) = some (d ++ [c]) := by
            rw [place_snoc, resolve_keeps hsi.keeps n dst d hrd1]; rfl
          have hfiti : Fits L fsi (s ++ [c]) (d ++ [c]) := by
            intro r
            have hf := hfit (c :: r)
            rw [hent, List.append_assoc, List.singleton_append]
            have hd2 : entry ⟨fs1, L⟩ (d ++ c :: r) = entry ⟨fs, L⟩ (d ++ c :: r) := hoth _ (hdne c r)
            rcases hmid.2.2 c r with e | e
            · rw [e, hd2]; exact hf
            · rw [e, hsrc, hd2]
              refine ⟨fun x hx => ?_, fun hx => ?_⟩
              · rw [hx]; exact .inr ⟨x, rfl⟩
              · rcases hf.2 hx with h | h <;> rw [hx, h] <;> exact .inr rfl
          obtain ⟨fsj, hcj⟩ := ih (j - 1) (by omega) fuel fsi (src ++ [c]) (dst ++ [c]) (s ++ [c]) (d ++ [c]) (by omega)
            (fun r hr => by
              rw [hent] at hr
              have := hj (c :: r) hr
              rw [List.length_cons] at this
              omega)
            (fun r x hr => by rw [hent] at hr; exact hM _ x hr)
            hri hpi (not_prefix_snoc c hsd hds) (not_prefix_snoc c hds hsd) hnsi hndi
            (fun r => by rw [hent]; exact hsp _) hfiti
            (by rw [List.dropLast_concat, hmid.2.1]; exact entry_dir.2 ⟨_, hed⟩)
            (by simp)
          have htj := copyTo_touches L n k fuel fsi _ _ fsj none hcj
          obtain ⟨fs', h'⟩ := ihc fsj (fun x hx => hin x (List.mem_cons_of_mem _ hx)) (hsi.trans htj.1)
            (hmid.step hsd hds hns1 hnd1 hri hpi hcj)
          refine ⟨fs', ?_⟩
          rw [copyChildren, hcj]
          exact h'
      exact loop _ fs1 (fun _ h => h) (.refl _) ⟨fun _ _ => rfl, rfl, fun c r => .inl rfl⟩

theorem bounded {fs : Node} (hg : Good fs) : ∃ D M, ∀ q m, lookup fs q = some m → q.length ≤ D ∧ ∀ x, m = .file x → x.length ≤ M := by
  obtain ⟨D, hD⟩ := depth_exists hg
  suffices h : ∃ M, ∀ q x, lookup fs q = some (.file x) → x.length ≤ M by
    obtain ⟨M, hM⟩ := h
    exact ⟨D, M, fun q m h => ⟨hD q m h, fun x e => hM q x (by rw [h, e])⟩⟩
  clear hD
  induction hg with
  | file z =>
    refine ⟨z.length, fun q x h => ?_⟩
    cases q with
    | nil => rw [lookup_nil] at h; cases h; exact Nat.le_refl _
    | cons c q => simp [lookup] at h
  | other =>
    refine ⟨0, fun q x h => ?_⟩
    cases q with
    | nil => rw [lookup_nil] at h; cases h
    | cons c q => simp [lookup] at h
  | dir es names sub ih =>
    obtain ⟨M, hM⟩ : ∃ M, ∀ e ∈ es, ∀ q x, lookup e.2 q = some (.file x) → x.length ≤ M := by
      clear names sub
      induction es with
      | nil => exact ⟨0, by simp⟩
      | cons e es ihl =>
        obtain ⟨n1, h1⟩ := ih e (by simp)
        obtain ⟨n2, h2⟩ := ihl fun x hx => ih x (List.mem_cons_of_mem _ hx)
        refine ⟨max n1 n2, fun x hx q m hq => ?_⟩
        rcases List.mem_cons.mp hx with rfl | hx
        · have := h1 q m hq; omega
        · have := h2 x hx q m hq; omega
    refine ⟨M, fun q x h => ?_⟩
    cases q with
    | nil => rw [lookup_nil] at h; cases h
    | cons c q =>
      rw [lookup_dir] at h
      cases hg : Dict.get? es c with
      | none => rw [hg] at h; cases h
      | some k =>
        rw [hg] at h
        exact hM _ (Dict.mem_of_get? hg) q x h

/-- **C141**: if, besides, source and destination fit, the source has only files and directories and the destination is in a
directory, then `copyTo` does return, with the source laid over the destination. -/
theorem copyTo_returns_partial (L : Links) (n k : Nat) (hk : 0 < k) (fs : Node) (hg : Good fs) (src dst s d : List Str)
    (hs : resolve L fs false n src = some s) (hd : place L n fs dst = some d) (hsd : ¬ s <+: d) (hds : ¬ d <+: s)
    (hns : ∀ r, linkAt L fs (s ++ r) = none) (hnd : ∀ r, linkAt L fs (d ++ r) = none)
    (hsp : ∀ r, entry ⟨fs, L⟩ (s ++ r) ≠ some .special) (hpar : entry ⟨fs, L⟩ d.dropLast = some .dir)
    (hfile : ∀ r x, entry ⟨fs, L⟩ (s ++ r) = some (.file x) →
      entry ⟨fs, L⟩ (d ++ r) = none ∨ ∃ y, entry ⟨fs, L⟩ (d ++ r) = some (.file y))
    (hdir : ∀ r, entry ⟨fs, L⟩ (s ++ r) = some .dir → entry ⟨fs, L⟩ (d ++ r) = none ∨ entry ⟨fs, L⟩ (d ++ r) = some .dir) :
    ∃ need, ∀ fuel, need ≤ fuel → ∃ fs', copyTo L n k fuel fs src dst = some (fs', none) ∧
      (∀ r, entry ⟨fs', L⟩ (d ++ r) = if entry ⟨fs, L⟩ (s ++ r) = none then entry ⟨fs, L⟩ (d ++ r) else entry ⟨fs, L⟩ (s ++ r)) ∧
      (∀ q, ¬ d <+: q → entry ⟨fs', L⟩ q = entry ⟨fs, L⟩ q) := by
  obtain ⟨D, M, hB⟩ := bounded hg
  refine ⟨D + M + 2, fun fuel hf => ?_⟩
  obtain ⟨fs', h⟩ := returns_aux L n k hk M D fuel fs src dst s d hf
    (fun r hr => by
      obtain ⟨m, hm⟩ := entry_ne_none hr
      have := (hB _ _ hm).1
      rw [List.length_append] at this
      omega)
    (fun r x hr => (hB _ _ (entry_file.1 hr)).2 x rfl)
    hs hd hsd hds hns hnd hsp (fun r => ⟨hfile r, hdir r⟩) hpar
  obtain ⟨h1, h2⟩ := copyTo_merges_partial L n k fuel fs src dst s d fs' hs hd hsd hds hns hnd h
  refine ⟨fs', h, fun r => ?_, h2⟩
  rw [h1]
  have hr := hdir r
  cases he : entry ⟨fs, L⟩ (s ++ r) with
  | none => rfl
  | some x =>
    rw [if_neg (by simp)]
    cases x with
    | dir => rcases hr he with e | e <;> rw [e] <;> rfl
    | file y => rfl
    | link t => rfl
    | special => rfl

/-! ## Concrete trees

`a`, `b`, `c`, `x`, `y` are the names `[97]`, `[98]`, `[99]`, `[120]`, `[121]`. -/

/-- `/a/x` is a file, `/a/y` an empty directory; `/b` has a file `x` and a file `z`. -/
def twoTrees : Node := .dir [([97], .dir [([120], .file [1, 2, 3]), ([121], .dir [])]), ([98], .dir [([120], .file [9]), ([122], .file [8])])]

/-- Copying `/a` to `/b`: `x` is replaced, `y` is made, `z` stays. -/
example : copyTo (fun _ => none) 5 2 10 twoTrees [[97]] [[98]] =
    some (.dir [([97], .dir [([120], .file [1, 2, 3]), ([121], .dir [])]),
      ([98], .dir [([120], .file [1, 2, 3]), ([122], .file [8]), ([121], .dir [])])], none) := by rfl

/-- The hypotheses of `copyTo_returns_partial` hold of it. -/
example : Good twoTrees ∧ resolve (fun _ => none) twoTrees false 5 [[97]] = some [[97]] ∧
    place (fun _ => none) 5 twoTrees [[98]] = some [[98]] ∧ ¬ [[97]] <+: [([98] : Str)] ∧ ¬ [[98]] <+: [([97] : Str)] ∧
    (∀ q, linkAt (fun _ => none) twoTrees q = none) ∧ entry ⟨twoTrees, fun _ => none⟩ [] = some .dir ∧
    entry ⟨twoTrees, fun _ => none⟩ [[97], [120]] = some (.file [1, 2, 3]) ∧
    entry ⟨twoTrees, fun _ => none⟩ [[98], [120]] = some (.file [9]) ∧
    entry ⟨twoTrees, fun _ => none⟩ [[97], [121]] = some .dir ∧ entry ⟨twoTrees, fun _ => none⟩ [[98], [121]] = none := by
  refine ⟨?_, rfl, rfl, by decide, by decide, fun q => ?_, rfl, rfl, rfl, rfl, rfl⟩
  · refine .dir _ (by simp [Dict.WF, Dict.keys]) fun e he => ?_
    simp only [List.mem_cons, List.not_mem_nil, or_false] at he
    rcases he with rfl | rfl
    · refine .dir _ (by simp [Dict.WF, Dict.keys]) fun e he => ?_
      simp only [List.mem_cons, List.not_mem_nil, or_false] at he
      rcases he with rfl | rfl
      · exact .file _
      · exact .dir _ (by simp [Dict.WF, Dict.keys]) (by simp)
    · refine .dir _ (by simp [Dict.WF, Dict.keys]) fun e he => ?_
      simp only [List.mem_cons, List.not_mem_nil, or_false] at he
      rcases he with rfl | rfl <;> exact .file _
  · unfold linkAt
    split <;> rfl

/-- `/a/x` is a file, `/b/x` a link (or something else), `/c` a file. -/
def linked : Node := .dir [([97], .dir [([120], .file [1, 2, 3])]), ([98], .dir [([120], .other)]), ([99], .file [7])]

/-- `/b/x` is a link to `t`. -/
def linkTo (t : List Str) : Links := fun q => if q = [[98], [120]] then some t else none

/-- **C141** is false of destinations with links: a file outside the destination is overwritten, and a file is made outside it
(`filepath_copyTo.py:336-339` says that this needs to be explained). -/
theorem copyTo_escapes_fails :
    copyTo (linkTo [[99]]) 5 2 10 linked [[97]] [[98]] =
      some (.dir [([97], .dir [([120], .file [1, 2, 3])]), ([98], .dir [([120], .other)]), ([99], .file [1, 2, 3])], none) ∧
    copyTo (linkTo [[100]]) 5 2 10 linked [[97]] [[98]] =
      some (.dir [([97], .dir [([120], .file [1, 2, 3])]), ([98], .dir [([120], .other)]), ([99], .file [7]),
        ([100], .file [1, 2, 3])], none) := ⟨rfl, rfl⟩

/-- **C141** is false when a link of the destination leads to the source: the file is lost, and `copyTo` returns. -/
theorem copyTo_loses_fails :
    copyTo (linkTo [[97], [120]]) 5 2 10 linked [[97]] [[98]] =
      some (.dir [([97], .dir [([120], .file [])]), ([98], .dir [([120], .other)]), ([99], .file [7])], none) := rfl

/-- **C141** is false of an empty directory copied over a file: `copyTo` returns, and the file is still there. -/
theorem copyTo_empty_directory_fails :
    copyTo (fun _ => none) 5 2 10 (.dir [([97], .dir []), ([98], .file [7])]) [[97]] [[98]] =
      some (.dir [([97], .dir []), ([98], .file [7])], none) := rfl

/-- A directory that is not empty cannot be copied over a file, nor over a link that leads nowhere. -/
example : copyTo (fun _ => none) 5 2 10 (.dir [([97], .dir [([120], .file [1])]), ([98], .file [7])]) [[97]] [[98]] =
      some (.dir [([97], .dir [([120], .file [1])]), ([98], .file [7])], some osError) ∧
    copyTo (linkTo [[100]]) 5 2 10 (.dir [([97], .dir []), ([98], .dir [([120], .other)])]) [[97]] [[98], [120]] =
      some (.dir [([97], .dir []), ([98], .dir [([120], .other)])], some osError) := ⟨rfl, rfl⟩

end Verif.FileLinks
