import Verif.Model.FileLinksWrite
import Verif.Props.FileLinks
import Verif.Props.FilePathCreate
/-!
# C122: creating, writing and renaming with symbolic links

`entry w q` is what is at the place `q` (no links are followed in `q`).  The theorems say what each operation does to the entries
of all places.
-/
namespace Verif.FileLinks
open Verif.Py Verif.Py.Path Verif.FilePath

/-- What can be at a place. -/
inductive Entry where
  | dir
  | file (content : List Nat)
  | link (text : List Str)
  | special
  deriving DecidableEq

def kind (m : Node) (t : Option (List Str)) : Entry :=
  match m with
  | .dir _ => .dir
  | .file x => .file x
  | .other => match t with
    | some t => .link t
    | none => .special

def entry (w : World) (q : List Str) : Option Entry := (lookup w.fs q).map fun m => kind m (w.links q)

theorem entry_none {w : World} {q : List Str} : entry w q = none ↔ lookup w.fs q = none := by
  unfold entry; cases lookup w.fs q <;> simp

theorem entry_dir {w : World} {q : List Str} : entry w q = some .dir ↔ ∃ es, lookup w.fs q = some (.dir es) := by
  unfold entry
  cases lookup w.fs q with
  | none => simp
  | some m =>
    cases m with
    | dir es => simp [kind]
    | file x => simp [kind]
    | other => cases w.links q <;> simp [kind]

theorem entry_file {w : World} {q : List Str} {x : List Nat} : entry w q = some (.file x) ↔ lookup w.fs q = some (.file x) := by
  unfold entry
  cases lookup w.fs q with
  | none => simp
  | some m =>
    cases m with
    | dir es => simp [kind]
    | file y => simp [kind]
    | other => cases w.links q <;> simp [kind]

theorem entry_link {w : World} {q t : List Str} : entry w q = some (.link t) ↔ linkAt w.links w.fs q = some t := by
  unfold entry linkAt
  cases lookup w.fs q with
  | none => simp
  | some m =>
    cases m with
    | dir es => simp [kind]
    | file y => simp [kind]
    | other => cases w.links q <;> simp [kind]

/-! ## Resolution -/

/-- Nothing has gone, and links are where they were. -/
def Keeps (a b : Node) : Prop := ∀ q m, lookup a q = some m → ∃ m', lookup b q = some m' ∧ (m' = .other ↔ m = .other)

theorem Keeps.linkAt {L : Links} {a b : Node} (h : Keeps a b) {q : List Str} {m : Node} (hl : lookup a q = some m) :
    linkAt L b q = linkAt L a q := by
  obtain ⟨m', h', s⟩ := h q m hl
  unfold FileLinks.linkAt
  rw [hl, h']
  cases m <;> cases m' <;> simp_all

theorem follow_keeps {L : Links} {a b : Node} (h : Keeps a b) {ra rb : List Str → Option (List Str)}
    (hr : ∀ p q, ra p = some q → rb p = some q) (todo : List Str) (done q : List Str) (hf : follow L a false ra done todo = some q) :
    follow L b false rb done todo = some q := by
  induction todo generalizing done with
  | nil => exact hf
  | cons c rest ih =>
    rw [follow] at hf ⊢
    cases hl : lookup a (done ++ [c]) with
    | none => rw [hl] at hf; simp at hf
    | some m =>
      obtain ⟨m', h', -⟩ := h _ m hl
      rw [hl] at hf
      rw [h', h.linkAt hl]
      dsimp only at hf ⊢
      cases hk : linkAt L a (done ++ [c]) with
      | none => rw [hk] at hf; exact ih _ hf
      | some t => rw [hk] at hf; exact hr _ _ hf

theorem resolve_keeps {L : Links} {a b : Node} (h : Keeps a b) (n : Nat) (p q : List Str) (hr : resolve L a false n p = some q) :
    resolve L b false n p = some q := by
  induction n generalizing p q with
  | zero => exact follow_keeps h (fun _ _ h => by cases h) p [] q hr
  | succ n ih => exact follow_keeps h ih p [] q hr

/-- One component more, which need not exist and is not a link. -/
theorem follow_snoc_new {L : Links} {fs : Node} {r r' : List Str → Option (List Str)} (c : Str) {q : List Str}
    (hr : ∀ p, r p = some q → r' (p ++ [c]) = some (q ++ [c])) (hk : linkAt L fs (q ++ [c]) = none) (todo done : List Str)
    (h : follow L fs false r done todo = some q) : follow L fs true r' done (todo ++ [c]) = some (q ++ [c]) := by
  induction todo generalizing done with
  | nil =>
    simp only [follow, Option.some.injEq] at h
    subst h
    rw [List.nil_append, follow]
    cases hl : lookup fs (done ++ [c]) with
    | none => simp
    | some m => dsimp only; rw [hk]; simp [follow]
  | cons b rest ih =>
    rw [follow] at h
    rw [List.cons_append, follow]
    cases hl : lookup fs (done ++ [b]) with
    | none => rw [hl] at h; simp at h
    | some m =>
      rw [hl] at h
      dsimp only at h ⊢
      cases hb : linkAt L fs (done ++ [b]) with
      | none => rw [hb] at h; exact ih _ h
      | some t =>
        rw [hb] at h
        dsimp only at h ⊢
        rw [← List.append_assoc]
        exact hr _ h

theorem resolve_snoc_new {L : Links} {fs : Node} (n : Nat) (p q : List Str) (c : Str) (hf : resolve L fs false n p = some q)
    (hk : linkAt L fs (q ++ [c]) = none) : resolve L fs true n (p ++ [c]) = some (q ++ [c]) := by
  induction n generalizing p with
  | zero => exact follow_snoc_new c (fun _ h => by cases h) hk p [] hf
  | succ n ih => exact follow_snoc_new c (fun p h => ih p h) hk p [] hf

/-! ## What happens to the entries -/

theorem put_entries {L : Links} {fs fs' : Node} {r : List Str} {x : List Nat} (h : put fs r (.file x) = some fs')
    (hr : lookup fs r = none ∨ ∃ y, lookup fs r = some (.file y)) (q : List Str) :
    entry ⟨fs', L⟩ q = if q = r then some (.file x) else entry ⟨fs, L⟩ q := by
  by_cases e : q = r
  · subst e
    rw [if_pos rfl]
    exact entry_file.2 (put_get h)
  · rw [if_neg e]
    by_cases h1 : r <+: q
    · obtain ⟨c, t, rfl⟩ := prefix_ne h1 (Ne.symm e)
      have a : lookup fs (r ++ c :: t) = none := by
        rw [lookup_append]
        rcases hr with hr | ⟨y, hr⟩ <;> rw [hr] <;> simp [lookup]
      have b : lookup fs' (r ++ c :: t) = none := by
        rw [lookup_append, put_get h]; simp [lookup]
      exact (entry_none (w := ⟨fs', L⟩).2 b).trans (entry_none (w := ⟨fs, L⟩).2 a).symm
    · by_cases h2 : q <+: r
      · obtain ⟨e1, e2, h3, h4, -⟩ := put_above h h2 e
        exact (entry_dir (w := ⟨fs', L⟩).2 ⟨_, h4⟩).trans (entry_dir (w := ⟨fs, L⟩).2 ⟨_, h3⟩).symm
      · unfold entry
        dsimp only
        rw [put_other h h1 h2]

theorem put_keeps {fs fs' : Node} {r : List Str} {x : List Nat} (h : put fs r (.file x) = some fs')
    (hr : lookup fs r = none ∨ ∃ y, lookup fs r = some (.file y)) : Keeps fs fs' := by
  intro q m hq
  by_cases e : q = r
  · subst e
    refine ⟨_, put_get h, ?_⟩
    rcases hr with hr | ⟨y, hr⟩ <;> rw [hr] at hq <;> cases hq
    simp
  · have h1 : ¬ r <+: q := by
      intro h1
      obtain ⟨c, t, rfl⟩ := prefix_ne h1 (Ne.symm e)
      rw [lookup_append] at hq
      rcases hr with hr | ⟨y, hr⟩ <;> rw [hr] at hq <;> simp [lookup] at hq
    by_cases h2 : q <+: r
    · obtain ⟨e1, e2, h3, h4, -⟩ := put_above h h2 e
      rw [hq] at h3
      cases h3
      exact ⟨_, h4, by simp⟩
    · exact ⟨m, by rw [put_other h h1 h2, hq], Iff.rfl⟩

theorem isPrefixOf_iff {a b : List Str} : a.isPrefixOf b = true ↔ a <+: b := List.isPrefixOf_iff_prefix

/-- Renaming moves what is at `a`, with all that is below it, to `b`. -/
theorem rename_entries {L : Links} {fs fs' : Node} {a b : List Str} (hg : Good fs) (h : rename fs a b = .ok fs') (q : List Str) :
    entry ⟨fs', moved L a b⟩ q =
      if b <+: q then entry ⟨fs, L⟩ (a ++ q.drop b.length) else if a <+: q then none else entry ⟨fs, L⟩ q := by
  unfold rename at h
  cases hm : lookup fs a with
  | none => rw [hm] at h; cases h
  | some m =>
    rw [hm] at h
    dsimp only at h
    by_cases hab : a = b
    · rw [if_pos hab] at h
      cases h
      subst hab
      have hmv : moved L a a q = if a <+: q then L q else L q := by
        unfold moved
        by_cases c : a <+: q
        · obtain ⟨t, rfl⟩ := c
          rw [if_pos (isPrefixOf_iff.2 (List.prefix_append a t)), List.drop_left, if_pos (List.prefix_append a t)]
        · rw [if_neg (fun h => c (isPrefixOf_iff.1 h)), if_neg (fun h => c (isPrefixOf_iff.1 h)), if_neg c]
      rw [ite_self] at hmv
      by_cases c : a <+: q
      · obtain ⟨t, rfl⟩ := c
        rw [if_pos (List.prefix_append a t), List.drop_left]
        unfold entry; dsimp only; rw [hmv]
      · rw [if_neg c, if_neg c]
        unfold entry; dsimp only; rw [hmv]
    · rw [if_neg hab] at h
      by_cases hp : a.isPrefixOf b = true
      · rw [if_pos hp] at h; cases h
      · rw [if_neg hp] at h
        have hp' : ¬ a <+: b := fun h => hp (isPrefixOf_iff.2 h)
        split at h
        · cases h
        · cases hd : del fs a with
          | none => rw [hd] at h; cases h
          | some fs1 =>
            rw [hd] at h
            dsimp only at h
            cases hput : put fs1 b m with
            | none => rw [hput] at h; cases h
            | some fs2 =>
              rw [hput] at h
              cases h
              by_cases c1 : b <+: q
              · obtain ⟨t, rfl⟩ := c1
                rw [if_pos (List.prefix_append b t), List.drop_left]
                unfold entry
                dsimp only
                rw [lookup_append, put_get hput, lookup_append, hm]
                have : moved L a b (b ++ t) = L (a ++ t) := by
                  unfold moved
                  rw [if_pos (isPrefixOf_iff.2 (List.prefix_append b t)), List.drop_left]
                rw [this]
              · rw [if_neg c1]
                have mv : moved L a b q = if a <+: q then none else L q := by
                  unfold moved
                  rw [if_neg (fun h => c1 (isPrefixOf_iff.1 h))]
                  by_cases c2 : a <+: q
                  · rw [if_pos c2, if_pos (isPrefixOf_iff.2 c2)]
                  · rw [if_neg c2, if_neg (fun h => c2 (isPrefixOf_iff.1 h))]
                by_cases c2 : a <+: q
                · rw [if_pos c2]
                  have hqb : ¬ q <+: b := fun h => hp' (c2.trans h)
                  apply entry_none.2
                  dsimp only
                  rw [put_other hput c1 hqb]
                  exact lookup_prefix c2 (del_get hg hd)
                · rw [if_neg c2] at mv ⊢
                  -- above `b`, above `a`, or elsewhere
                  have above : q <+: a → ∃ es, lookup fs q = some (.dir es) := by
                    intro hqa
                    obtain ⟨c, t, rfl⟩ := prefix_ne hqa (fun e => c2 (by rw [e]))
                    exact lookup_above hm
                  by_cases c3 : q <+: b
                  · obtain ⟨e1, e2, h3, h4, -⟩ := put_above hput c3 (fun e => c1 (by rw [e]))
                    have : ∃ es, lookup fs q = some (.dir es) := by
                      by_cases c4 : q <+: a
                      · exact above c4
                      · rw [del_other hd c2 c4] at h3; exact ⟨_, h3⟩
                    exact (entry_dir.2 ⟨_, h4⟩).trans (entry_dir (w := ⟨fs, L⟩).2 this).symm
                  · have e2 : lookup fs' q = lookup fs1 q := put_other hput c1 c3
                    by_cases c4 : q <+: a
                    · obtain ⟨es, hes⟩ := above c4
                      obtain ⟨es', hes'⟩ := del_keeps hd c2 hes
                      exact (entry_dir (w := ⟨fs', _⟩).2 ⟨es', by dsimp only; rw [e2, hes']⟩).trans
                        (entry_dir (w := ⟨fs, L⟩).2 ⟨es, hes⟩).symm
                    · unfold entry
                      dsimp only
                      rw [e2, del_other hd c2 c4, mv]

/-! ## C122 -/

/-- **C122**, `create`: it succeeds exactly when there is nothing at the place (not even a dangling link) and the place is in a
directory.  It makes an empty file there and changes nothing else; when it fails it changes nothing. -/
theorem create_links (n : Nat) (w : World) (dir : List Str) (c : Str) {d : List Str}
    (hd : resolve w.links w.fs false n dir = some d) :
    (entry w (d ++ [c]) = none → entry w d = some .dir → ∃ w', createAt n w (dir ++ [c]) = (w', none) ∧
      ∀ q, entry w' q = if q = d ++ [c] then some (.file []) else entry w q) ∧
    (entry w (d ++ [c]) ≠ none ∨ entry w d ≠ some .dir → createAt n w (dir ++ [c]) = (w, some osError)) := by
  unfold createAt
  rw [place_snoc, hd]
  simp only [Option.map_some]
  refine ⟨fun h1 h2 => ?_, fun h => ?_⟩
  · have h1 := entry_none.1 h1
    obtain ⟨es, h2⟩ := entry_dir.1 h2
    obtain ⟨fs', hp⟩ := put_into h2 c (.file [])
    unfold FilePath.create
    rw [h1, hp]
    exact ⟨_, rfl, put_entries hp (Or.inl h1)⟩
  · have : FilePath.create w.fs (d ++ [c]) = .error osError := by
      unfold FilePath.create
      cases hl : lookup w.fs (d ++ [c]) with
      | some m => rfl
      | none =>
        dsimp only
        cases hp : put w.fs (d ++ [c]) (.file []) with
        | none => rfl
        | some fs' =>
          exfalso
          obtain ⟨es, hes⟩ := put_dir hp
          rcases h with h | h
          · exact h (entry_none.2 hl)
          · exact h (entry_dir.2 ⟨es, hes⟩)
    rw [this]

/-- **C122**: with `alwaysCreate` (as `temporarySibling` gives it) opening for writing is `create`: nothing that is there is
written to.  Without, the last link is followed. -/
theorem open_links (n : Nat) (w : World) (p : List Str) :
    openFor n w ⟨p, true⟩ = createAt n w p ∧
    ∀ r, resolve w.links w.fs true n p = some r → (entry w r = none → entry w r.dropLast = some .dir ∧ r ≠ []) →
      ((entry w r = none ∨ ∃ x, entry w r = some (.file x)) → ∃ w', openFor n w ⟨p, false⟩ = (w', none) ∧
        ∀ q, entry w' q = if q = r then some (.file []) else entry w q) ∧
      (¬ (entry w r = none ∨ ∃ x, entry w r = some (.file x)) → openFor n w ⟨p, false⟩ = (w, some osError)) := by
  refine ⟨rfl, fun r hr hpar => ⟨fun h => ?_, fun h => ?_⟩⟩
  · have hl : lookup w.fs r = none ∨ ∃ x, lookup w.fs r = some (.file x) := by
      rcases h with h | ⟨x, h⟩
      · exact Or.inl (entry_none.1 h)
      · exact Or.inr ⟨x, entry_file.1 h⟩
    have hp : ∃ fs', put w.fs r (.file []) = some fs' := by
      rcases hl with h | ⟨x, h⟩
      · obtain ⟨h1, h2⟩ := hpar (entry_none.2 h)
        obtain ⟨es, hes⟩ := entry_dir.1 h1
        obtain ⟨fs', hp⟩ := put_into hes (r.getLast h2) (.file [])
        rw [List.dropLast_append_getLast] at hp
        exact ⟨fs', hp⟩
      · rw [← Option.isSome_iff_exists, put_isSome w.fs r _ (.file x), put_back w.fs r _ h]; rfl
    obtain ⟨fs', hp⟩ := hp
    refine ⟨⟨fs', w.links⟩, ?_, put_entries hp hl⟩
    unfold openFor openWAt
    simp only [Bool.false_eq_true, if_false]
    rw [hr]
    dsimp only
    have : openW w.fs r = .ok fs' := by
      unfold openW
      rcases hl with h | ⟨x, h⟩ <;> rw [h] <;> dsimp only <;> rw [hp]
    rw [this]
  · unfold openFor openWAt
    simp only [Bool.false_eq_true, if_false]
    rw [hr]
    dsimp only
    have : openW w.fs r = .error osError := by
      unfold openW
      cases hl : lookup w.fs r with
      | none => exact absurd (Or.inl (entry_none.2 hl)) h
      | some m =>
        cases m with
        | dir es => rfl
        | other => rfl
        | file x => exact absurd (Or.inr ⟨x, entry_file.2 hl⟩) h
    rw [this]

/-- **C122**, `moveTo` on one file system: when it succeeds, what was at the place of the source, a link itself and not what it leads
to, is with all below it at the place of the destination, a link there being replaced, and nothing else has changed; when it
fails nothing has. -/
theorem moveTo_links (n : Nat) {w w' : World} (hg : Good w.fs) (src dst : List Str) {a b : List Str} {e : Option PyErr}
    (ha : place w.links n w.fs src = some a) (hb : place w.links n w.fs dst = some b) (h : moveToAt n w src dst = (w', e)) :
    (e = none → entry w a ≠ none ∧ ∀ q, entry w' q =
      if b <+: q then entry w (a ++ q.drop b.length) else if a <+: q then none else entry w q) ∧
    (e ≠ none → w' = w) := by
  unfold moveToAt renameAt at h
  rw [ha, hb] at h
  dsimp only at h
  cases hr : rename w.fs a b with
  | error e' =>
    rw [hr] at h
    cases h
    exact ⟨fun h => (nomatch h), fun _ => rfl⟩
  | ok fs' =>
    rw [hr] at h
    cases h
    refine ⟨fun _ => ⟨fun hn => ?_, rename_entries hg hr⟩, fun h => absurd rfl h⟩
    unfold rename at hr
    rw [entry_none.1 hn] at hr
    cases hr

/-- … and it succeeds when the source is there and not a directory, and the destination is in a directory and is not one. -/
theorem moveTo_works (n : Nat) {w : World} (hg : Good w.fs) (src dst : List Str) (c : Str) {a d : List Str} (ha' : a ≠ [])
    (ha : place w.links n w.fs src = some a) (hb : resolve w.links w.fs false n dst = some d)
    (h1 : entry w a ≠ none) (h2 : entry w a ≠ some .dir) (h3 : entry w d = some .dir) (h4 : entry w (d ++ [c]) ≠ some .dir) :
    (moveToAt n w src (dst ++ [c])).2 = none := by
  unfold moveToAt renameAt
  rw [ha, place_snoc, hb]
  simp only [Option.map_some]
  obtain ⟨m, hm⟩ : ∃ m, lookup w.fs a = some m := by
    cases hl : lookup w.fs a with
    | none => exact absurd (entry_none.2 hl) h1
    | some m => exact ⟨m, rfl⟩
  have hmd : ∀ es, m ≠ .dir es := fun es e => h2 (entry_dir.2 ⟨es, by rw [hm, e]⟩)
  obtain ⟨es, hes⟩ := entry_dir.1 h3
  have hpre : ¬ a <+: d := by
    intro hp
    by_cases e : a = d
    · subst e; rw [hm] at hes; cases hes; exact hmd es rfl
    · obtain ⟨c', t, rfl⟩ := prefix_ne hp e
      obtain ⟨es', h⟩ := lookup_above hes
      rw [hm] at h; cases h; exact hmd _ rfl
  have : ∃ fs', rename w.fs a (d ++ [c]) = .ok fs' := by
    unfold rename
    rw [hm]
    dsimp only
    by_cases e : a = d ++ [c]
    · exact ⟨_, if_pos e⟩
    · have hp : ¬ a.isPrefixOf (d ++ [c]) = true := by
        intro h
        rcases List.prefix_concat_iff.1 (isPrefixOf_iff.1 h) with h | h
        · exact e h
        · exact hpre h
      have hmay : mayReplace m (lookup w.fs (d ++ [c])) = true := by
        cases hl : lookup w.fs (d ++ [c]) with
        | none => rfl
        | some k =>
          cases k with
          | dir es => exact absurd (entry_dir.2 ⟨es, hl⟩) h4
          | file x => cases m <;> simp_all [mayReplace]
          | other => cases m <;> simp_all [mayReplace]
      obtain ⟨fs1, hd1⟩ := del_some hm ha'
      obtain ⟨es', hes'⟩ := del_keeps hd1 hpre hes
      obtain ⟨fs2, hp2⟩ := put_into hes' c m
      refine ⟨fs2, ?_⟩
      rw [if_neg e, if_neg hp, hmay, hd1]
      dsimp only
      rw [hp2]
      rfl
  obtain ⟨fs', h⟩ := this
  rw [h]

/-- What `setContent` does: the contents go where the sibling's path leads, and then the sibling's entry, whatever it is, is put in
the place of the path. -/
theorem setContent_links (n : Nat) {w : World} (hg : Good w.fs) (dir : List Str) (name ext : Str) (content : List Nat) (hext : ext ≠ [])
    {d r : List Str} (hd : resolve w.links w.fs false n dir = some d)
    (hr : resolve w.links w.fs true n (dir ++ [name ++ ext]) = some r)
    (hfile : (entry w r = none ∧ ∃ r0 c, r = r0 ++ [c] ∧ entry w r0 = some .dir) ∨ ∃ x, entry w r = some (.file x))
    (hdir : entry w d = some .dir) (hself : entry w (d ++ [name]) ≠ some .dir) :
    ∃ w', setContentAt n w dir name content ext = (w', none) ∧ ∀ q, entry w' q =
      if q = d ++ [name] then (if r = d ++ [name ++ ext] then some (.file content) else entry w (d ++ [name ++ ext]))
      else if q = d ++ [name ++ ext] then none
      else if q = r then some (.file content) else entry w q := by
  have hne : name ++ ext ≠ name := fun e => hext (by simpa using e)
  have hl : lookup w.fs r = none ∨ ∃ x, lookup w.fs r = some (.file x) := by
    rcases hfile with ⟨h, -⟩ | ⟨x, h⟩
    · exact Or.inl (entry_none.1 h)
    · exact Or.inr ⟨x, entry_file.1 h⟩
  have hp : ∀ x, ∃ fs', put w.fs r x = some fs' := by
    intro x
    rcases hfile with ⟨-, r0, c, rfl, h⟩ | ⟨y, h⟩
    · obtain ⟨es, hes⟩ := entry_dir.1 h
      exact put_into hes c x
    · rw [← Option.isSome_iff_exists, put_isSome w.fs r _ (.file y), put_back w.fs r _ (entry_file.1 h)]; rfl
  obtain ⟨fs1, hp1⟩ := hp (.file [])
  obtain ⟨fs2, hp2⟩ := hp (.file content)
  have ho : openWAt n w (dir ++ [name ++ ext]) = .ok (⟨fs1, w.links⟩, r) := by
    unfold openWAt
    rw [hr]
    dsimp only
    have : openW w.fs r = .ok fs1 := by
      unfold openW
      rcases hl with h | ⟨x, h⟩ <;> rw [h] <;> dsimp only <;> rw [hp1]
    rw [this]
  have hent := put_entries (L := w.links) hp2 hl
  have hd2 := resolve_keeps (L := w.links) (put_keeps hp2 hl) n dir d hd
  have hdr : d ≠ r := by
    rintro rfl
    rcases hfile with ⟨h, -⟩ | ⟨y, h⟩ <;> rw [h] at hdir <;> cases hdir
  -- the sibling is there, and is a link or the new file
  have hsib : r = d ++ [name ++ ext] ∨ ∃ t, entry w (d ++ [name ++ ext]) = some (.link t) := by
    cases hk : linkAt w.links w.fs (d ++ [name ++ ext]) with
    | none =>
      left
      rw [resolve_snoc_new n dir d _ hd hk] at hr
      exact (Option.some.inj hr).symm
    | some t => exact Or.inr ⟨t, entry_link.2 hk⟩
  have e1 : entry ⟨fs2, w.links⟩ (d ++ [name ++ ext]) =
      if r = d ++ [name ++ ext] then some (.file content) else entry w (d ++ [name ++ ext]) := by
    rw [hent]
    by_cases c : r = d ++ [name ++ ext]
    · rw [if_pos c.symm, if_pos c]
    · rw [if_neg (Ne.symm c), if_neg c]
  have hw := moveTo_works n (w := ⟨fs2, w.links⟩) (hg.put (.file _) hp2) (dir ++ [name ++ ext]) dir name (a := d ++ [name ++ ext])
    (d := d) (by simp) (by rw [place_snoc]; dsimp only; rw [hd2]; rfl) hd2
    (by
      rw [e1]
      rcases hsib with c | ⟨t, c⟩
      · rw [if_pos c]; simp
      · split
        · simp
        · rw [c]; simp)
    (by
      rw [e1]
      rcases hsib with c | ⟨t, c⟩
      · rw [if_pos c]; simp
      · split
        · simp
        · rw [c]; simp)
    (by rw [hent, if_neg hdr]; exact hdir)
    (by
      rw [hent]
      split
      · simp
      · exact hself)
  have ha : place w.links n fs2 (dir ++ [name ++ ext]) = some (d ++ [name ++ ext]) := by rw [place_snoc, hd2]; rfl
  have hb : place w.links n fs2 (dir ++ [name]) = some (d ++ [name]) := by rw [place_snoc, hd2]; rfl
  unfold moveToAt at hw
  cases hrn : renameAt n ⟨fs2, w.links⟩ (dir ++ [name ++ ext]) (dir ++ [name]) with
  | error e => rw [hrn] at hw; cases hw
  | ok w3 =>
    refine ⟨w3, ?_, fun q => ?_⟩
    · unfold setContentAt
      rw [ho]
      dsimp only
      rw [put_put hp1, hp2]
      dsimp only
      rw [hrn]
    · have := (moveTo_links n (w := ⟨fs2, w.links⟩) (w' := w3) (e := none) (hg.put (.file _) hp2) _ _ ha hb
        (by unfold moveToAt; rw [hrn])).1 rfl
      rw [this.2 q]
      by_cases c1 : q = d ++ [name]
      · subst c1
        rw [if_pos List.prefix_rfl, if_pos rfl, List.drop_length, List.append_nil, e1]
      · rw [if_neg c1]
        -- below the two files there is nothing
        have below : ∀ c' : Str, entry (⟨fs2, w.links⟩ : World) (d ++ [c']) ≠ some .dir → d ++ [c'] <+: q → q ≠ d ++ [c'] →
            lookup fs2 q = none := by
          intro c' hnd hpre hq
          cases hlq : lookup fs2 q with
          | none => rfl
          | some m =>
            obtain ⟨x, t, rfl⟩ := prefix_ne hpre (Ne.symm hq)
            exact absurd (entry_dir.2 (lookup_above hlq)) hnd
        have nd1 : entry (⟨fs2, w.links⟩ : World) (d ++ [name]) ≠ some .dir := by
          rw [hent]; split
          · simp
          · exact hself
        have nd2 : entry (⟨fs2, w.links⟩ : World) (d ++ [name ++ ext]) ≠ some .dir := by
          rw [e1]
          rcases hsib with c | ⟨t, c⟩
          · rw [if_pos c]; simp
          · split
            · simp
            · rw [c]; simp
        by_cases c2 : q = d ++ [name ++ ext]
        · subst c2
          rw [if_neg (apart (Ne.symm hne)), if_pos List.prefix_rfl, if_pos rfl]
        · rw [if_neg c2]
          by_cases c3 : d ++ [name] <+: q
          · rw [if_pos c3, ← hent q, entry_none (w := ⟨fs2, w.links⟩) (q := q) |>.2 (below name nd1 c3 c1)]
            obtain ⟨x, t, rfl⟩ := prefix_ne c3 (Ne.symm c1)
            rw [List.drop_left]
            cases hx : entry (⟨fs2, w.links⟩ : World) (d ++ [name ++ ext] ++ x :: t) with
            | none => rfl
            | some y =>
              exfalso
              apply nd2
              unfold entry at hx
              cases hlq : lookup fs2 (d ++ [name ++ ext] ++ x :: t) with
              | none => dsimp only at hx; rw [hlq] at hx; cases hx
              | some m => exact entry_dir.2 (lookup_above hlq)
          · rw [if_neg c3]
            by_cases c4 : d ++ [name ++ ext] <+: q
            · rw [if_pos c4, ← hent q, entry_none (w := ⟨fs2, w.links⟩) (q := q) |>.2 (below (name ++ ext) nd2 c4 c2)]
            · rw [if_neg c4, hent q]

/-- **C122, partial**, `setContent`: when the sibling is not a link, the path, even if it was a link, is a file with the contents
afterwards, the sibling is gone, and all other places hold what they held, also the one the link led to. -/
theorem setContent_links_partial (n : Nat) {w : World} (hg : Good w.fs) (dir : List Str) (name ext : Str) (content : List Nat)
    (hext : ext ≠ []) {d : List Str} (hd : resolve w.links w.fs false n dir = some d) (hdir : entry w d = some .dir)
    (hsib : entry w (d ++ [name ++ ext]) = none ∨ ∃ x, entry w (d ++ [name ++ ext]) = some (.file x))
    (hself : entry w (d ++ [name]) ≠ some .dir) :
    ∃ w', setContentAt n w dir name content ext = (w', none) ∧ ∀ q, entry w' q =
      if q = d ++ [name] then some (.file content) else if q = d ++ [name ++ ext] then none else entry w q := by
  have hk : linkAt w.links w.fs (d ++ [name ++ ext]) = none := by
    cases hk : linkAt w.links w.fs (d ++ [name ++ ext]) with
    | none => rfl
    | some t =>
      rw [entry_link.2 hk] at hsib
      rcases hsib with h | ⟨x, h⟩ <;> cases h
  obtain ⟨w', h1, h2⟩ := setContent_links n hg dir name ext content hext hd (resolve_snoc_new n dir d _ hd hk)
    (by
      rcases hsib with h | h
      · exact Or.inl ⟨h, d, _, rfl, hdir⟩
      · exact Or.inr h) hdir hself
  refine ⟨w', h1, fun q => ?_⟩
  rw [h2 q, if_pos rfl]
  by_cases c1 : q = d ++ [name]
  · rw [if_pos c1, if_pos c1]
  · rw [if_neg c1, if_neg c1]
    by_cases c2 : q = d ++ [name ++ ext]
    · rw [if_pos c2, if_pos c2]
    · rw [if_neg c2, if_neg c2, if_neg c2]

/-- C122 as stated is false: whoever can put a link at the name of the sibling, `f.new`, chooses which file `setContent` overwrites,
and `f` becomes that link.  `/etc/passwd` (`e/p`) here. -/
theorem setContent_links_fails :
    let w : World := ⟨.dir [([101], .dir [([112], .file [1, 2, 3])]), ([116], .dir [([102, 46, 110], .other)])],
      fun q => if q = [[116], [102, 46, 110]] then some [[101], [112]] else none⟩
    let r := setContentAt 40 w [[116]] [102] [7, 8] [46, 110]
    r.2 = none ∧ entry w [[101], [112]] = some (.file [1, 2, 3]) ∧ entry r.1 [[101], [112]] = some (.file [7, 8]) ∧
      entry r.1 [[116], [102]] = some (.link [[101], [112]]) := by
  decide +kernel

/-- A link from the sibling to the file itself: afterwards `f` leads to itself and the contents are lost. -/
example :
    let w : World := ⟨.dir [([102], .file [1]), ([102, 46, 110], .other)], fun q => if q = [[102, 46, 110]] then some [[102]] else none⟩
    let r := setContentAt 40 w [] [102] [7, 8] [46, 110]
    r.2 = none ∧ entry r.1 [[102]] = some (.link [[102]]) ∧ resolve r.1.links r.1.fs false 40 [[102]] = none := by
  decide +kernel

/-- A link at the path, and a link on the way: `/l` leads to `/t`, and `/t/f` to `/x`; `setContent` of `/l/f` leaves `/x` alone;
`create` refuses `/l/f`, also if `/x` is not there. -/
example :
    let L : Links := fun q => if q = [[108]] then some [[116]] else if q = [[116], [102]] then some [[120]] else none
    let w : World := ⟨.dir [([108], .other), ([116], .dir [([102], .other)]), ([120], .file [1])], L⟩
    let w0 : World := ⟨.dir [([108], .other), ([116], .dir [([102], .other)])], L⟩
    let r := setContentAt 40 w [[108]] [102] [7, 8] [46, 110]
    resolve w.links w.fs false 40 [[108]] = some [[116]] ∧ entry w [[116]] = some .dir ∧
    entry w [[116], [102]] = some (.link [[120]]) ∧ entry w [[116], [102, 46, 110]] = none ∧
    r.2 = none ∧ entry r.1 [[120]] = some (.file [1]) ∧ entry r.1 [[116], [102]] = some (.file [7, 8]) ∧
    (createAt 40 w0 [[108], [102]]).2 = some osError ∧ (createAt 40 w0 [[108], [103]]).2 = none ∧
    (openFor 40 w0 ⟨[[108], [102]], false⟩).2 = none ∧
    entry (openFor 40 w0 ⟨[[108], [102]], false⟩).1 [[120]] = some (.file []) ∧
    (moveToAt 40 w [[108], [102]] [[121]]).2 = none ∧ entry (moveToAt 40 w [[108], [102]] [[121]]).1 [[121]] = some (.link [[120]]) := by
  decide +kernel

end Verif.FileLinks
