import Verif.Props.FileLinksWrite
/-!
# C122: what is refused, with symbolic links around

Paths whose directory leads nowhere (it does not exist, or links go in a circle), and `setContent` where there is a directory.
-/
namespace Verif.FileLinks
open Verif.Py Verif.Py.Path Verif.FilePath

theorem follow_before {L : Links} {fs : Node} {r r' : List Str → Option (List Str)} (c : Str)
    (hr : ∀ p q, r (p ++ [c]) = some q → ∃ q', r' p = some q') (todo done q : List Str)
    (h : follow L fs true r done (todo ++ [c]) = some q) : ∃ q', follow L fs false r' done todo = some q' := by
  induction todo generalizing done with
  | nil => exact ⟨done, rfl⟩
  | cons d rest ih =>
    rw [List.cons_append, follow] at h
    rw [follow]
    cases hl : lookup fs (done ++ [d]) with
    | none => rw [hl] at h; simp at h
    | some m =>
      rw [hl] at h
      dsimp only at h ⊢
      cases hk : linkAt L fs (done ++ [d]) with
      | none => rw [hk] at h; exact ih _ h
      | some t =>
        rw [hk] at h
        dsimp only at h ⊢
        rw [← List.append_assoc] at h
        exact hr _ _ h

theorem resolve_before {L : Links} {fs : Node} (n : Nat) (p q : List Str) (c : Str) (h : resolve L fs true n (p ++ [c]) = some q) :
    ∃ q', resolve L fs false n p = some q' := by
  induction n generalizing p q with
  | zero => exact follow_before c (fun _ _ h => by cases h) p [] q h
  | succ n ih => exact follow_before c ih p [] q h

/-- **C122**: where the directory of a path leads nowhere, because it does not exist or because of links that go in a circle,
nothing can be created, opened, written, or moved from or to; `OSError` is raised and nothing changes. -/
theorem nowhere_links (n : Nat) (w : World) (dir : List Str) (c : Str) (hd : resolve w.links w.fs false n dir = none) :
    createAt n w (dir ++ [c]) = (w, some osError) ∧
    (∀ a, openFor n w ⟨dir ++ [c], a⟩ = (w, some osError)) ∧
    (∀ name content ext, setContentAt n w dir name content ext = (w, some osError)) ∧
    (∀ p, moveToAt n w (dir ++ [c]) p = (w, some osError) ∧ moveToAt n w p (dir ++ [c]) = (w, some osError)) := by
  have hp : place w.links n w.fs (dir ++ [c]) = none := by rw [place_snoc, hd]; rfl
  have hr : ∀ x, resolve w.links w.fs true n (dir ++ [x]) = none := by
    intro x
    cases h : resolve w.links w.fs true n (dir ++ [x]) with
    | none => rfl
    | some q =>
      obtain ⟨q', h'⟩ := resolve_before n dir q x h
      rw [hd] at h'; cases h'
  have hc : createAt n w (dir ++ [c]) = (w, some osError) := by unfold createAt; rw [hp]
  have ho : ∀ x, openWAt n w (dir ++ [x]) = .error osError := by intro x; unfold openWAt; rw [hr]
  refine ⟨hc, fun a => ?_, fun name content ext => ?_, fun p => ⟨?_, ?_⟩⟩
  · unfold openFor
    cases a with
    | true => exact hc
    | false => dsimp only; rw [ho]; rfl
  · unfold setContentAt; rw [ho]
  · unfold moveToAt renameAt; rw [hp]
  · unfold moveToAt renameAt; rw [hp]
    cases place w.links n w.fs p <;> rfl

/-- **C122**, `setContent` where there is a directory, also an empty one: `OSError` is raised and the directory stays, but the
contents have been written where the sibling's path leads, and are left there. -/
theorem setContent_onto_dir (n : Nat) {w : World} (dir : List Str) (name ext : Str) (content : List Nat) (hext : ext ≠ [])
    {d r : List Str} (hd : resolve w.links w.fs false n dir = some d)
    (hr : resolve w.links w.fs true n (dir ++ [name ++ ext]) = some r)
    (hfile : (entry w r = none ∧ ∃ r0 c, r = r0 ++ [c] ∧ entry w r0 = some .dir) ∨ ∃ x, entry w r = some (.file x))
    (hself : entry w (d ++ [name]) = some .dir) :
    ∃ w', setContentAt n w dir name content ext = (w', some osError) ∧
      ∀ q, entry w' q = if q = r then some (.file content) else entry w q := by
  have hl : lookup w.fs r = none ∨ ∃ x, lookup w.fs r = some (.file x) := by
    rcases hfile with ⟨h, -⟩ | ⟨x, h⟩
    · exact Or.inl (entry_none.1 h)
    · exact Or.inr ⟨x, entry_file.1 h⟩
  have hp : ∀ x, ∃ fs', put w.fs r x = some fs' := by
    intro x
    rcases hfile with ⟨-, r0, c, rfl, h⟩ | ⟨y, h⟩
    · obtain ⟨es, hes⟩ := entry_dir.1 h
      exact put_into hes c x
    · rw [← Option.isSome_iff_exists, put_isSome w.fs r _ (.file y), put_back w.fs r _ (entry_file.1 h)]; rfl
  obtain ⟨fs1, hp1⟩ := hp (.file [])
  obtain ⟨fs2, hp2⟩ := hp (.file content)
  have ho : openWAt n w (dir ++ [name ++ ext]) = .ok (⟨fs1, w.links⟩, r) := by
    unfold openWAt
    rw [hr]
    dsimp only
    have : openW w.fs r = .ok fs1 := by
      unfold openW
      rcases hl with h | ⟨x, h⟩ <;> rw [h] <;> dsimp only <;> rw [hp1]
    rw [this]
  have hent := put_entries (L := w.links) hp2 hl
  have hd2 := resolve_keeps (L := w.links) (put_keeps hp2 hl) n dir d hd
  have hne : d ++ [name ++ ext] ≠ d ++ [name] := fun e => hext (by simpa using e)
  have hnr : d ++ [name] ≠ r := by
    rintro rfl
    rcases hfile with ⟨h, -⟩ | ⟨y, h⟩ <;> rw [h] at hself <;> cases hself
  have hself2 : entry ⟨fs2, w.links⟩ (d ++ [name]) = some .dir := by rw [hent, if_neg hnr]; exact hself
  obtain ⟨es, hes⟩ := entry_dir.1 hself2
  have hpre : ¬ (d ++ [name ++ ext]).isPrefixOf (d ++ [name]) = true := by
    intro h
    have := (isPrefixOf_iff.1 h).eq_of_length (by simp)
    exact hne this
  -- what is at the sibling is no directory
  have hsib : ∀ m, lookup fs2 (d ++ [name ++ ext]) = some m → ∀ es, m ≠ .dir es := by
    rintro m hm es rfl
    have h2 : entry ⟨fs2, w.links⟩ (d ++ [name ++ ext]) = some .dir := entry_dir.2 ⟨es, hm⟩
    cases hk : linkAt w.links w.fs (d ++ [name ++ ext]) with
    | none =>
      rw [resolve_snoc_new n dir d _ hd hk] at hr
      rw [hent, if_pos (Option.some.inj hr)] at h2
      cases h2
    | some t =>
      rw [hent] at h2
      split at h2
      · cases h2
      · have : entry w (d ++ [name ++ ext]) = some (.link t) := entry_link.2 hk
        rw [this] at h2; cases h2
  have hrn : renameAt n ⟨fs2, w.links⟩ (dir ++ [name ++ ext]) (dir ++ [name]) = .error osError := by
    unfold renameAt
    rw [place_snoc, place_snoc]
    dsimp only
    rw [hd2]
    simp only [Option.map_some]
    have : rename fs2 (d ++ [name ++ ext]) (d ++ [name]) = .error osError := by
      unfold rename
      cases hm : lookup fs2 (d ++ [name ++ ext]) with
      | none => rfl
      | some m =>
        have hmay : mayReplace m (lookup fs2 (d ++ [name])) = false := by
          have hes' : lookup fs2 (d ++ [name]) = some (.dir es) := hes
          rw [hes']
          cases m with
          | dir es' => exact absurd rfl (hsib _ hm es')
          | file x => cases es <;> rfl
          | other => cases es <;> rfl
        dsimp only
        rw [if_neg hne, if_neg hpre, if_pos hmay]
    rw [this]
  refine ⟨⟨fs2, w.links⟩, ?_, fun q => hent q⟩
  unfold setContentAt
  rw [ho]
  dsimp only
  rw [put_put hp1, hp2]
  dsimp only
  rw [hrn]

/-- The directory `f` (102) and nothing at `f.n`: the contents end up in `f.n`. -/
example : ∃ w', setContentAt 40 ⟨.dir [([102], .dir [])], fun _ => none⟩ [] [102] [1, 2] [46, 110] = (w', some osError) ∧
    entry w' [[102, 46, 110]] = some (.file [1, 2]) ∧ entry w' [[102]] = some .dir := by
  obtain ⟨w', h, he⟩ := setContent_onto_dir 40 (w := ⟨.dir [([102], .dir [])], fun _ => none⟩) [] [102] [46, 110] [1, 2] (by simp)
    (d := []) (r := [[102, 46, 110]]) rfl rfl (.inl ⟨rfl, [], [102, 46, 110], rfl, rfl⟩) rfl
  exact ⟨w', h, he _, he _⟩

/-- A link `a` to itself: nothing can be done at `a/b`. -/
example : resolve (fun q => if q = [[97]] then some [[97]] else none) (.dir [([97], .other)]) false 40 [[97]] = none := by
  decide +kernel

end Verif.FileLinks
