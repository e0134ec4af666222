import Verif.Lemmas.FileLinks
import Verif.Props.FilePathOps
/-!
# C118: removing, walking and copying trees with symbolic links
-/
namespace Verif.FileLinks
open Verif.Py Verif.Py.Path Verif.FilePath

/-! ## Removing -/

/-- At every place that is not strictly below `q` there is still something if there was. -/
def Outside (q : List Str) (a b : Node) : Prop := ∀ r m, ¬ (q <+: r ∧ r ≠ q) → lookup b r = some m → ∃ m', lookup a r = some m'

/-- The path leads to the place, as long as things are only deleted, and only strictly below `q`. -/
def Stable (L : Links) (n : Nat) (fs : Node) (q p d : List Str) : Prop :=
  ∀ fs', Sub fs' fs → Outside q fs' fs → resolve L fs' false n p = some d

/-- No symbolic link at or below a place leads to a directory. -/
def NoDirLinks (L : Links) (fs : Node) (q : List Str) : Prop :=
  ∀ r t, q <+: r → linkAt L fs r = some t → ∀ k es, stat L k fs t ≠ some (.dir es)

theorem linkAt_other {L : Links} {fs : Node} {r t : List Str} (h : linkAt L fs r = some t) : lookup fs r = some .other := by
  unfold linkAt at h
  split at h
  · assumption
  · cases h

theorem NoDirLinks.sub {L : Links} {a b : Node} {q : List Str} (h : NoDirLinks L b q) (hs : Sub a b) : NoDirLinks L a q := by
  intro r t hr hl k es hst
  have h1 := linkAt_sub (L := L) hs (linkAt_other hl)
  rw [hl] at h1
  obtain ⟨m', h2, h3⟩ := stat_sub hs k t _ hst
  cases m' with
  | dir es' => exact h r t hr h1 k es' h2
  | file => exact h3
  | other => exact h3

/-- A directory with fewer entries. -/
theorem put_fewer {fs : Node} {q : List Str} {es todo : Dict Str Node} {fsi : Node} (hl : lookup fs q = some (.dir es))
    (names : (es.map Prod.fst).Nodup) (hsub : ∀ e ∈ todo, e ∈ es) (hp : put fs q (.dir todo) = some fsi) :
    Sub fsi fs ∧ Outside q fsi fs := by
  constructor
  · intro r m hr
    by_cases h1 : q <+: r
    · obtain ⟨t, rfl⟩ := h1
      rw [lookup_append, put_get hp, Option.bind_some] at hr
      rw [lookup_append, hl, Option.bind_some]
      cases t with
      | nil => rw [lookup_nil] at hr ⊢; cases hr; exact ⟨_, rfl, by simp [same]⟩
      | cons c t =>
        rw [lookup_dir] at hr ⊢
        cases hg : Dict.get? todo c with
        | none => rw [hg] at hr; cases hr
        | some k =>
          rw [hg] at hr
          rw [Dict.get?_of_mem names (hsub _ (Dict.mem_of_get? hg))]
          exact ⟨m, hr, same_refl m⟩
    · by_cases h2 : r <+: q
      · obtain ⟨e1, e2, h3, h4, _⟩ := put_above hp h2 (fun e => h1 (by rw [e]))
        rw [h4] at hr
        cases hr
        exact ⟨_, h3, by simp [same]⟩
      · rw [put_other hp h1 h2] at hr
        exact ⟨m, hr, same_refl m⟩
  · intro r m hn hr
    by_cases h1 : r = q
    · subst h1; exact ⟨_, put_get hp⟩
    · by_cases h2 : r <+: q
      · obtain ⟨e1, e2, h3, h4, _⟩ := put_above hp h2 h1
        exact ⟨_, h4⟩
      · exact ⟨m, by rw [put_other hp (fun h => hn ⟨h, h1⟩) h2, hr]⟩

/-- What is removed of the entry `d ++ [c]`, which is called `p ++ [c]`. -/
def Removes (L : Links) (n need : Nat) (m : Node) : Prop :=
  ∀ fuel, need ≤ fuel → ∀ fs p d c fs', lookup fs (d ++ [c]) = some m → del fs (d ++ [c]) = some fs' →
    Stable L n fs (d ++ [c]) p d → NoDirLinks L fs (d ++ [c]) → remove L n fuel fs (p ++ [c]) = some (fs', none)

/-- The loop over the entries of a directory. -/
theorem remove_loop {L : Links} {n need fuel : Nat} (hf : need ≤ fuel) {es : Dict Str Node} (names : (es.map Prod.fst).Nodup)
    (hneed : ∀ e ∈ es, Removes L n need e.2) {fs : Node} {p q : List Str} (hl : lookup fs q = some (.dir es))
    (hst : Stable L n fs q p q) (hno : NoDirLinks L fs q) (todo : Dict Str Node) (hsub : ∀ e ∈ todo, e ∈ es) (fsi : Node)
    (hi : put fs q (.dir todo) = some fsi) :
    ∃ fsl, put fs q (.dir []) = some fsl ∧
      copyChildren (fun fs c => remove L n fuel fs (p ++ [c])) fsi (todo.map Prod.fst) = some (fsl, none) := by
  induction todo generalizing fsi with
  | nil => exact ⟨fsi, hi, rfl⟩
  | cons e todo iht =>
    obtain ⟨c, m⟩ := e
    obtain ⟨fsn, hn⟩ : ∃ fs1, put fs q (.dir todo) = some fs1 := by
      rw [← Option.isSome_iff_exists, put_isSome fs q _ (.dir es), put_back fs q _ hl]; rfl
    have hcl : lookup fsi (q ++ [c]) = some m := by
      rw [lookup_child (put_get hi)]
      simp [Dict.get?]
    obtain ⟨s1, o1⟩ := put_fewer hl names hsub hi
    have hstc : Stable L n fsi (q ++ [c]) p q := by
      intro fs' hs ho
      refine hst fs' (hs.trans s1) fun r x hr hx => ?_
      obtain ⟨y, hy⟩ := o1 r x hr hx
      refine ho r y (fun ⟨h1, h2⟩ => hr ⟨(List.prefix_append q [c]).trans h1, fun e => ?_⟩) hy
      subst e
      have := h1.length_le
      simp at this
      omega
    have hnoc : NoDirLinks L fsi (q ++ [c]) := fun r t hr => (hno.sub s1) r t ((List.prefix_append q [c]).trans hr)
    have hrec := hneed (c, m) (hsub _ (by simp)) fuel hf fsi p q c fsn hcl (by rw [del_sub hi, hn]) hstc hnoc
    obtain ⟨fsl, h1, h2⟩ := iht (fun x hx => hsub x (List.mem_cons_of_mem _ hx)) fsn hn
    exact ⟨fsl, h1, by simp only [List.map_cons, copyChildren, hrec]; exact h2⟩

theorem removes_leaf {L : Links} {n : Nat} {m : Node} (hm : ∀ es, m ≠ .dir es) : Removes L n 1 m := by
  intro fuel hf fs p d c fs' hl hd hst hno
  obtain ⟨fuel, rfl⟩ : ∃ f, fuel = f + 1 := ⟨fuel - 1, by omega⟩
  have hr := hst fs (Sub.refl fs) fun r m _ h => ⟨m, h⟩
  obtain ⟨-, h2, h3⟩ := resolve_snoc n p d c hr
  have hnd : ∀ es, stat L n fs (p ++ [c]) ≠ some (.dir es) := by
    intro es h
    cases hk : linkAt L fs (d ++ [c]) with
    | none =>
      unfold stat at h
      rw [h2 m hl hk] at h
      dsimp only at h
      rw [hl] at h
      cases h
      exact hm es rfl
    | some t =>
      rcases h3 t hk with e | ⟨k, e⟩
      · unfold stat at h; rw [e] at h; cases h
      · refine hno _ t List.prefix_rfl hk k es ?_
        unfold stat at h ⊢
        rw [e] at h
        exact h
  have ho : osRemove fs (d ++ [c]) = .ok fs' := by
    unfold osRemove
    rw [hl, hd]
    cases m with
    | dir es => exact absurd rfl (hm es)
    | file => rfl
    | other => rfl
  have hpl : place L n fs (p ++ [c]) = some (d ++ [c]) := by rw [place_snoc, hr]; rfl
  unfold remove
  split
  · rename_i h; exact absurd h (hnd _)
  · rw [hpl]; dsimp only; rw [ho]

theorem removes_good {L : Links} {n : Nat} {m : Node} (hm : Good m) : ∃ need, Removes L n need m := by
  induction hm with
  | file content => exact ⟨1, removes_leaf (by simp)⟩
  | other => exact ⟨1, removes_leaf (by simp)⟩
  | dir es names sub ih =>
    obtain ⟨need, hneed⟩ : ∃ need, ∀ e ∈ es, Removes L n need e.2 := by
      clear names sub
      induction es with
      | nil => exact ⟨0, by simp⟩
      | cons e es ihl =>
        obtain ⟨n1, h1⟩ := ih e (by simp)
        obtain ⟨n2, h2⟩ := ihl fun x hx => ih x (List.mem_cons_of_mem _ hx)
        refine ⟨max n1 n2, fun x hx fuel hf => ?_⟩
        rcases List.mem_cons.mp hx with rfl | hx
        · exact h1 fuel (by omega)
        · exact h2 x hx fuel (by omega)
    refine ⟨need + 1, fun fuel hf fs p d c fs' hl hd hst hno => ?_⟩
    obtain ⟨fuel, rfl⟩ : ∃ f, fuel = f + 1 := ⟨fuel - 1, by omega⟩
    have hres : ∀ fs', Sub fs' fs → Outside (d ++ [c]) fs' fs → resolve L fs' false n (p ++ [c]) = some (d ++ [c]) := by
      intro fs' hs ho
      obtain ⟨x, hx⟩ := ho (d ++ [c]) _ (fun h => h.2 rfl) hl
      have hk : linkAt L fs' (d ++ [c]) = none := by rw [← linkAt_sub hs hx, linkAt_dir hl]
      exact (resolve_snoc n p d c (hst fs' hs ho)).2.1 x hx hk
    have hr := hst fs (Sub.refl fs) fun r m _ h => ⟨m, h⟩
    have hstat : stat L n fs (p ++ [c]) = some (.dir es) := by
      unfold stat
      rw [hres fs (Sub.refl fs) fun r m _ h => ⟨m, h⟩]
      exact hl
    obtain ⟨fsl, h1, h2⟩ := remove_loop (fuel := fuel) (by omega) names hneed hl hres hno es (fun _ h => h) fs (put_back fs _ _ hl)
    obtain ⟨s1, o1⟩ := put_fewer hl names (by simp) h1
    have h3 : del fsl (d ++ [c]) = some fs' := by rw [del_put h1 hl (by simp), hd]
    have hpl : place L n fsl (p ++ [c]) = some (d ++ [c]) := by
      rw [place_snoc, hst fsl s1 o1]; rfl
    simp only [remove, hstat, h2, hpl, rmdir, put_get h1, h3]

/-- The path of an entry of a directory leads there, whatever is deleted below the entry. -/
theorem stable_phys {L : Links} {n : Nat} {fs : Node} {d : List Str} {c : Str} {es : Dict Str Node}
    (h : lookup fs d = some (.dir es)) : Stable L n fs (d ++ [c]) d d := by
  intro fs' hs ho
  obtain ⟨x, hx⟩ := ho d _ (fun h => by
    have := h.1.length_le
    simp at this
    omega) h
  exact resolve_phys hx (by rw [← linkAt_sub hs hx, linkAt_dir h])

/-- **C118**, `remove`, for trees in which no symbolic link leads to a directory: what was at the place is removed with everything
below it, links included; what the links lead to stays, unless it is itself below.

Missing: links to directories (`remove_link_fails`). -/
theorem remove_links_partial (L : Links) (n : Nat) {fs : Node} (hg : Good fs) (dir : List Str) (c : Str) {m : Node} {es : Dict Str Node}
    (hd : lookup fs dir = some (.dir es)) (hl : lookup fs (dir ++ [c]) = some m)
    (hno : ∀ r t, dir ++ [c] <+: r → linkAt L fs r = some t → ∀ k es, stat L k fs t ≠ some (.dir es)) :
    ∃ need fs', (∀ fuel, need ≤ fuel → remove L n fuel fs (dir ++ [c]) = some (fs', none)) ∧
      (∀ q, dir ++ [c] <+: q → lookup fs' q = none) ∧
      (∀ q, ¬ dir ++ [c] <+: q → ¬ q <+: dir ++ [c] → lookup fs' q = lookup fs q) ∧
      ∃ es', lookup fs' dir = some (.dir es') ∧ ∀ d, d ∈ es'.map Prod.fst ↔ d ∈ es.map Prod.fst ∧ d ≠ c := by
  obtain ⟨need, hneed⟩ := removes_good (L := L) (n := n) (hg.lookup hl)
  obtain ⟨fs', hf⟩ := del_some hl (by simp)
  exact ⟨need, fs', fun fuel h => hneed fuel h fs _ _ _ fs' hl hf (stable_phys hd) hno, fun q hq => lookup_prefix hq (del_get hg hf),
    fun q h1 h2 => del_other hf h1 h2, _, del_parent hf hd, fun d => Dict.mem_keys_erase (hg.lookup hd).names c d⟩

/-- **C118** fails of `remove`: of a symbolic link to a directory (that does not contain the link), the link stays, and the
directory is emptied; then `OSError` is raised. -/
theorem remove_link_fails (L : Links) (n : Nat) {fs : Node} (hg : Good fs) (dir : List Str) (c : Str) (target : List Str)
    {es ts : Dict Str Node} (hd : lookup fs dir = some (.dir es)) (hl : linkAt L fs (dir ++ [c]) = some target)
    (ht : lookup fs target = some (.dir ts)) (hin : ¬ target <+: dir ++ [c]) (hno : NoDirLinks L fs target) :
    ∃ need fs', (∀ fuel, need ≤ fuel → remove L (n + 1) fuel fs (dir ++ [c]) = some (fs', some osError)) ∧
      lookup fs' (dir ++ [c]) = some .other ∧ lookup fs' target = some (.dir []) ∧
      ∀ q, ¬ target <+: q → ¬ q <+: target → lookup fs' q = lookup fs q := by
  have hother := linkAt_other hl
  have hgt := hg.lookup ht
  have hst : Stable L (n + 1) fs target (dir ++ [c]) target := by
    intro fs' hs ho
    obtain ⟨x, hx⟩ := ho (dir ++ [c]) _ (fun h => hin h.1) hother
    obtain ⟨y, hy⟩ := ho target _ (fun h => h.2 rfl) ht
    rw [resolve_link (by rw [← linkAt_sub hs hx, hl]) (by simp)]
    exact resolve_phys hy (by rw [← linkAt_sub hs hy, linkAt_dir ht])
  have hr := hst fs (Sub.refl fs) fun r m _ h => ⟨m, h⟩
  have names : (ts.map Prod.fst).Nodup := hgt.names
  obtain ⟨need, hneed⟩ : ∃ need, ∀ e ∈ ts, Removes L (n + 1) need e.2 := by
    have hall : ∀ e ∈ ts, ∃ need, Removes L (n + 1) need e.2 := fun e he =>
      removes_good (hgt.entry (Dict.get?_of_mem names he))
    clear hno hst hr names hgt ht
    induction ts with
    | nil => exact ⟨0, by simp⟩
    | cons e es ihl =>
      obtain ⟨n1, h1⟩ := hall e (by simp)
      obtain ⟨n2, h2⟩ := ihl fun x hx => hall x (List.mem_cons_of_mem _ hx)
      refine ⟨max n1 n2, fun x hx fuel hf => ?_⟩
      rcases List.mem_cons.mp hx with rfl | hx
      · exact h1 fuel (by omega)
      · exact h2 x hx fuel (by omega)
  obtain ⟨fsl, hfsl⟩ : ∃ fs1, put fs target (.dir []) = some fs1 := by
    rw [← Option.isSome_iff_exists, put_isSome fs target _ (.dir ts), put_back fs target _ ht]; rfl
  have hlnk : lookup fsl (dir ++ [c]) = some .other := by
    obtain ⟨s1, o1⟩ := put_fewer ht names (by simp) hfsl
    obtain ⟨x, hx⟩ := o1 (dir ++ [c]) _ (fun h => hin h.1) hother
    obtain ⟨y, hy, hs⟩ := s1 _ _ hx
    rw [hother] at hy
    cases hy
    cases x with
    | other => exact hx
    | file => exact absurd hs (by simp [same])
    | dir => exact absurd hs (by simp [same])
  refine ⟨need + 1, fsl, fun fuel hf => ?_, hlnk, put_get hfsl, fun q h1 h2 => put_other hfsl h1 h2⟩
  obtain ⟨fuel, rfl⟩ : ∃ f, fuel = f + 1 := ⟨fuel - 1, by omega⟩
  obtain ⟨fsl', h1, h2⟩ := remove_loop (fuel := fuel) (by omega) names hneed ht hst hno ts (fun _ h => h) fs (put_back fs _ _ ht)
  rw [hfsl] at h1
  cases h1
  have hstat : stat L (n + 1) fs (dir ++ [c]) = some (.dir ts) := by
    unfold stat; rw [hr]; exact ht
  have hpd : ∃ e1, lookup fsl dir = some (.dir e1) := lookup_above (t := []) hlnk
  obtain ⟨e1, he1⟩ := hpd
  simp only [remove, hstat, h2, place_phys c he1, rmdir, hlnk]

/-! ## Walking -/

/-- The paths below a path: by the entries of directories, when links are followed. -/
inductive Below (L : Links) (n : Nat) (fs : Node) : List Str → List Str → Prop where
  | self (p : List Str) : Below L n fs p p
  | entry (p q : List Str) (es : Dict Str Node) (c : Str) (hs : stat L n fs p = some (.dir es)) (hc : c ∈ es.map Prod.fst)
      (h : Below L n fs (p ++ [c]) q) : Below L n fs p q

theorem Below.prefix {L : Links} {n : Nat} {fs : Node} {p q : List Str} (h : Below L n fs p q) : p <+: q := by
  induction h with
  | self p => exact List.prefix_rfl
  | entry p q es c hs hc h ih => exact (List.prefix_append p [c]).trans ih

/-- How deep a file system is. -/
def Depth (fs : Node) (D : Nat) : Prop := ∀ q m, lookup fs q = some m → q.length ≤ D

theorem depth_exists {fs : Node} (hg : Good fs) : ∃ D, Depth fs D := by
  induction hg with
  | file z => exact ⟨0, fun q m h => by cases q with | nil => simp | cons c q => simp [lookup] at h⟩
  | other => exact ⟨0, fun q m h => by cases q with | nil => simp | cons c q => simp [lookup] at h⟩
  | dir es names sub ih =>
    obtain ⟨D, hD⟩ : ∃ D, ∀ e ∈ es, Depth e.2 D := by
      clear names sub
      induction es with
      | nil => exact ⟨0, by simp⟩
      | cons e es ihl =>
        obtain ⟨n1, h1⟩ := ih e (by simp)
        obtain ⟨n2, h2⟩ := ihl fun x hx => ih x (List.mem_cons_of_mem _ hx)
        refine ⟨max n1 n2, fun x hx q m hq => ?_⟩
        rcases List.mem_cons.mp hx with rfl | hx
        · have := h1 q m hq; omega
        · have := h2 x hx q m hq; omega
    refine ⟨D + 1, fun q m h => ?_⟩
    cases q with
    | nil => simp
    | cons c q =>
      rw [lookup_dir] at h
      cases hg : Dict.get? es c with
      | none => rw [hg] at h; cases h
      | some k =>
        rw [hg] at h
        have := hD _ (Dict.mem_of_get? hg) q m h
        simp
        exact this

/-- A path of too many components leads nowhere. -/
theorem follow_length {L : Links} {fs : Node} {D B : Nat} (hD : Depth fs D) {r : List Str → Option (List Str)}
    (hr : ∀ pre rest q, r (pre ++ rest) = some q → rest.length ≤ B) (pre rest done q : List Str)
    (h : follow L fs false r done (pre ++ rest) = some q) : rest.length ≤ B + D + 1 := by
  induction pre generalizing done with
  | cons c pre ih =>
    simp only [follow, List.cons_append] at h
    cases hl : lookup fs (done ++ [c]) with
    | none => rw [hl] at h; simp at h
    | some m =>
      rw [hl] at h
      dsimp only at h
      cases hk : linkAt L fs (done ++ [c]) with
      | none => rw [hk] at h; exact ih _ h
      | some t =>
        rw [hk] at h
        have := hr (t ++ pre) rest q (by rw [List.append_assoc]; exact h)
        omega
  | nil =>
    rw [List.nil_append] at h
    have main : ∀ rest done, follow L fs false r done rest = some q → rest.length = 0 ∨ rest.length + done.length ≤ B + D + 1 := by
      intro rest
      induction rest with
      | nil => intro done _; exact .inl rfl
      | cons c rest ih =>
        intro done h
        right
        simp only [follow] at h
        cases hl : lookup fs (done ++ [c]) with
        | none => rw [hl] at h; simp at h
        | some m =>
          have hd := hD _ _ hl
          rw [List.length_append, List.length_singleton] at hd
          rw [hl] at h
          dsimp only at h
          rw [List.length_cons]
          cases hk : linkAt L fs (done ++ [c]) with
          | none =>
            rw [hk] at h
            rcases ih _ h with e | e
            · omega
            · rw [List.length_append, List.length_singleton] at e
              omega
          | some t =>
            rw [hk] at h
            have := hr t rest q h
            omega
    rcases main rest done h with e | e <;> omega

theorem resolve_length {L : Links} {fs : Node} {D : Nat} (hD : Depth fs D) (n : Nat) (pre rest q : List Str)
    (h : resolve L fs false n (pre ++ rest) = some q) : rest.length ≤ (n + 1) * (D + 1) := by
  induction n generalizing pre rest q with
  | zero =>
    have := follow_length (B := 0) hD (fun _ _ _ h => by cases h) pre rest [] q h
    omega
  | succ n ih =>
    have := follow_length hD (fun pre rest q h => ih pre rest q h) pre rest [] q h
    have e : (n + 1 + 1) * (D + 1) = (n + 1) * (D + 1) + (D + 1) := Nat.succ_mul _ _
    omega

theorem walkChildren_spec {rec : Str → Option (List (List Str))} (cs : List Str) :
    (∀ c ∈ cs, ∃ l, rec c = some l) → ∃ l, walkChildren rec cs = some l := by
  induction cs with
  | nil => intro _; exact ⟨[], rfl⟩
  | cons c cs ih =>
    intro h
    obtain ⟨l1, h1⟩ := h c (by simp)
    obtain ⟨l2, h2⟩ := ih fun x hx => h x (List.mem_cons_of_mem _ hx)
    exact ⟨l1 ++ l2, by simp only [walkChildren, h1, h2]⟩

theorem walk_ends {L : Links} {n D : Nat} {fs : Node} (hD : Depth fs D) (k : Nat) (fuel : Nat) (hf : k + 1 ≤ fuel) (p : List Str)
    (hk : (n + 1) * (D + 1) < p.length + k) : ∃ l, walk L n fuel fs p = some l := by
  induction k generalizing fuel p with
  | zero =>
    obtain ⟨fuel, rfl⟩ : ∃ f, fuel = f + 1 := ⟨fuel - 1, by omega⟩
    have hs : stat L n fs p = none := by
      unfold stat
      cases hr : resolve L fs false n p with
      | none => rfl
      | some q =>
        have := resolve_length hD n [] p q hr
        omega
    exact ⟨[p], by simp only [walk, hs]⟩
  | succ k ih =>
    obtain ⟨fuel, rfl⟩ : ∃ f, fuel = f + 1 := ⟨fuel - 1, by omega⟩
    unfold walk
    split
    · rename_i es _
      obtain ⟨l, hl⟩ := walkChildren_spec (rec := fun c => walk L n fuel fs (p ++ [c])) (es.map Prod.fst) fun c _ =>
        ih fuel (by omega) (p ++ [c]) (by rw [List.length_append, List.length_singleton]; omega)
      rw [hl]
      exact ⟨_, rfl⟩
    · exact ⟨_, rfl⟩

theorem walkChildren_mem {rec : Str → Option (List (List Str))} (cs : List Str) (l : List (List Str)) (h : walkChildren rec cs = some l)
    (q : List Str) : q ∈ l ↔ ∃ c ∈ cs, ∃ lc, rec c = some lc ∧ q ∈ lc := by
  induction cs generalizing l with
  | nil => cases h; simp
  | cons c cs ih =>
    simp only [walkChildren] at h
    cases h1 : rec c with
    | none => rw [h1] at h; cases h
    | some l1 =>
      rw [h1] at h
      cases h2 : walkChildren rec cs with
      | none => rw [h2] at h; cases h
      | some l2 =>
        rw [h2] at h
        cases h
        rw [List.mem_append, ih l2 h2]
        constructor
        · rintro (hq | ⟨d, hd, ld, e, hq⟩)
          · exact ⟨c, by simp, l1, h1, hq⟩
          · exact ⟨d, List.mem_cons_of_mem _ hd, ld, e, hq⟩
        · rintro ⟨d, hd, ld, e, hq⟩
          rcases List.mem_cons.mp hd with rfl | hd
          · rw [h1] at e; cases e; exact .inl hq
          · exact .inr ⟨d, hd, ld, e, hq⟩

theorem walk_mem {L : Links} {n : Nat} {fs : Node} (fuel : Nat) (p : List Str) (l : List (List Str)) (h : walk L n fuel fs p = some l)
    (q : List Str) : q ∈ l ↔ Below L n fs p q := by
  induction fuel generalizing p l q with
  | zero => cases h
  | succ fuel ih =>
    unfold walk at h
    split at h
    · rename_i es hs
      cases hw : walkChildren (fun c => walk L n fuel fs (p ++ [c])) (es.map Prod.fst) with
      | none => rw [hw] at h; cases h
      | some l' =>
        rw [hw] at h
        cases h
        rw [List.mem_cons, walkChildren_mem _ _ hw]
        constructor
        · rintro (rfl | ⟨c, hc, lc, e, hq⟩)
          · exact .self _
          · exact .entry p q es c hs hc ((ih _ _ e q).mp hq)
        · intro hb
          cases hb with
          | self => exact .inl rfl
          | entry _ _ es' c hs' hc hb =>
            rw [hs] at hs'
            cases hs'
            right
            have : ∃ lc, walk L n fuel fs (p ++ [c]) = some lc := by
              have hall : ∀ cs l, walkChildren (fun c => walk L n fuel fs (p ++ [c])) cs = some l → c ∈ cs →
                  ∃ lc, walk L n fuel fs (p ++ [c]) = some lc := by
                intro cs
                induction cs with
                | nil => intro _ _ h; cases h
                | cons d cs ihc =>
                  intro l hl hm
                  simp only [walkChildren] at hl
                  cases h1 : walk L n fuel fs (p ++ [d]) with
                  | none => rw [h1] at hl; cases hl
                  | some l1 =>
                    rw [h1] at hl
                    cases h2 : walkChildren (fun c => walk L n fuel fs (p ++ [c])) cs with
                    | none => rw [h2] at hl; cases hl
                    | some l2 =>
                      rcases List.mem_cons.mp hm with rfl | hm
                      · exact ⟨l1, h1⟩
                      · exact ihc l2 h2 hm
              exact hall _ _ hw hc
            obtain ⟨lc, e⟩ := this
            exact ⟨c, hc, lc, e, (ih _ _ e q).mpr hb⟩
    · rename_i hs
      cases h
      rw [List.mem_singleton]
      constructor
      · rintro rfl; exact .self _
      · intro hb
        cases hb with
        | self => rfl
        | entry _ _ es' c hs' hc hb => exact absurd hs' (hs es')

theorem walk_order {L : Links} {n : Nat} {fs : Node} (hg : Good fs) (fuel : Nat) (p : List Str) (l : List (List Str))
    (h : walk L n fuel fs p = some l) : l.head? = some p ∧ l.Pairwise fun a b => ¬ b <+: a := by
  induction fuel generalizing p l with
  | zero => cases h
  | succ fuel ih =>
    unfold walk at h
    split at h
    · rename_i es hs
      have names : (es.map Prod.fst).Nodup := by
        unfold stat at hs
        split at hs
        · exact (hg.lookup hs).names
        · cases hs
      cases hw : walkChildren (fun c => walk L n fuel fs (p ++ [c])) (es.map Prod.fst) with
      | none => rw [hw] at h; cases h
      | some l' =>
        rw [hw] at h
        cases h
        refine ⟨rfl, List.pairwise_cons.mpr ⟨fun b hb hbp => ?_, ?_⟩⟩
        · obtain ⟨c, hc, lc, e, hq⟩ := (walkChildren_mem _ _ hw b).mp hb
          have := (((walk_mem fuel _ _ e b).mp hq).prefix.trans hbp).length_le
          rw [List.length_append, List.length_singleton] at this
          omega
        · clear hs
          generalize es.map Prod.fst = cs at names hw
          induction cs generalizing l' with
          | nil => cases hw; exact .nil
          | cons c cs ihc =>
            have hwc := hw
            simp only [walkChildren] at hw
            cases h1 : walk L n fuel fs (p ++ [c]) with
            | none => rw [h1] at hw; cases hw
            | some l1 =>
              rw [h1] at hw
              cases h2 : walkChildren (fun c => walk L n fuel fs (p ++ [c])) cs with
              | none => rw [h2] at hw; cases hw
              | some l2 =>
                rw [h2] at hw
                cases hw
                rw [List.nodup_cons] at names
                refine List.pairwise_append.mpr ⟨(ih _ _ h1).2, ihc l2 names.2 h2, fun a ha b hb hba => ?_⟩
                have pa := ((walk_mem fuel _ _ h1 a).mp ha).prefix
                obtain ⟨d, hd, ld, e, hq⟩ := (walkChildren_mem _ _ h2 b).mp hb
                have pb := ((walk_mem fuel _ _ e b).mp hq).prefix
                have pda := pb.trans hba
                have : p ++ [c] = p ++ [d] := by
                  have h3 := List.prefix_of_prefix_length_le pa pda (by simp)
                  exact h3.eq_of_length (by simp)
                rw [List.append_cancel_left_eq, List.cons.injEq] at this
                exact names.1 (by rw [this.1]; exact hd)
    · cases h
      exact ⟨rfl, List.pairwise_singleton _ _⟩

/-- **C118**, `walk`: with symbolic links anywhere, also in circles, `walk` ends; it yields the path first and then every path that
leads below it by the entries of directories, links followed, each exactly once and none after one inside it.

Missing: the same file or directory is yielded by every path that leads to it (`walk_circle_fails`). -/
theorem walk_links_partial (L : Links) (n : Nat) {fs : Node} (hg : Good fs) (p : List Str) :
    ∃ need, ∀ fuel, need ≤ fuel → ∃ l, walk L n fuel fs p = some l ∧ l.head? = some p ∧ l.Nodup ∧
      (∀ q, q ∈ l ↔ Below L n fs p q) ∧ l.Pairwise fun a b => ¬ b <+: a := by
  obtain ⟨D, hD⟩ := depth_exists hg
  refine ⟨(n + 1) * (D + 1) + 2, fun fuel hf => ?_⟩
  obtain ⟨l, hl⟩ := walk_ends (L := L) (n := n) hD ((n + 1) * (D + 1) + 1) fuel (by omega) p (by omega)
  obtain ⟨h1, h2⟩ := walk_order hg fuel p l hl
  exact ⟨l, hl, h1, h2.imp fun {a b} h e => h (by rw [e]), walk_mem fuel p l hl, h2⟩

/-- A directory with a link to itself in it. -/
def circle (c : Str) : Node := .dir [(c, .other)]

/-- The text of that link. -/
def circleLink (c : Str) : Links := fun q => if q = [c] then some [] else none

theorem circle_resolve (c : Str) (n k : Nat) :
    resolve (circleLink c) (circle c) false n (List.replicate k c) = if k ≤ n then some [] else none := by
  have hl : lookup (circle c) [c] = some .other := by simp [circle, lookup, Dict.get?]
  have hk : linkAt (circleLink c) (circle c) [c] = some [] := by unfold linkAt; rw [hl]; simp [circleLink]
  induction n generalizing k with
  | zero =>
    cases k with
    | zero => rfl
    | succ k =>
      rw [resolve_eq, List.replicate_succ, follow]
      simp [hl, hk]
  | succ n ih =>
    cases k with
    | zero => rfl
    | succ k =>
      rw [resolve_eq, List.replicate_succ, follow]
      simp only [List.nil_append, hl, hk]
      rw [ih k]
      by_cases h : k ≤ n <;> simp [h]

/-- **C118** fails of `walk`: of a directory with nothing in it but a link to itself, `walk` yields as many paths as links may be
followed, and two more; with 40 as the limit these are 42 paths, and all but the last lead to the same directory. -/
theorem walk_circle_fails (c : Str) (n : Nat) :
    walk (circleLink c) n (n + 2) (circle c) [] = some ((List.range (n + 2)).map fun k => List.replicate k c) ∧
    ∀ k, k ≤ n → resolve (circleLink c) (circle c) false n (List.replicate k c) = some [] := by
  refine ⟨?_, fun k hk => by rw [circle_resolve, if_pos hk]⟩
  have main : ∀ j k, k + j = n + 1 → walk (circleLink c) n (j + 1) (circle c) (List.replicate k c) =
      some ((List.range (j + 1)).map fun i => List.replicate (k + i) c) := by
    intro j
    induction j with
    | zero =>
      intro k hk
      have hs : stat (circleLink c) n (circle c) (List.replicate k c) = none := by
        unfold stat; rw [circle_resolve, if_neg (by omega)]
      simp [walk, hs]
    | succ j ih =>
      intro k hk
      have hs : stat (circleLink c) n (circle c) (List.replicate k c) = some (.dir [(c, .other)]) := by
        unfold stat; rw [circle_resolve, if_pos (by omega)]; rfl
      have e : List.replicate k c ++ [c] = List.replicate (k + 1) c := by rw [List.replicate_succ']
      rw [walk, hs]
      simp only [List.map_cons, List.map_nil, walkChildren, e, ih (k + 1) (by omega), List.append_nil]
      rw [List.range_succ_eq_map (n := j + 1), List.map_cons, List.map_map]
      simp only [Nat.add_zero, Option.some.injEq, List.cons.injEq, true_and]
      exact List.map_congr_left fun i _ => by simp only [Function.comp_apply]; congr 1; omega
  have := main (n + 1) 0 (by omega)
  simpa using this

/-! ## Copying -/

/-- The tree that is at a path when links are followed: files and directories only. -/
inductive Followed (L : Links) (n : Nat) (fs : Node) : List Str → Node → Prop where
  | file (p : List Str) (z : List Nat) (h : stat L n fs p = some (.file z)) : Followed L n fs p (.file z)
  | dir (p : List Str) (es ts : Dict Str Node) (h : stat L n fs p = some (.dir es)) (names : ts.map Prod.fst = es.map Prod.fst)
      (sub : ∀ e ∈ ts, Followed L n fs (p ++ [e.1]) e.2) : Followed L n fs p (.dir ts)

/-- The file system has grown by what is at or below `D`, and nothing else has changed. -/
def Grown (D : List Str) (a b : Node) : Prop :=
  ∀ r m, lookup a r = some m → ∃ m', lookup b r = some m' ∧ same m m' ∧
    (r ++ [D.getLast?.getD []] ≠ D → ∀ es es', m = .dir es → m' = .dir es' → es'.map Prod.fst = es.map Prod.fst)

theorem Grown.sub {D : List Str} {a b : Node} (h : Grown D a b) : Sub a b := fun q m hq => by
  obtain ⟨m', h1, h2, _⟩ := h q m hq
  exact ⟨m', h1, h2⟩

theorem Grown.refl (D : List Str) (a : Node) : Grown D a a := fun r m h =>
  ⟨m, h, same_refl m, fun _ es es' h1 h2 => by rw [h1] at h2; cases h2; rfl⟩

theorem Grown.put {D : List Str} {a b c : Node} (h : Grown D a b) (hD : lookup a D = none) {q : List Str} {x : Node} (hq : D <+: q)
    (hp : put b q x = some c) : Grown D a c := by
  intro r m hr
  obtain ⟨m', h1, h2, h3⟩ := h r m hr
  have hDr : ¬ D <+: r := fun hh => by rw [lookup_prefix hh hD] at hr; cases hr
  have hqr : ¬ q <+: r := fun hh => hDr (hq.trans hh)
  by_cases hrq : r <+: q
  · obtain ⟨e1, e2, h4, h5, h6⟩ := put_above hp hrq (fun e => hqr (by rw [e]))
    rw [h1] at h4
    cases h4
    refine ⟨_, h5, ?_, fun hne es es' he he' => ?_⟩
    · cases m with
      | dir => trivial
      | file => exact h2
      | other => exact h2
    · cases he'
      rw [h6 ?_, h3 hne es e1 he rfl]
      intro hlen
      -- then `r` is the directory of `q`, which is at or below `D`, or that of `D`
      rcases prefix_ne hrq (fun e => hqr (by rw [e])) with ⟨c, t, rfl⟩
      have ht : t = [] := by
        rw [List.length_append, List.length_cons] at hlen
        exact List.length_eq_zero_iff.mp (by omega)
      subst ht
      rcases List.prefix_concat_iff.mp hq with hh | hh
      · apply hne
        rw [hh]
        simp
      · exact hDr hh
  · exact ⟨m', by rw [put_other hp hqr hrq, h1], h2, h3⟩

theorem stat_grown {L : Links} {n : Nat} {parent : List Str} {name : Str} {a b : Node} (h : Grown (parent ++ [name]) a b) {p : List Str}
    {es : Dict Str Node} (hs : stat L n a p = some (.dir es)) (hp : resolve L a false n p ≠ some parent) :
    ∃ es', stat L n b p = some (.dir es') ∧ es'.map Prod.fst = es.map Prod.fst := by
  unfold stat at hs ⊢
  cases hr : resolve L a false n p with
  | none => rw [hr] at hs; cases hs
  | some r =>
    rw [hr] at hs hp
    rw [resolve_sub h.sub n p r hr]
    dsimp only at hs ⊢
    obtain ⟨m', h1, h2, h3⟩ := h r _ hs
    cases m' with
    | file => exact absurd h2 (by simp [same])
    | other => exact absurd h2 (by simp [same])
    | dir es' =>
      refine ⟨es', h1, h3 (fun e => hp ?_) es es' rfl rfl⟩
      rw [List.getLast?_concat, Option.getD_some] at e
      rw [List.append_cancel_right e]

/-- A new name in a directory. -/
theorem follow_new {L : Links} {fs : Node} {r : List Str → Option (List Str)} (c : Str) (todo done : List Str) {es : Dict Str Node}
    (hd : lookup fs (done ++ todo) = some (.dir es)) (hc : lookup fs (done ++ todo ++ [c]) = none) :
    follow L fs true r done (todo ++ [c]) = some (done ++ todo ++ [c]) := by
  induction todo generalizing done with
  | nil =>
    rw [List.append_nil] at hc
    simp [follow, hc]
  | cons a todo ih =>
    have e : done ++ a :: todo = done ++ [a] ++ todo := by simp
    rw [e] at hd hc ⊢
    obtain ⟨x, hx⟩ : ∃ x, lookup fs (done ++ [a]) = some x := by
      cases hx : lookup fs (done ++ [a]) with
      | none => rw [lookup_append, hx] at hd; cases hd
      | some x => exact ⟨x, rfl⟩
    have hk : linkAt L fs (done ++ [a]) = none := by
      unfold linkAt
      rw [hx]
      cases x with
      | file => rfl
      | dir => rfl
      | other =>
        rw [lookup_append, hx] at hd
        cases todo with
        | nil => cases hd
        | cons b todo => cases hd
    rw [List.cons_append, follow, hx]
    dsimp only
    rw [hk]
    exact ih _ hd hc

theorem resolve_new {L : Links} {n : Nat} {fs : Node} {d : List Str} (c : Str) {es : Dict Str Node}
    (hd : lookup fs d = some (.dir es)) (hc : lookup fs (d ++ [c]) = none) : resolve L fs true n (d ++ [c]) = some (d ++ [c]) := by
  rw [resolve_eq]
  exact follow_new c d [] hd hc

/-- What is copied when the file system has already grown. -/
def Copies (L : Links) (n k need : Nat) (fs0 : Node) (parent : List Str) (name : Str) (p : List Str) (t : Node) : Prop :=
  ∀ fuel, need ≤ fuel → ∀ fs d c fs' es, Grown (parent ++ [name]) fs0 fs → parent ++ [name] <+: d ++ [c] →
    lookup fs d = some (.dir es) → lookup fs (d ++ [c]) = none → put fs (d ++ [c]) t = some fs' →
    (∀ q, Below L n fs0 p q → resolve L fs0 false n q ≠ some parent) → copyTo L n k fuel fs p (d ++ [c]) = some (fs', none)

theorem copies_followed {L : Links} {n k : Nat} (hk : 0 < k) {fs0 : Node} (hg : Good fs0) {parent : List Str} {name : Str}
    (habs : lookup fs0 (parent ++ [name]) = none) {p : List Str} {t : Node} (h : Followed L n fs0 p t) :
    ∃ need, Copies L n k need fs0 parent name p t := by
  induction h with
  | file p z hs =>
    refine ⟨z.length + 2, fun fuel hf fs d c fs' es hgr hpre hd hc hput hne => ?_⟩
    obtain ⟨fuel, rfl⟩ : ∃ f, fuel = f + 1 := ⟨fuel - 1, by omega⟩
    obtain ⟨fs1, h1⟩ : ∃ fs1, put fs (d ++ [c]) (.file []) = some fs1 := put_into hd c _
    have hstat : ∀ b, Grown (parent ++ [name]) fs0 b → stat L n b p = some (.file z) := by
      intro b hb
      obtain ⟨m', e1, e2⟩ := stat_sub hb.sub n p _ hs
      cases m' with
      | file z' => rw [e1]; simp only [same] at e2; rw [e2]
      | dir => exact absurd e2 (by simp [same])
      | other => exact absurd e2 (by simp [same])
    have hopen : openW fs (d ++ [c]) = .ok fs1 := by simp only [openW, hc, h1]
    simp only [copyTo, hstat fs hgr, resolve_new c hd hc, hopen, hstat fs1 (hgr.put habs hpre h1)]
    rw [copyLoop_spec k hk fuel z [] (by omega)]
    simp only [List.nil_append, put_put h1, hput]
  | dir p es0 ts hs names sub ih =>
    obtain ⟨need, hneed⟩ : ∃ need, ∀ e ∈ ts, Copies L n k need fs0 parent name (p ++ [e.1]) e.2 := by
      clear names sub
      induction ts with
      | nil => exact ⟨0, by simp⟩
      | cons e es ihl =>
        obtain ⟨n1, h1⟩ := ih e (by simp)
        obtain ⟨n2, h2⟩ := ihl fun x hx => ih x (List.mem_cons_of_mem _ hx)
        refine ⟨max n1 n2, fun x hx fuel hf => ?_⟩
        rcases List.mem_cons.mp hx with rfl | hx
        · exact h1 fuel (by omega)
        · exact h2 x hx fuel (by omega)
    have hnd : (ts.map Prod.fst).Nodup := by
      rw [names]
      unfold stat at hs
      split at hs
      · exact (hg.lookup hs).names
      · cases hs
    refine ⟨need + 1, fun fuel hf fs d c fs' es hgr hpre hd hc hput hne => ?_⟩
    obtain ⟨fuel, rfl⟩ : ∃ f, fuel = f + 1 := ⟨fuel - 1, by omega⟩
    have hany : ∀ x, ∃ fs1, put fs (d ++ [c]) x = some fs1 := fun x => put_into hd c x
    obtain ⟨fs1, h1⟩ := hany (.dir [])
    have hgr1 : Grown (parent ++ [name]) fs0 fs1 := hgr.put habs hpre h1
    obtain ⟨es1, he1, _⟩ := stat_grown hgr hs (hne p (.self p))
    obtain ⟨es2, he2, hn2⟩ := stat_grown hgr1 hs (hne p (.self p))
    have hdst : stat L n fs (d ++ [c]) = none := by
      unfold stat
      rw [(resolve_snoc n d d c (resolve_phys hd (linkAt_dir hd))).1 hc]
    have hmk : mkdirAt L n fs (d ++ [c]) = .ok fs1 := by
      unfold mkdirAt
      rw [place_phys c hd]
      simp only [mkdir, hc, h1]
    simp only [copyTo, he1, hdst, hmk, he2, hn2, ← names]
    have loop : ∀ todo done : Dict Str Node, ts = done ++ todo → ∀ fsi, put fs (d ++ [c]) (.dir done) = some fsi →
        copyChildren (fun fs x => copyTo L n k fuel fs (p ++ [x]) (d ++ [c] ++ [x])) fsi (todo.map Prod.fst) = some (fs', none) := by
      intro todo
      induction todo with
      | nil =>
        intro done he fsi hi
        rw [List.append_nil] at he
        subst he
        rw [hput] at hi
        cases hi
        rfl
      | cons e todo iht =>
        intro done he fsi hi
        obtain ⟨x, m⟩ := e
        have hx : x ∉ Dict.keys done := by
          rw [he, List.map_append, List.nodup_append] at hnd
          intro hx
          exact hnd.2.2 x hx x (by simp) rfl
        have hmem : (x, m) ∈ ts := by rw [he]; simp
        have hdi : lookup fsi (d ++ [c]) = some (.dir done) := put_get hi
        have hcd : lookup fsi (d ++ [c] ++ [x]) = none := by rw [lookup_child hdi, Dict.get?_eq_none_iff]; exact hx
        have hsub := put_sub hi x m
        rw [Dict.set_of_not_mem m hx] at hsub
        obtain ⟨fsn, hn⟩ := hany (.dir (done ++ [(x, m)]))
        have hxe : x ∈ es0.map Prod.fst := by rw [← names]; exact List.mem_map_of_mem (f := Prod.fst) hmem
        have hrec := hneed (x, m) hmem fuel (by omega) fsi (d ++ [c]) x fsn done (hgr.put habs hpre hi)
          (hpre.trans (List.prefix_append _ _)) hdi hcd (by rw [hsub, hn])
          (fun q hq => hne q (.entry p q es0 x hs hxe hq))
        simp only [List.map_cons, copyChildren, hrec]
        exact iht (done ++ [(x, m)]) (by rw [he]; simp) fsn hn
    exact loop ts [] rfl fs1 h1

/-- **C118**, `copyTo`: if everything below the source leads to files and directories, and none of it to the directory in which the
copy is made, then the copy is the tree with links followed: it has a file or a directory wherever the source has a link to one.

Missing: links that lead nowhere (`copy_dangling_fails`), or to a directory above (the copying would go round as `walk` does). -/
theorem copyTo_links_partial (L : Links) (n k : Nat) (hk : 0 < k) {fs : Node} (hg : Good fs) (src parent : List Str) (name : Str)
    {es : Dict Str Node} {t : Node} (ht : Followed L n fs src t) (hp : lookup fs parent = some (.dir es))
    (hc : lookup fs (parent ++ [name]) = none) (hne : ∀ q, Below L n fs src q → resolve L fs false n q ≠ some parent) :
    ∃ need fs', (∀ fuel, need ≤ fuel → copyTo L n k fuel fs src (parent ++ [name]) = some (fs', none)) ∧
      lookup fs' (parent ++ [name]) = some t ∧
      (∀ q, ¬ parent ++ [name] <+: q → ¬ q <+: parent ++ [name] → lookup fs' q = lookup fs q) := by
  obtain ⟨need, hneed⟩ := copies_followed (L := L) (n := n) hk hg hc ht
  obtain ⟨fs', hput⟩ := put_into hp name t
  exact ⟨need, fs', fun fuel hf => hneed fuel hf fs parent name fs' es (Grown.refl _ fs) List.prefix_rfl hp hc hput hne,
    put_get hput, fun q h1 h2 => put_other hput h1 h2⟩

/-- **C118** fails of `copyTo`: a symbolic link that leads nowhere is refused, so that a tree with one is copied only up to it. -/
theorem copy_dangling_fails (L : Links) (n k fuel : Nat) (fs : Node) (src dst : List Str) (h : stat L n fs src = none) :
    copyTo L n k (fuel + 1) fs src dst = some (fs, some .notImplementedError) := by
  simp only [copyTo, h]

/-- Without links `copyTo`'s source is followed to itself. -/
theorem followed_phys {L : Links} {n : Nat} {fs : Node} {t : Node} (ht : Good t) (hno : ∀ q, lookup t q ≠ some .other) (p : List Str)
    (h : lookup fs p = some t) : Followed L n fs p t := by
  induction ht generalizing p with
  | file z => exact .file p z (by unfold stat; rw [resolve_phys h (linkAt_file h)]; exact h)
  | other => exact absurd (lookup_nil _) (hno [])
  | dir es names sub ih =>
    refine .dir p es es (by unfold stat; rw [resolve_phys h (linkAt_dir h)]; exact h) rfl fun e he => ?_
    have hge := Dict.get?_of_mem names he
    refine ih e he (fun q hq => hno (e.1 :: q) ?_) (p ++ [e.1]) ?_
    · rw [lookup_dir, hge]; exact hq
    · rw [lookup_child h]; exact hge

/-! ## Examples -/

/-- `/a` has the links `l` and `m` and the file `f`; `/b` has the file `x`. -/
def sampleTree : Node :=
  .dir [([97], .dir [([108], .other), ([109], .other), ([102], .file [1])]), ([98], .dir [([120], .file [2, 3])])]

/-- Both links lead to the file. -/
def toFile : Links := fun q => if q = [[97], [108]] ∨ q = [[97], [109]] then some [[98], [120]] else none

/-- The first link leads to the directory, the second to the first. -/
def toDir : Links := fun q =>
  if q = [[97], [108]] then some [[98]] else if q = [[97], [109]] then some [[97], [108]] else none

theorem sampleTree_good : Good sampleTree := by
  refine .dir _ (by unfold Dict.WF; decide) fun e he => ?_
  simp only [List.mem_cons, List.not_mem_nil, or_false] at he
  rcases he with rfl | rfl
  · refine .dir _ (by unfold Dict.WF; decide) fun e he => ?_
    simp only [List.mem_cons, List.not_mem_nil, or_false] at he
    rcases he with rfl | rfl | rfl
    · exact .other
    · exact .other
    · exact .file _
  · refine .dir _ (by unfold Dict.WF; decide) fun e he => ?_
    simp only [List.mem_cons, List.not_mem_nil, or_false] at he
    subst he
    exact .file _

/-- Links to files: `/a` is removed and the file stays. -/
example : remove toFile 40 9 sampleTree [[97]] = some (.dir [([98], .dir [([120], .file [2, 3])])], none) := rfl

example : ∃ need fs', (∀ fuel, need ≤ fuel → remove toFile 40 fuel sampleTree ([] ++ [[97]]) = some (fs', none)) ∧
    (∀ q, [] ++ [[97]] <+: q → lookup fs' q = none) := by
  obtain ⟨need, fs', h1, h2, _⟩ := remove_links_partial toFile 40 sampleTree_good [] [97] rfl rfl (fun r t _ hl k es hs => by
    have ht : t = [[98], [120]] := by
      unfold linkAt at hl
      split at hl
      · unfold toFile at hl
        split at hl
        · cases hl; rfl
        · cases hl
      · cases hl
    subst ht
    unfold stat at hs
    rw [resolve_phys (m := .file [2, 3]) rfl rfl] at hs
    cases hs)
  exact ⟨need, fs', h1, h2⟩

/-- A link to a directory: the file in `/b` is lost, and the links and `/a` stay. -/
example : remove toDir 40 9 sampleTree [[97]] =
    some (.dir [([97], .dir [([108], .other), ([109], .other), ([102], .file [1])]), ([98], .dir [])], some osError) := rfl

example : ∃ need fs', (∀ fuel, need ≤ fuel → remove toDir 40 fuel sampleTree ([[97]] ++ [[108]]) = some (fs', some osError)) ∧
    lookup fs' [[98]] = some (.dir []) := by
  obtain ⟨need, fs', h1, _, h2, _⟩ := remove_link_fails toDir 39 sampleTree_good [[97]] [108] [[98]] rfl rfl rfl (by decide)
    (fun r t hr hl => by
      have : r = [[97], [108]] ∨ r = [[97], [109]] := by
        unfold linkAt at hl
        split at hl
        · unfold toDir at hl
          split at hl
          · left; assumption
          · split at hl
            · right; assumption
            · cases hl
        · cases hl
      rcases this with rfl | rfl
      · exact absurd hr (by decide)
      · exact absurd hr (by decide))
  exact ⟨need, fs', h1, h2⟩

/-- `walk` follows the links: the file is found three times. -/
example : walk toDir 40 9 sampleTree [] = some [[], [[97]], [[97], [108]], [[97], [108], [120]], [[97], [109]], [[97], [109], [120]],
    [[97], [102]], [[98]], [[98], [120]]] := rfl

/-- `copyTo` copies what the links lead to. -/
example : copyTo toDir 40 4 9 sampleTree [[97]] [[99]] = some (.dir [
    ([97], .dir [([108], .other), ([109], .other), ([102], .file [1])]), ([98], .dir [([120], .file [2, 3])]),
    ([99], .dir [([108], .dir [([120], .file [2, 3])]), ([109], .dir [([120], .file [2, 3])]), ([102], .file [1])])], none) := rfl

example : Followed toFile 40 sampleTree [[97]] (.dir [([108], .file [2, 3]), ([109], .file [2, 3]), ([102], .file [1])]) := by
  refine .dir _ _ _ rfl rfl fun e he => ?_
  simp only [List.mem_cons, List.not_mem_nil, or_false] at he
  rcases he with rfl | rfl | rfl <;> exact .file _ _ rfl

/-- A link that leads nowhere. -/
example : stat (fun _ => some [[122]]) 40 sampleTree [[97], [108]] = none := rfl

end Verif.FileLinks
