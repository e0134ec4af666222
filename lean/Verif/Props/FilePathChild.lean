import Verif.Props.FilePath
/-!
# C71: exactly which names `FilePath.child` accepts
-/
namespace Verif.FilePath
open Verif.Py Verif.Py.Path

/-- Specification: where a relative path leads, seen from a directory `acc` below the one it starts from; nowhere if it leaves that one
on its way, even if it returns. -/
def within : List Str → List Str → Option (List Str)
  | acc, [] => some acc
  | acc, c :: cs =>
    if c = [] ∨ c = [46] then within acc cs
    else if c = [46, 46] then
      match acc with
      | [] => none
      | a :: as => within (a :: as).dropLast cs
    else within (acc ++ [c]) cs

theorem normComps_within (cs acc d : List Str) (ha : ∀ c ∈ acc, c ≠ [46, 46]) (h : within acc cs = some d) :
    normComps false acc cs = d := by
  induction cs generalizing acc with
  | nil => cases h; rfl
  | cons c cs ih =>
    unfold within at h
    rw [normComps]
    by_cases h1 : c = [] ∨ c = [46]
    · rw [if_pos h1] at h ⊢
      exact ih acc ha h
    · rw [if_neg h1] at h ⊢
      by_cases h2 : c = [46, 46]
      · rw [if_pos h2] at h
        cases acc with
        | nil => cases h
        | cons a as =>
          have hl : (a :: as).getLast? ≠ some [46, 46] := fun hh => ha _ (List.mem_of_getLast? hh) rfl
          rw [if_neg (show ¬ (c ≠ [46, 46] ∨ (false = false ∧ a :: as = []) ∨ (a :: as ≠ [] ∧ (a :: as).getLast? = some [46, 46])) by
            simp [h2, hl]), if_pos (by simp)]
          exact ih _ (fun x hx => ha x (List.mem_of_mem_dropLast hx)) h
      · rw [if_neg h2] at h
        rw [if_pos (Or.inl h2)]
        refine ih _ ?_ h
        intro x hx
        rcases List.mem_append.mp hx with hx | hx
        · exact ha x hx
        · rw [List.mem_singleton] at hx; rw [hx]; exact h2

theorem normComps_up (cs acc : List Str) : ∃ more, normComps false ([46, 46] :: acc) cs = [46, 46] :: more := by
  induction cs generalizing acc with
  | nil => exact ⟨acc, rfl⟩
  | cons c cs ih =>
    rw [normComps]
    split
    · exact ih acc
    · split
      · exact ih (acc ++ [c])
      · rename_i h
        rw [if_pos (by simp)]
        cases acc with
        | nil => simp at h
        | cons a as => exact ih ((a :: as).dropLast)

theorem normComps_outside (cs acc : List Str) (ha : ∀ c ∈ acc, c ≠ [46, 46]) (h : within acc cs = none) :
    ∃ more, normComps false acc cs = [46, 46] :: more := by
  induction cs generalizing acc with
  | nil => cases h
  | cons c cs ih =>
    unfold within at h
    rw [normComps]
    by_cases h1 : c = [] ∨ c = [46]
    · rw [if_pos h1] at h ⊢
      exact ih acc ha h
    · rw [if_neg h1] at h ⊢
      by_cases h2 : c = [46, 46]
      · rw [if_pos h2] at h
        cases acc with
        | nil =>
          rw [if_pos (by simp), h2]
          exact normComps_up cs []
        | cons a as =>
          have hl : (a :: as).getLast? ≠ some [46, 46] := fun hh => ha _ (List.mem_of_getLast? hh) rfl
          rw [if_neg (show ¬ (c ≠ [46, 46] ∨ (false = false ∧ a :: as = []) ∨ (a :: as ≠ [] ∧ (a :: as).getLast? = some [46, 46])) by
            simp [h2, hl]), if_pos (by simp)]
          exact ih _ (fun x hx => ha x (List.mem_of_mem_dropLast hx)) h
      · rw [if_neg h2] at h
        rw [if_pos (Or.inl h2)]
        refine ih _ ?_ h
        intro x hx
        rcases List.mem_append.mp hx with hx | hx
        · exact ha x hx
        · rw [List.mem_singleton] at hx; rw [hx]; exact h2

theorem within_names (cs acc d : List Str) (ha : ∀ c ∈ acc, Name c) (hc : ∀ c ∈ cs, 47 ∉ c) (h : within acc cs = some d) :
    ∀ c ∈ d, Name c := by
  induction cs generalizing acc with
  | nil => cases h; exact ha
  | cons c cs ih =>
    have hcs : ∀ x ∈ cs, 47 ∉ x := fun x hx => hc x (List.mem_cons_of_mem _ hx)
    unfold within at h
    by_cases h1 : c = [] ∨ c = [46]
    · rw [if_pos h1] at h
      exact ih acc ha hcs h
    · rw [if_neg h1] at h
      by_cases h2 : c = [46, 46]
      · rw [if_pos h2] at h
        cases acc with
        | nil => cases h
        | cons a as => exact ih _ (fun x hx => ha x (List.mem_of_mem_dropLast hx)) hcs h
      · rw [if_neg h2] at h
        refine ih _ ?_ hcs h
        intro x hx
        rcases List.mem_append.mp hx with hx | hx
        · exact ha x hx
        · rw [List.mem_singleton] at hx; rw [hx]; exact name_of_ne (hc c (by simp)) h1 h2

theorem normpath_rel (p : Str) (hp : startsWith p [47] = false) :
    normpath p = if normComps false [] (splitSep [47] p) = [] then [46] else joinSep [47] (normComps false [] (splitSep [47] p)) := by
  by_cases hne : p = []
  · subst hne; rfl
  have hn : initialSlashes p = 0 := by
    unfold initialSlashes
    have h2 : startsWith p [47, 47] = false := by
      cases p with
      | nil => rfl
      | cons c p =>
        have : ¬ 47 = c := by rintro rfl; simp [startsWith, List.isPrefixOf] at hp
        simp [startsWith, List.isPrefixOf, this]
    rw [h2, hp]; rfl
  unfold normpath
  rw [if_neg hne]
  simp only [hn, List.replicate_zero, List.nil_append]
  rw [show decide ((0 : Nat) ≠ 0) = false from rfl]
  generalize hg : normComps false [] (splitSep [47] p) = l
  have hl : ∀ c ∈ l, c ≠ [] := by
    have key : ∀ (cs acc : List Str), (∀ c ∈ acc, c ≠ []) → ∀ c ∈ normComps false acc cs, c ≠ [] := by
      intro cs
      induction cs with
      | nil => exact fun acc ha => ha
      | cons d cs ih =>
        intro acc ha
        rw [normComps]
        split
        · exact ih acc ha
        · rename_i h1
          split
          · refine ih _ ?_
            intro x hx
            rcases List.mem_append.mp hx with hx | hx
            · exact ha x hx
            · rw [List.mem_singleton] at hx; rw [hx]; exact fun hd => h1 (Or.inl hd)
          · split
            · exact ih _ (fun x hx => ha x (List.mem_of_mem_dropLast hx))
            · exact ih _ ha
    rw [← hg]
    exact key _ _ (by simp)
  cases l with
  | nil => rfl
  | cons c l =>
    have hc := hl c (by simp)
    have : joinSep [47] (c :: l) ≠ [] := by
      cases l with
      | nil => simpa [joinSep] using hc
      | cons d l => simp [joinSep]
    rw [if_neg this, if_neg (by simp)]

theorem slash_mem_join (a b : Str) (l : List Str) : 47 ∈ joinSep [47] (a :: b :: l) := by
  simp [joinSep]

/-- **C71**, `child`, exactly: a path that begins with a slash is refused.  Any other is accepted if, step by step, it stays within the
directory and ends at it or one step below, and that is what it gives; it is refused if it ends further below, or leaves the directory
on its way, though it may return.  Only from the root, of which `..` is the root itself, is there an exception: there `..` (and what
comes down to it) gives the root. -/
theorem child_exact (cwd : Str) {n : Nat} {comps : List Str} (h : IsDir n comps) (path : Str) :
    (startsWith path [47] = true → child cwd (canon n comps) path = .error insecure) ∧
    (startsWith path [47] = false →
      (∀ d, within [] (splitSep [47] path) = some d → d.length ≤ 1 → child cwd (canon n comps) path = .ok (canon n (comps ++ d))) ∧
      (∀ d, within [] (splitSep [47] path) = some d → 1 < d.length → child cwd (canon n comps) path = .error insecure) ∧
      (within [] (splitSep [47] path) = none → comps ≠ [] → child cwd (canon n comps) path = .error insecure) ∧
      (within [] (splitSep [47] path) = none → comps = [] → child cwd (canon n comps) path =
        if normpath path = [46, 46] then .ok (canon n []) else .error insecure)) := by
  refine ⟨fun hs => child_refuses cwd h path (Or.inl hs), fun hs => ?_⟩
  have hnorm := normpath_rel path hs
  have dots : ∀ x, normpath path = x → 47 ∉ x → startsWith x [47] = false →
      startsWith (canon n (resolve comps (splitSep [47] x))) (canon n comps) = true →
      child cwd (canon n comps) path = .ok (canon n (resolve comps (splitSep [47] x))) := by
    intro x hx h47 hrel hst
    unfold child
    simp only [hx, if_neg h47]
    rw [newpath_relative cwd h x hrel, hst]
    simp only [Bool.not_true, Bool.false_eq_true, if_false, filePath]
    rw [abspath_canon cwd n h.slashes _ (h.resolve _).names]
  have slash : 47 ∈ normpath path → child cwd (canon n comps) path = .error insecure := by
    intro hm
    unfold child
    simp only [if_pos hm]
  refine ⟨?_, ?_, ?_, ?_⟩
  · intro d hd hl
    rw [normComps_within _ _ _ (by simp) hd] at hnorm
    have hnames := within_names _ _ _ (by simp) (splitSep_slashfree path) hd
    match d, hl, hnorm, hnames with
    | [], _, hnorm, _ =>
      have e : resolve comps (splitSep [47] [46]) = comps := by rw [splitSep_name (by decide)]; rfl
      have := dots [46] hnorm (by decide) rfl (by rw [e]; simpa using startsWith_canon n comps [])
      rw [e] at this
      rw [List.append_nil]
      exact this
    | [c], _, hnorm, hnames =>
      have hc := hnames c (by simp)
      have e : resolve comps (splitSep [47] c) = comps ++ [c] := by
        rw [splitSep_name hc.2.1, resolve_of_names comps [c] (by simpa using hc)]
      have := dots c hnorm hc.2.1 (name_rel hc) (by rw [e]; exact startsWith_canon n comps [c])
      rw [e] at this
      exact this
  · intro d hd hl
    rw [normComps_within _ _ _ (by simp) hd] at hnorm
    apply slash
    match d, hl with
    | a :: b :: l, _ =>
      rw [hnorm, if_neg (by simp)]
      exact slash_mem_join a b l
  · intro hd hne
    obtain ⟨more, hm⟩ := normComps_outside _ _ (by simp) hd
    rw [hm, if_neg (by simp)] at hnorm
    cases more with
    | cons b l => exact slash (by rw [hnorm]; exact slash_mem_join _ _ _)
    | nil =>
      rcases child_partial cwd h path with h1 | ⟨-, dest, h2, h3, h4⟩
      · exact h1
      · exfalso
        obtain ⟨-, hres⟩ := resolve_normpath comps path hs
        rw [hnorm, show joinSep [47] [[46, 46]] = [46, 46] from rfl, splitSep_name (by decide),
          show resolve comps [[46, 46]] = comps.dropLast from rfl] at hres
        rw [← hres] at h3
        have hlen : comps.dropLast.length < comps.length := by
          rw [List.length_dropLast]
          have := List.length_pos_iff.mpr hne
          omega
        rcases h4 with h4 | ⟨c, -, h4⟩
        · rw [← h3, h4] at hlen; omega
        · rw [← h3, h4, List.length_append] at hlen; omega
  · intro hd hc
    obtain ⟨more, hm⟩ := normComps_outside _ _ (by simp) hd
    rw [hm, if_neg (by simp)] at hnorm
    cases more with
    | cons b l =>
      have h47 : 47 ∈ normpath path := by rw [hnorm]; exact slash_mem_join _ _ _
      rw [if_neg (by intro hh; rw [hh] at h47; revert h47; decide)]
      exact slash h47
    | nil =>
      have hnorm : normpath path = [46, 46] := hnorm
      have e : resolve comps (splitSep [47] [46, 46]) = [] := by rw [splitSep_name (by decide), hc]; rfl
      rw [if_pos hnorm]
      have := dots [46, 46] hnorm (by decide) rfl (by rw [e, hc]; simpa using startsWith_canon n [] [])
      rw [e] at this
      exact this

/-- `b/../a` and `../f/a` from `/f`, and `..` from `/`. -/
example : within [] (splitSep [47] [98, 47, 46, 46, 47, 97]) = some [[97]] ∧ within [] (splitSep [47] [46, 46, 47, 102, 47, 97]) = none := by decide
example : child [47] [47, 102] [46, 46, 47, 102, 47, 97] = .error insecure ∧ child [47] [47] [46, 46] = .ok [47] := by decide

end Verif.FilePath
