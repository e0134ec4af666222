import Verif.Model.Modal
/-!
# Helper lemmas for `modal.py`
-/
namespace Verif.Modal
open Verif.Py

/-- What the source of a class says: the definition of `n` in the mode `k`. -/
def impl (attrs : Dict Name Val) (k n : Name) : Option Val :=
  match Dict.get? attrs k with
  | some (.modeCls d) => if n = nModule ∨ n = nFile ∨ n = nName then none else Dict.get? d n
  | _ => none

/-- Every Python dictionary has distinct keys. -/
def DictsOK (attrs : Dict Name Val) : Prop := Dict.WF attrs ∧ ∀ k d, (k, Val.modeCls d) ∈ attrs → Dict.WF (κ := Name) d

theorem counted_iff (n : Name) : counted n = true ↔ ¬ (n = nModule ∨ n = nFile ∨ n = nName) := by
  unfold counted
  simp only [Bool.and_eq_true, bne_iff_ne, not_or, and_assoc]

theorem foldl_addImpl (k : Name) (d : Dict Name Val) (hd : Dict.WF d) (impls : Dict Name (Dict Name Val)) (n : Name) :
    Dict.get? (d.foldl (addImpl k) impls) n =
      match (if n = nModule ∨ n = nFile ∨ n = nName then none else Dict.get? d n) with
      | none => Dict.get? impls n
      | some v => some (Dict.set ((Dict.get? impls n).getD []) k v) := by
  induction d generalizing impls with
  | nil => simp
  | cons p d ih =>
    obtain ⟨m, v⟩ := p
    have hm : m ∉ Dict.keys d ∧ Dict.WF d := by
      unfold Dict.WF Dict.keys at hd ⊢
      rw [List.map_cons, List.nodup_cons] at hd
      exact hd
    rw [List.foldl_cons, ih hm.2]
    have e : ∀ q, Dict.get? (addImpl k impls (m, v)) q =
        if m = q ∧ counted m = true then some (Dict.set ((Dict.get? impls m).getD []) k v) else Dict.get? impls q := by
      intro q
      unfold addImpl
      by_cases h : counted m = true
      · rw [if_pos h, Dict.get?_set]; simp [h]
      · rw [if_neg h]; simp [h]
    rw [e n]
    by_cases hmn : m = n
    · subst hmn
      have h0 := (Dict.get?_eq_none_iff d m).2 hm.1
      by_cases hc : m = nModule ∨ m = nFile ∨ m = nName
      · have : counted m ≠ true := by rw [Ne, counted_iff]; exact fun h => h hc
        simp [hc, this]
      · have := (counted_iff m).2 hc
        simp [hc, this, h0, Dict.get?]
    · rw [if_neg (c := m = n ∧ counted m = true) (by simp [hmn])]
      simp [Dict.get?, hmn]

theorem addMode_get (impls : Dict Name (Dict Name Val)) (k : Name) (v : Val)
    (hv : ∀ d, v = .modeCls d → Dict.WF (κ := Name) d) (n : Name) :
    Dict.get? (addMode impls (k, v)) n = match impl [(k, v)] k n with
      | none => Dict.get? impls n
      | some f => some (Dict.set ((Dict.get? impls n).getD []) k f) := by
  unfold addMode impl
  simp only [Dict.get?, if_true]
  cases v with
  | modeCls d =>
    simp only
    exact foldl_addImpl k d (hv d rfl) impls n
  | _ => rfl

theorem impl_cons (k : Name) (v : Val) (attrs : Dict Name Val) (hk : k ∉ Dict.keys attrs) (q n : Name) :
    impl ((k, v) :: attrs) q n = (if q = k then impl [(k, v)] k n else impl attrs q n) ∧ impl attrs k n = none := by
  have h0 := (Dict.get?_eq_none_iff attrs k).2 hk
  refine ⟨?_, by unfold impl; rw [h0]⟩
  by_cases h : k = q
  · subst h; rw [if_pos rfl]; unfold impl; simp [Dict.get?]
  · rw [if_neg (fun e => h e.symm)]; unfold impl; simp [Dict.get?, h]

/-- The table of implementations says what the source says. -/
theorem foldl_addMode (attrs : Dict Name Val) (h : DictsOK attrs) (impls : Dict Name (Dict Name Val)) (n : Name) :
    (∀ k, ((Dict.get? (attrs.foldl addMode impls) n).bind (Dict.get? · k)) =
      (impl attrs k n).or ((Dict.get? impls n).bind (Dict.get? · k))) ∧
    ((Dict.get? (attrs.foldl addMode impls) n).isSome = true ↔
      (∃ k, (impl attrs k n).isSome = true) ∨ (Dict.get? impls n).isSome = true) := by
  induction attrs generalizing impls with
  | nil => simp [impl]
  | cons p attrs ih =>
    obtain ⟨k0, v⟩ := p
    have hk : k0 ∉ Dict.keys attrs ∧ Dict.WF attrs := by
      have := h.1
      unfold Dict.WF Dict.keys at this ⊢
      rw [List.map_cons, List.nodup_cons] at this
      exact this
    have hv : ∀ d, v = .modeCls d → Dict.WF (κ := Name) d := fun d e => h.2 k0 d (by simp [e])
    obtain ⟨i1, i2⟩ := ih ⟨hk.2, fun k d hm => h.2 k d (by simp [hm])⟩ (addMode impls (k0, v))
    rw [List.foldl_cons]
    have e := addMode_get impls k0 v hv n
    have nk := (impl_cons k0 v attrs hk.1 k0 n).2
    refine ⟨fun k => ?_, ?_⟩
    · rw [i1, (impl_cons k0 v attrs hk.1 k n).1, e]
      by_cases hkk : k = k0
      · subst hkk
        rw [if_pos rfl, nk]
        cases impl [(k, v)] k n with
        | none => rfl
        | some f => simp [Dict.get?_set]
      · rw [if_neg hkk]
        cases impl [(k0, v)] k0 n with
        | none => rfl
        | some f =>
          simp only [Option.bind_some, Dict.get?_set, if_neg (fun e : k0 = k => hkk e.symm)]
          cases Dict.get? impls n <;> simp
    · rw [i2, e]
      constructor
      · rintro (⟨k, hk'⟩ | hs)
        · left
          refine ⟨k, ?_⟩
          rw [(impl_cons k0 v attrs hk.1 k n).1]
          by_cases hkk : k = k0
          · subst hkk; rw [nk] at hk'; cases hk'
          · rw [if_neg hkk]; exact hk'
        · cases e' : impl [(k0, v)] k0 n with
          | none => rw [e'] at hs; exact Or.inr hs
          | some f => exact Or.inl ⟨k0, by rw [(impl_cons k0 v attrs hk.1 k0 n).1, if_pos rfl, e']; rfl⟩
      · rintro (⟨k, hk'⟩ | hs)
        · rw [(impl_cons k0 v attrs hk.1 k n).1] at hk'
          by_cases hkk : k = k0
          · rw [if_pos hkk] at hk'
            obtain ⟨f, hf⟩ := Option.isSome_iff_exists.1 hk'
            right; rw [hf]; rfl
          · rw [if_neg hkk] at hk'
            exact Or.inl ⟨k, hk'⟩
        · right
          cases impl [(k0, v)] k0 n with
          | none => exact hs
          | some f => rfl

theorem foldl_wf {α κ ν : Type} [DecidableEq κ] (f : Dict κ ν → α → Dict κ ν) (hf : ∀ d a, Dict.WF d → Dict.WF (f d a))
    (l : List α) (d : Dict κ ν) (h : Dict.WF d) : Dict.WF (l.foldl f d) := by
  induction l generalizing d with
  | nil => exact h
  | cons a l ih => exact ih _ (hf d a h)

theorem implementations_wf (attrs : Dict Name Val) : Dict.WF (implementations attrs) := by
  unfold implementations
  apply foldl_wf _ _ _ _ Dict.WF.nil
  intro d a h
  unfold addMode
  split
  · apply foldl_wf _ _ _ _ h
    intro d a h
    unfold addImpl
    split
    · exact h.set _ _
    · exact h
  · exact h

/-- Storing all entries of one dictionary in another. -/
theorem foldl_set_get {ν ν' : Type} (g : Name → ν → ν') (l : Dict Name ν) (hl : Dict.WF l) (d : Dict Name ν') (n : Name) :
    Dict.get? (l.foldl (fun d m => Dict.set d m.1 (g m.1 m.2)) d) n = match Dict.get? l n with
      | some v => some (g n v)
      | none => Dict.get? d n := by
  induction l generalizing d with
  | nil => rfl
  | cons p l ih =>
    obtain ⟨m, v⟩ := p
    have hm : m ∉ Dict.keys l ∧ Dict.WF l := by
      unfold Dict.WF Dict.keys at hl ⊢
      rw [List.map_cons, List.nodup_cons] at hl
      exact hl
    rw [List.foldl_cons, ih hm.2, Dict.get?_set]
    by_cases h : m = n
    · subst h
      rw [(Dict.get?_eq_none_iff l m).2 hm.1]; simp [Dict.get?]
    · simp [Dict.get?, h]

/-- Assignments one after the other: the last one counts. -/
theorem foldl_assign (l : List (Name × Val)) (d : Dict Name Val) (n : Name) :
    Dict.get? (l.foldl (fun d m => Dict.set d m.1 m.2) d) n =
      (((l.filter (·.1 = n)).getLast?).map (·.2)).or (Dict.get? d n) := by
  induction l generalizing d with
  | nil => rfl
  | cons p l ih =>
    rw [List.foldl_cons, ih, Dict.get?_set, List.filter_cons]
    by_cases h : p.1 = n
    · rw [if_pos h, if_pos (by simpa using h)]
      cases hf : l.filter (·.1 = n) with
      | nil => simp
      | cons a r =>
        rw [List.getLast?_cons_cons, List.getLast?_eq_some_getLast (List.cons_ne_nil a r)]; rfl
    · rw [if_neg h, if_neg (by simpa using h)]

end Verif.Modal
