/-!
# Python primitives: exceptions and insertion-ordered dictionaries

Trusted description of the parts of CPython 3 that the modelled code uses.
-/
namespace Verif.Py

/-- The exception classes that modelled code can raise.  `other` stands for an application-defined
exception class, identified by a name. -/
inductive PyErr where
  | typeError
  | valueError
  | keyError
  | indexError
  | attributeError
  | overflowError
  | runtimeError
  | unicodeError
  | assertionError
  | notImplementedError
  | other (name : String)
  deriving DecidableEq, Repr

/-- `dict` (CPython ≥ 3.7: insertion ordered).  First match wins on lookup; `set` overwrites in place or
appends, so a key occurs at most once in any dictionary built from `[]` with `set` and `erase`. -/
abbrev Dict (κ ν : Type) := List (κ × ν)

namespace Dict
variable {κ ν : Type} [DecidableEq κ]

/-- `d.get(k)` -/
def get? : Dict κ ν → κ → Option ν
  | [], _ => none
  | (k', v) :: d, k => if k' = k then some v else get? d k

/-- `k in d` -/
def has (d : Dict κ ν) (k : κ) : Bool := (get? d k).isSome

/-- `d[k] = v` -/
def set : Dict κ ν → κ → ν → Dict κ ν
  | [], k, v => [(k, v)]
  | (k', v') :: d, k, v => if k' = k then (k', v) :: d else (k', v') :: set d k v

/-- `del d[k]` on a present key / `d.pop(k, None)` -/
def erase : Dict κ ν → κ → Dict κ ν
  | [], _ => []
  | (k', v') :: d, k => if k' = k then d else (k', v') :: erase d k

/-- `d.keys()` -/
def keys (d : Dict κ ν) : List κ := d.map Prod.fst

/-- `d.values()` -/
def values (d : Dict κ ν) : List ν := d.map Prod.snd

/-- `d[k]` -/
def get (d : Dict κ ν) (k : κ) : Except PyErr ν :=
  match get? d k with
  | some v => .ok v
  | none => .error .keyError

/-- Well-formedness: no key occurs twice.  Holds of every Python dict. -/
def WF (d : Dict κ ν) : Prop := (keys d).Nodup

@[simp] theorem get?_nil (k : κ) : get? ([] : Dict κ ν) k = none := rfl

theorem get?_set_same (d : Dict κ ν) (k : κ) (v : ν) : get? (set d k v) k = some v := by
  induction d with
  | nil => simp [set, get?]
  | cons p d ih =>
    obtain ⟨k', v'⟩ := p
    by_cases h : k' = k <;> simp [set, get?, h, ih]

theorem get?_set_other (d : Dict κ ν) (k k' : κ) (v : ν) (h : k ≠ k') :
    get? (set d k v) k' = get? d k' := by
  induction d with
  | nil => simp [set, get?, h]
  | cons p d ih =>
    obtain ⟨k₁, v₁⟩ := p
    by_cases h₁ : k₁ = k
    · subst h₁; simp [set, get?, h]
    · simp [set, get?, h₁, ih]

theorem get?_set (d : Dict κ ν) (k k' : κ) (v : ν) :
    get? (set d k v) k' = if k = k' then some v else get? d k' := by
  by_cases h : k = k'
  · subst h; simp [get?_set_same]
  · simp [h, get?_set_other]

theorem get?_erase_other (d : Dict κ ν) (k k' : κ) (h : k ≠ k') :
    get? (erase d k) k' = get? d k' := by
  induction d with
  | nil => rfl
  | cons p d ih =>
    obtain ⟨k₁, v₁⟩ := p
    by_cases h₁ : k₁ = k
    · subst h₁; simp [erase, get?, h]
    · simp [erase, get?, h₁, ih]

theorem get?_eq_none_iff (d : Dict κ ν) (k : κ) : get? d k = none ↔ k ∉ keys d := by
  induction d with
  | nil => simp [keys]
  | cons p d ih =>
    obtain ⟨k₁, v₁⟩ := p
    by_cases h : k₁ = k
    · simp [get?, keys, h]
    · have h' : ¬ k = k₁ := fun e => h e.symm
      simp only [get?, if_neg h, ih, keys, List.map_cons, List.mem_cons, h', false_or]

theorem has_iff (d : Dict κ ν) (k : κ) : has d k = true ↔ k ∈ keys d := by
  have := get?_eq_none_iff d k
  unfold has
  cases h : get? d k <;> simp_all

theorem mem_of_get? {d : Dict κ ν} {k : κ} {v : ν} (h : get? d k = some v) : (k, v) ∈ d := by
  induction d with
  | nil => simp at h
  | cons p d ih =>
    obtain ⟨k₁, v₁⟩ := p
    by_cases h₁ : k₁ = k
    · simp_all [get?]
    · simp only [get?, if_neg h₁] at h; exact List.mem_cons_of_mem _ (ih h)

theorem keys_set_of_mem {d : Dict κ ν} {k : κ} (v : ν) (h : k ∈ keys d) : keys (set d k v) = keys d := by
  induction d with
  | nil => simp [keys] at h
  | cons p d ih =>
    obtain ⟨k₁, v₁⟩ := p
    by_cases h₁ : k₁ = k
    · simp [set, h₁, keys]
    · have : k ∈ keys d := by
        simp only [keys, List.map_cons, List.mem_cons] at h
        rcases h with h | h
        · exact absurd h.symm h₁
        · exact h
      have := ih this
      simp only [keys] at this
      simp [set, h₁, keys, this]

theorem set_of_not_mem {d : Dict κ ν} {k : κ} (v : ν) (h : k ∉ keys d) : set d k v = d ++ [(k, v)] := by
  induction d with
  | nil => rfl
  | cons p d ih =>
    obtain ⟨k₁, v₁⟩ := p
    simp only [keys, List.map_cons, List.mem_cons, not_or] at h
    have h₁ : ¬ k₁ = k := fun e => h.1 e.symm
    simp [set, h₁, ih h.2]

theorem keys_erase (d : Dict κ ν) (k : κ) : keys (erase d k) = (keys d).erase k := by
  induction d with
  | nil => rfl
  | cons p d ih =>
    obtain ⟨k₁, v₁⟩ := p
    simp only [keys] at ih ⊢
    by_cases h₁ : k₁ = k
    · simp [erase, h₁]
    · simp [erase, h₁, ih]

theorem WF.set {d : Dict κ ν} (h : WF d) (k : κ) (v : ν) : WF (set d k v) := by
  by_cases hk : k ∈ keys d
  · unfold WF; rw [keys_set_of_mem v hk]; exact h
  · rw [set_of_not_mem v hk]
    unfold WF keys at *
    rw [List.map_append, List.nodup_append]
    refine ⟨h, by simp, ?_⟩
    intro a ha b hb
    simp at hb; subst hb
    intro e; subst e; exact hk ha

theorem WF.erase {d : Dict κ ν} (h : WF d) (k : κ) : WF (erase d k) := by
  unfold WF at *; rw [keys_erase]; exact h.erase k

theorem get?_erase_same {d : Dict κ ν} (h : WF d) (k : κ) : get? (erase d k) k = none := by
  rw [get?_eq_none_iff, keys_erase]
  exact h.not_mem_erase

theorem mem_keys_erase {d : Dict κ ν} (h : WF d) (k m : κ) :
    m ∈ keys (erase d k) ↔ m ∈ keys d ∧ m ≠ k := by
  rw [keys_erase, List.Nodup.mem_erase_iff h]
  exact And.comm

theorem get?_of_mem {d : Dict κ ν} (h : WF d) {k : κ} {v : ν} (hm : (k, v) ∈ d) : get? d k = some v := by
  induction d with
  | nil => simp at hm
  | cons p d ih =>
    obtain ⟨k₁, v₁⟩ := p
    unfold WF keys at h
    rw [List.map_cons, List.nodup_cons] at h
    rcases List.mem_cons.mp hm with e | hm'
    · cases e; simp [get?]
    · have : k₁ ≠ k := by
        intro e; subst e
        exact h.1 (List.mem_map.mpr ⟨(k₁, v), hm', rfl⟩)
      simp only [get?, if_neg this]
      exact ih h.2 hm'

omit [DecidableEq κ] in
theorem WF.nil : WF ([] : Dict κ ν) := by simp [WF, keys]

end Dict
end Verif.Py
