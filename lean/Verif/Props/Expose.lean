import Verif.Model.Expose
/-!
# C54, C55: `Exposer`
-/
namespace Verif.Expose
open Verif.Py

variable {κ ν : Type} [DecidableEq κ] [DecidableEq ν]

/-- The history of an exposer: decorations with their explicit keys, if any. -/
abbrev History (κ : Type) := List (Option κ × Decorated κ)

/-- An exposer after a history; a decoration that raises changes nothing. -/
def run (h : History κ) : Exposed κ :=
  h.foldl (fun e d => match expose e d.1 d.2 with | .ok e' => e' | .error _ => e) []

/-- The object was decorated with this key, or without a key under this name. -/
def WasExposed (h : History κ) (key : κ) (f : Nat) : Prop :=
  ∃ d ∈ h, d.2.obj = f ∧ (d.1 = some key ∨ d.1 = none ∧ d.2.funcName = some key)

/-- Attribute lookup on the class. -/
def lookup (mro : List (Dict ν Nat)) (name : ν) : Option Nat := mro.findSome? fun d => Dict.get? d name

theorem expose_get (e : Exposed κ) (key : Option κ) (f : Decorated κ) (k : κ) :
    (Dict.get? (match expose e key f with | .ok e' => e' | .error _ => e) k).getD [] =
      (Dict.get? e k).getD [] ++ if (key = some k ∨ key = none ∧ f.funcName = some k) then [f.obj] else [] := by
  have gen : ∀ rkey, (Dict.get? (Dict.set (if Dict.has e rkey then e else Dict.set e rkey []) rkey
      ((Dict.get? (if Dict.has e rkey then e else Dict.set e rkey []) rkey).getD [] ++ [f.obj])) k).getD [] =
      (Dict.get? e k).getD [] ++ if rkey = k then [f.obj] else [] := by
    intro rkey
    have h0 : ∀ q, (Dict.get? (if Dict.has e rkey then e else Dict.set e rkey []) q).getD [] = (Dict.get? e q).getD [] := by
      intro q
      by_cases hh : Dict.has e rkey = true
      · rw [if_pos hh]
      · rw [if_neg hh, Dict.get?_set]
        by_cases hq : rkey = q
        · subst hq
          unfold Dict.has at hh
          cases hg : Dict.get? e rkey with
          | none => simp
          | some v => rw [hg] at hh; simp at hh
        · rw [if_neg hq]
    rw [Dict.get?_set, h0]
    by_cases hk : rkey = k
    · subst hk; simp
    · rw [if_neg hk, if_neg hk, h0]; simp
  unfold expose
  cases key with
  | some k' =>
    simp only
    rw [gen k']
    simp
  | none =>
    cases hf : f.funcName with
    | none => simp
    | some k' =>
      simp only
      rw [gen k']
      simp

/-- The table holds exactly what was exposed. -/
theorem run_mem (h : History κ) (k : κ) (f : Nat) : f ∈ (Dict.get? (run h) k).getD [] ↔ WasExposed h k f := by
  have gen : ∀ (h : History κ) (e : Exposed κ), f ∈ (Dict.get? (h.foldl (fun e d =>
      match expose e d.1 d.2 with | .ok e' => e' | .error _ => e) e) k).getD [] ↔
      f ∈ (Dict.get? e k).getD [] ∨ WasExposed h k f := by
    intro h
    induction h with
    | nil => intro e; simp [WasExposed]
    | cons d h ih =>
      intro e
      rw [List.foldl_cons, ih, expose_get, List.mem_append]
      unfold WasExposed
      simp only [List.mem_cons, exists_eq_or_imp]
      constructor
      · rintro ((h | h) | h)
        · exact Or.inl h
        · split at h
          · rename_i hc
            simp only [List.mem_singleton] at h
            exact Or.inr (Or.inl ⟨h.symm, hc⟩)
          · cases h
        · exact Or.inr (Or.inr h)
      · rintro (h | ⟨h, hc⟩ | h)
        · exact Or.inl (Or.inl h)
        · exact Or.inl (Or.inr (by rw [if_pos hc, h]; simp))
        · exact Or.inr h
  rw [run, gen h []]
  simp

/-- A decoration is refused exactly if there is no key and the object is not a plain function. -/
theorem expose_refused (e : Exposed κ) (key : Option κ) (f : Decorated κ) :
    expose e key f = .error nameRequired ↔ key = none ∧ f.funcName = none := by
  unfold expose
  cases key with
  | some k => simp
  | none => cases f.funcName <;> simp

theorem scanItems_spec (rf : List Nat) (items : List (ν × Nat)) (seen : List ν) :
    (∃ a name value b, items = a ++ (name, value) :: b ∧ (∀ p ∈ a, p.2 ∉ rf) ∧ value ∈ rf ∧
      scanItems rf items seen = .inl (if name ∈ seen ++ a.map (·.1) then .error methodNotExposed else .ok value)) ∨
    ((∀ p ∈ items, p.2 ∉ rf) ∧ scanItems rf items seen = .inr (seen ++ items.map (·.1))) := by
  induction items generalizing seen with
  | nil => right; simp [scanItems]
  | cons p items ih =>
    obtain ⟨name, value⟩ := p
    unfold scanItems
    by_cases hv : value ∈ rf
    · left
      refine ⟨[], name, value, items, rfl, by simp, hv, ?_⟩
      rw [if_pos hv]
      by_cases hs : name ∈ seen <;> simp [hs]
    · rw [if_neg hv]
      rcases ih (seen ++ [name]) with ⟨a, n, v, b, rfl, ha, hvr, e⟩ | ⟨ha, e⟩
      · left
        refine ⟨(name, value) :: a, n, v, b, rfl, ?_, hvr, by rw [e, List.append_assoc]; rfl⟩
        intro p hp
        rcases List.mem_cons.1 hp with rfl | hp
        · exact hv
        · exact ha p hp
      · right
        refine ⟨?_, by rw [e]; simp⟩
        intro p hp
        rcases List.mem_cons.1 hp with rfl | hp
        · exact hv
        · exact ha p hp

/-- The loop stops at the first exposed object; it is refused if an earlier class has the name. -/
theorem scanMro_spec (rf : List Nat) (mro : List (Dict ν Nat)) (hw : ∀ d ∈ mro, Dict.WF d) (seen : List ν) :
    (∃ a d b name value, mro = a ++ d :: b ∧ (name, value) ∈ d ∧ (∀ c ∈ a, ∀ p ∈ c, p.2 ∉ rf) ∧ value ∈ rf ∧
      scanMro rf mro seen = if name ∈ seen ++ a.flatMap Dict.keys then .error methodNotExposed else .ok value) ∨
    ((∀ c ∈ mro, ∀ p ∈ c, p.2 ∉ rf) ∧ scanMro rf mro seen = .error methodNotExposed) := by
  induction mro generalizing seen with
  | nil => right; simp [scanMro]
  | cons d mro ih =>
    unfold scanMro
    rcases scanItems_spec rf d seen with ⟨a, n, v, b, hd, ha, hv, e⟩ | ⟨ha, e⟩
    · left
      refine ⟨[], d, mro, n, v, rfl, by rw [hd]; simp, by simp, hv, ?_⟩
      rw [e]
      have : n ∉ a.map (·.1) := by
        have := hw d (by simp)
        unfold Dict.WF Dict.keys at this
        rw [hd, List.map_append, List.map_cons, List.nodup_append] at this
        intro hn
        exact this.2.2 n hn n (by simp) rfl
      simp only [List.mem_append, this, or_false, List.flatMap_nil, List.not_mem_nil]
    · rcases ih (fun d hd => hw d (by simp [hd])) (seen ++ d.map (·.1)) with ⟨a, d', b, n, v, hm, hn, h1, hv, e'⟩ | ⟨h1, e'⟩
      · left
        refine ⟨d :: a, d', b, n, v, by rw [hm]; rfl, hn, ?_, hv, ?_⟩
        · intro c hc
          rcases List.mem_cons.1 hc with rfl | hc
          · exact ha
          · exact h1 c hc
        · rw [e]
          simp only [e', List.append_assoc, List.flatMap_cons, Dict.keys]
      · right
        refine ⟨?_, by rw [e]; exact e'⟩
        intro c hc
        rcases List.mem_cons.1 hc with rfl | hc
        · exact ha
        · exact h1 c hc

theorem lookup_none_iff (mro : List (Dict ν Nat)) (name : ν) : lookup mro name = none ↔ name ∉ mro.flatMap Dict.keys := by
  unfold lookup
  rw [List.findSome?_eq_none_iff]
  simp only [List.mem_flatMap, not_exists, not_and]
  constructor
  · intro h d hd; exact (Dict.get?_eq_none_iff d name).1 (h d hd)
  · intro h d hd; exact (Dict.get?_eq_none_iff d name).2 (h d hd)

/-- **C54**: what `get` returns was exposed under that key, and is what the class has under its name; otherwise
`MethodNotExposed` is raised. -/
theorem get_sound (h : History κ) (mro : List (Dict ν Nat)) (hw : ∀ d ∈ mro, Dict.WF d) (key : κ) :
    (∃ f, get (run h) mro key = .ok f ∧ WasExposed h key f ∧ ∃ name, lookup mro name = some f) ∨
    get (run h) mro key = .error methodNotExposed := by
  unfold get
  cases hg : Dict.get? (run h) key with
  | none => exact Or.inr rfl
  | some rf =>
    have hrf : ∀ f, f ∈ rf ↔ WasExposed h key f := by
      intro f
      rw [← run_mem, hg]; rfl
    rcases scanMro_spec rf mro hw [] with ⟨a, d, b, n, v, rfl, hn, h1, hv, e⟩ | ⟨_, e⟩
    · simp only [e, List.nil_append]
      by_cases hs : n ∈ a.flatMap Dict.keys
      · right; rw [if_pos hs]
      · left
        refine ⟨v, by rw [if_neg hs], (hrf v).1 hv, n, ?_⟩
        have hl := (lookup_none_iff a n).2 hs
        unfold lookup at hl ⊢
        rw [List.findSome?_append, hl, List.findSome?_cons, Dict.get?_of_mem (hw d (by simp)) hn]
        rfl
    · right; simp only [e]

/-- In particular an overridden method is not reachable: if no name of the class leads to an object exposed under the
key, `get` refuses. -/
theorem get_hidden (h : History κ) (mro : List (Dict ν Nat)) (hw : ∀ d ∈ mro, Dict.WF d) (key : κ)
    (hn : ∀ name f, lookup mro name = some f → ¬ WasExposed h key f) : get (run h) mro key = .error methodNotExposed := by
  rcases get_sound h mro hw key with ⟨f, _, h1, n, h2⟩ | e
  · exact absurd h1 (hn n f h2)
  · exact e

/-- **C55**: an exposed function that the class has under its name is returned, if nothing else in the hierarchy is
exposed under the key and the function has no second name. -/
theorem get_complete (h : History κ) (mro : List (Dict ν Nat)) (hw : ∀ d ∈ mro, Dict.WF d) (key : κ) {f : Nat} {name : ν}
    (hf : WasExposed h key f) (hl : lookup mro name = some f)
    (hu : ∀ d ∈ mro, ∀ n g, (n, g) ∈ d → WasExposed h key g → n = name ∧ g = f) : get (run h) mro key = .ok f := by
  unfold get
  have hin := (run_mem h key f).2 hf
  cases hg : Dict.get? (run h) key with
  | none => rw [hg] at hin; simp at hin
  | some rf =>
    have hrf : ∀ f, f ∈ rf ↔ WasExposed h key f := by
      intro f
      rw [← run_mem, hg]; rfl
    obtain ⟨p, d0, q, hm, hd0, hp⟩ := List.findSome?_eq_some_iff.1 hl
    rcases scanMro_spec rf mro hw [] with ⟨a, d, b, n, v, hm', hn, h1, hv, e⟩ | ⟨h1, _⟩
    · obtain ⟨rfl, rfl⟩ := hu d (by rw [hm']; simp) n v hn ((hrf v).1 hv)
      simp only [e, List.nil_append]
      rw [if_neg]
      intro hs
      obtain ⟨c, hc, hk⟩ := List.mem_flatMap.1 hs
      have hca : ∀ g, Dict.get? c n = some g → g ∉ rf := fun g hgc => h1 c hc _ (Dict.mem_of_get? hgc)
      -- the lookup stops at or before `c`, in `a`
      have : lookup a n = some v := by
        have hne : lookup a n ≠ none := fun h0 => (lookup_none_iff a n).1 h0 hs
        obtain ⟨w, hw'⟩ := Option.ne_none_iff_exists'.1 hne
        have : lookup mro n = some w := by
          unfold lookup at hw' ⊢
          rw [hm', List.findSome?_append, hw']; rfl
        rw [hl] at this
        cases this
        exact hw'
      obtain ⟨p', c', q', ea, hc', _⟩ := List.findSome?_eq_some_iff.1 this
      exact h1 c' (by rw [ea]; simp) _ (Dict.mem_of_get? hc') hv
    · exact absurd ((hrf f).2 hf) (h1 d0 (by rw [hm]; simp) _ (Dict.mem_of_get? hd0))

/-- Subclasses: a class that does not define the name, nor anything exposed under the key, changes nothing. -/
theorem get_subclass (h : History κ) (mro sub : List (Dict ν Nat)) (hw : ∀ d ∈ sub ++ mro, Dict.WF d) (key : κ) {f : Nat}
    {name : ν} (hf : WasExposed h key f) (hl : lookup mro name = some f)
    (hu : ∀ d ∈ mro, ∀ n g, (n, g) ∈ d → WasExposed h key g → n = name ∧ g = f)
    (hs : ∀ d ∈ sub, name ∉ Dict.keys d ∧ ∀ n g, (n, g) ∈ d → ¬ WasExposed h key g) :
    get (run h) (sub ++ mro) key = .ok f := by
  apply get_complete h _ hw key (name := name) hf
  · have : lookup sub name = none := by
      rw [lookup_none_iff]
      intro hc
      obtain ⟨c, hc, hk⟩ := List.mem_flatMap.1 hc
      exact (hs c hc).1 hk
    unfold lookup at this hl ⊢
    rw [List.findSome?_append, this, hl]; rfl
  · intro d hd n g hng hg
    rcases List.mem_append.1 hd with hd | hd
    · exact absurd hg ((hs d hd).2 n g hng)
    · exact hu d hd n g hng hg

/-- A function with two names, one of which a subclass overrides, is refused though the other name still leads to it. -/
theorem get_alias_fails : ∃ (h : History Nat) (mro : List (Dict Nat Nat)), (∀ d ∈ mro, Dict.WF d) ∧ WasExposed h 7 1 ∧
    lookup mro 11 = some 1 ∧ get (run h) mro 7 = .error methodNotExposed :=
  ⟨[(some 7, ⟨1, some 10⟩)], [[(10, 2)], [(10, 1), (11, 1)]],
    by simp [Dict.WF, Dict.keys], ⟨_, List.mem_singleton.2 rfl, rfl, Or.inl rfl⟩, rfl, rfl⟩

/-- `f` (1) is exposed under its own name 10; the subclass overrides only 11. -/
example : let h : History Nat := [(none, ⟨1, some 10⟩), (some 8, ⟨3, none⟩)]
    let mro : List (Dict Nat Nat) := [[(11, 4)], [(10, 1), (11, 2)]]
    (∀ d ∈ mro, Dict.WF d) ∧ WasExposed h 10 1 ∧ lookup mro 10 = some 1 ∧ get (run h) mro 10 = .ok 1 ∧
      get (run h) [[(10, 5)], [(10, 1), (11, 2)]] 10 = .error methodNotExposed :=
  ⟨by simp [Dict.WF, Dict.keys], ⟨_, List.mem_cons_self, rfl, Or.inr ⟨rfl, rfl⟩⟩, rfl, rfl, rfl⟩

end Verif.Expose
