import Verif.Model.Descriptor
/-!
# C57: `attribute` and `requiredAttribute`
-/
namespace Verif.Descriptor
open Verif.Py

/-- The function supplied in the class body, or one that raises `AttributeError` and changes nothing. -/
def supplied (body : Dict Name Fn) (kw : Name) (oself : Nat) (value : Option Value) (h : Heap) :
    Except PyErr Value × Heap :=
  match Dict.get? body kw with
  | some f => f oself value h
  | none => (.error .attributeError, h)

theorem get?_metaNew (body : Dict Name Fn) (kw : Name) : Dict.get? (metaNew body) kw =
    (Dict.get? body kw).map fun f => if kw = nGet ∨ kw = nSet ∨ kw = nDelete then .static f else .plain f := by
  unfold metaNew
  induction body with
  | nil => rfl
  | cons p body ih =>
    obtain ⟨k, f⟩ := p
    simp only [List.map_cons, Dict.get?]
    by_cases hk : k = kw
    · subst hk; simp
    · rw [if_neg hk, if_neg hk]; exact ih

theorem callMember_supplied (body : Dict Name Fn) {kw : Name} (hk : kw = nGet ∨ kw = nSet ∨ kw = nDelete) (oself : Nat)
    (value : Option Value) (h : Heap) : callMember (metaNew body) kw oself value h = supplied body kw oself value h := by
  unfold callMember supplied
  rw [get?_metaNew]
  simp only [if_pos hk]
  cases hb : Dict.get? body kw with
  | some f => rfl
  | none => rcases hk with rfl | rfl | rfl <;> rfl

/-- **C57**: if the nearest definition of the name is a descriptor made of `body`, then reading, writing and deleting
the attribute call the function of `body` with the instance, or raise `AttributeError`. -/
theorem attribute_spec (c : Cls) (name : Name) (body : Dict Name Fn) (hc : find c name = some (.desc (metaNew body)))
    (oself : Nat) (h : Heap) :
    getattr c oself name h = supplied body nGet oself none h ∧
    (∀ v, setattr c oself name v h = supplied body nSet oself (some v) h) ∧
    delattr c oself name h = supplied body nDelete oself none h ∧
    classGetattr c name = .ok (.desc (metaNew body)) := by
  unfold getattr setattr delattr classGetattr
  rw [hc]
  exact ⟨callMember_supplied body (by simp) oself none h, fun v => callMember_supplied body (by simp) oself (some v) h,
    callMember_supplied body (by simp) oself none h, rfl⟩

/-! ## `requiredAttribute` -/

inductive Op where
  | read (oself : Nat) (name : Name)
  | write (oself : Nat) (name : Name) (v : Value)
  | del (oself : Nat) (name : Name)

/-- The class of each object. -/
abbrev Classes := Nat → Cls

def step (cs : Classes) (o : Op) (h : Heap) : Except PyErr Value × Heap :=
  match o with
  | .read i n => getattr (cs i) i n h
  | .write i n v => setattr (cs i) i n v h
  | .del i n => delattr (cs i) i n h

def run (cs : Classes) (ops : List Op) (h : Heap) : Heap := ops.foldl (fun h o => (step cs o h).2) h

/-- The classes have no descriptors but those of `requiredAttribute`. -/
def OnlyRequired (cs : Classes) : Prop := ∀ i n d, find (cs i) n = some (.desc d) → ∃ r, ClassAttr.desc d = requiredAttribute r

/-- The name `n` of object `i` stores under `r`. -/
def StoresAt (cs : Classes) (i : Nat) (n r : Name) : Prop :=
  find (cs i) n = some (requiredAttribute r) ∨ (n = r ∧ ∀ d, find (cs i) n ≠ some (.desc d))

/-- Specification: what the history, latest first, has left under `r` in object `i`. -/
inductive Last (cs : Classes) (i : Nat) (r : Name) (init : Option Value) : List Op → Option Value → Prop
  | nil : Last cs i r init [] init
  | wrote {n v ops} : StoresAt cs i n r → Last cs i r init (.write i n v :: ops) (some v)
  | deleted {n ops} : n = r → (∀ d, find (cs i) n ≠ some (.desc d)) → Last cs i r init (.del i n :: ops) none
  | read {j n ops v} : Last cs i r init ops v → Last cs i r init (.read j n :: ops) v
  | wroteElse {j n u ops v} : ¬ (j = i ∧ StoresAt cs i n r) → Last cs i r init ops v → Last cs i r init (.write j n u :: ops) v
  | deletedElse {j n ops v} : ¬ (j = i ∧ n = r ∧ ∀ d, find (cs i) n ≠ some (.desc d)) → Last cs i r init ops v →
      Last cs i r init (.del j n :: ops) v

theorem required_read (c : Cls) (i : Nat) (n r : Name) (h : Heap) (hc : find c n = some (requiredAttribute r)) :
    getattr c i n h = (match Dict.get? (h i) r with | some v => .ok v | none => .error .attributeError, h) := by
  unfold requiredAttribute at hc
  rw [(attribute_spec c n _ hc i h).1]
  show (if Dict.has (h i) r then _ else _) = _
  unfold Dict.has
  cases Dict.get? (h i) r <;> rfl

theorem required_write (c : Cls) (i : Nat) (n r : Name) (v : Value) (h : Heap) (hc : find c n = some (requiredAttribute r)) :
    setattr c i n v h = (.ok none, setDict h i (Dict.set (h i) r v)) := by
  unfold requiredAttribute at hc
  rw [(attribute_spec c n _ hc i h).2.1]
  rfl

theorem required_del (c : Cls) (i : Nat) (n r : Name) (h : Heap) (hc : find c n = some (requiredAttribute r)) :
    delattr c i n h = (.error .attributeError, h) := by
  unfold requiredAttribute at hc
  rw [(attribute_spec c n _ hc i h).2.2.1]
  rfl

theorem requiredAttribute_inj {r r' : Name} (h : requiredAttribute r = requiredAttribute r') : r = r' := by
  by_cases e : r = r'
  · exact e
  · exfalso
    -- tell them apart by writing to an empty object and reading back
    have h1 := required_write [[([0], requiredAttribute r)]] 0 [0] r (some 1) (fun _ => []) rfl
    rw [h] at h1
    rw [required_write [[([0], requiredAttribute r')]] 0 [0] r' (some 1) (fun _ => []) rfl] at h1
    have h2 := congrFun (congrArg Prod.snd h1) 0
    simp [setDict, Dict.set] at h2
    exact e h2.symm

/-- An object's dictionary after a step: everything that a step may change. -/
theorem step_get? (cs : Classes) (ho : OnlyRequired cs) (o : Op) (h : Heap) (hw : ∀ i, Dict.WF (h i)) :
    (∀ i, Dict.WF ((step cs o h).2 i)) ∧ ∀ i r ops (init : Option Value) v, v = Dict.get? (h i) r → Last cs i r init ops v →
      Last cs i r init (o :: ops) (Dict.get? ((step cs o h).2 i) r) := by
  have wfset : ∀ j n v, ∀ i, Dict.WF (setDict h j (Dict.set (h j) n v) i) := by
    intro j n v i
    unfold setDict
    by_cases hi : i = j
    · rw [if_pos hi]; exact (hw j).set n v
    · rw [if_neg hi]; exact hw i
  have getset : ∀ j n (v : Value) i r, Dict.get? (setDict h j (Dict.set (h j) n v) i) r =
      if i = j ∧ n = r then some v else Dict.get? (h i) r := by
    intro j n v i r
    unfold setDict
    by_cases hi : i = j
    · subst hi
      rw [if_pos rfl, Dict.get?_set]
      by_cases hn : n = r <;> simp [hn]
    · rw [if_neg hi, if_neg (fun e => hi e.1)]
  cases o with
  | read j n =>
    have e : (step cs (.read j n) h).2 = h := by
      unfold step
      cases hf : find (cs j) n with
      | none =>
        unfold getattr; simp only [hf]
        cases Dict.get? (h j) n <;> rfl
      | some a =>
        cases a with
        | value v =>
          unfold getattr; simp only [hf]
          cases Dict.get? (h j) n <;> rfl
        | desc d =>
          obtain ⟨r, hr⟩ := ho j n d hf
          show (getattr (cs j) j n h).2 = h
          rw [required_read (cs j) j n r h (by rw [hf, hr])]
    rw [e]
    exact ⟨hw, fun i r ops init v hv hl => by subst hv; exact .read hl⟩
  | write j n u =>
    -- where it goes
    have key : ∃ q, (step cs (.write j n u) h).2 = setDict h j (Dict.set (h j) q u) ∧ ∀ r, StoresAt cs j n r ↔ r = q := by
      unfold step StoresAt
      cases hf : find (cs j) n with
      | none =>
        refine ⟨n, by unfold setattr; simp only [hf], fun r => ?_⟩
        simp [eq_comm]
      | some a =>
        cases a with
        | value v =>
          refine ⟨n, by unfold setattr; simp only [hf], fun r => ?_⟩
          constructor
          · rintro (e | ⟨e, _⟩)
            · cases e
            · exact e.symm
          · rintro rfl; exact Or.inr ⟨rfl, fun d e => by cases e⟩
        | desc d =>
          obtain ⟨q, hq⟩ := ho j n d hf
          refine ⟨q, by
            show (setattr (cs j) j n u h).2 = _
            rw [required_write (cs j) j n q u h (by rw [hf, hq])], fun r => ?_⟩
          rw [hq]
          constructor
          · rintro (e | ⟨_, e⟩)
            · exact (requiredAttribute_inj (Option.some.inj e)).symm
            · exact absurd (by rw [← hq]) (e d)
          · rintro rfl; exact Or.inl rfl
    obtain ⟨q, hq, hs⟩ := key
    rw [hq]
    refine ⟨wfset j q u, fun i r ops init v hv hl => ?_⟩
    rw [getset]
    by_cases hi : i = j ∧ q = r
    · rw [if_pos hi]
      obtain ⟨rfl, rfl⟩ := hi
      exact .wrote ((hs q).2 rfl)
    · rw [if_neg hi, ← hv]
      refine .wroteElse ?_ hl
      rintro ⟨rfl, e⟩
      exact hi ⟨rfl, ((hs r).1 e).symm⟩
  | del j n =>
    cases hf : find (cs j) n with
    | some a =>
      cases a with
      | desc d =>
        obtain ⟨q, hq⟩ := ho j n d hf
        have e : (step cs (.del j n) h).2 = h := by
          show (delattr (cs j) j n h).2 = h
          rw [required_del (cs j) j n q h (by rw [hf, hq])]
        rw [e]
        refine ⟨hw, fun i r ops init v hv hl => ?_⟩
        subst hv
        refine .deletedElse ?_ hl
        rintro ⟨rfl, _, e⟩
        exact e d hf
      | value v0 =>
        exact del_plain cs h hw j n (by rw [hf]; simp)
    | none => exact del_plain cs h hw j n (by rw [hf]; simp)
where
  del_plain (cs : Classes) (h : Heap) (hw : ∀ i, Dict.WF (h i)) (j : Nat) (n : Name)
      (hf : ∀ d, find (cs j) n ≠ some (.desc d)) :
      (∀ i, Dict.WF ((step cs (.del j n) h).2 i)) ∧ ∀ i r ops (init : Option Value) v, v = Dict.get? (h i) r →
        Last cs i r init ops v → Last cs i r init (.del j n :: ops) (Dict.get? ((step cs (.del j n) h).2 i) r) := by
    have e : (step cs (.del j n) h).2 = if Dict.has (h j) n then setDict h j (Dict.erase (h j) n) else h := by
      unfold step delattr
      cases hq : find (cs j) n with
      | none => simp only; split <;> rfl
      | some a =>
        cases a with
        | value v => simp only; split <;> rfl
        | desc d => exact absurd hq (hf d)
    rw [e]
    by_cases hh : Dict.has (h j) n = true
    · rw [if_pos hh]
      refine ⟨fun i => ?_, fun i r ops init v hv hl => ?_⟩
      · unfold setDict
        by_cases hi : i = j
        · rw [if_pos hi]; exact (hw j).erase n
        · rw [if_neg hi]; exact hw i
      · unfold setDict
        by_cases hi : i = j
        · subst hi
          rw [if_pos rfl]
          by_cases hn : n = r
          · subst hn
            rw [Dict.get?_erase_same (hw i)]
            exact .deleted rfl hf
          · rw [Dict.get?_erase_other _ _ _ hn, ← hv]
            exact .deletedElse (fun e => hn e.2.1) hl
        · rw [if_neg hi, ← hv]
          exact .deletedElse (fun e => hi e.1.symm) hl
    · rw [if_neg hh]
      refine ⟨hw, fun i r ops init v hv hl => ?_⟩
      by_cases hc : j = i ∧ n = r
      · obtain ⟨rfl, rfl⟩ := hc
        have : Dict.get? (h j) n = none := by
          unfold Dict.has at hh
          cases hg : Dict.get? (h j) n with
          | none => rfl
          | some v => rw [hg] at hh; simp at hh
        rw [this]
        exact .deleted rfl hf
      · rw [← hv]
        exact .deletedElse (fun e => hc ⟨e.1, e.2.1⟩) hl

/-- After every history, each object has under each name what the history left there. -/
theorem run_last (cs : Classes) (ho : OnlyRequired cs) (h : Heap) (hw : ∀ i, Dict.WF (h i)) (ops : List Op) (i : Nat)
    (r : Name) : Last cs i r (Dict.get? (h i) r) ops.reverse (Dict.get? (run cs ops h i) r) := by
  have gen : ∀ (ops : List Op) (h' : Heap) (past : List Op), (∀ i, Dict.WF (h' i)) →
      Last cs i r (Dict.get? (h i) r) past (Dict.get? (h' i) r) →
      Last cs i r (Dict.get? (h i) r) (ops.reverse ++ past) (Dict.get? (run cs ops h' i) r) := by
    intro ops
    induction ops with
    | nil => intro h' past _ hl; exact hl
    | cons o ops ih =>
      intro h' past hw' hl
      obtain ⟨w1, w2⟩ := step_get? cs ho o h' hw'
      have := ih (step cs o h').2 (o :: past) w1 (w2 i r past _ _ rfl hl)
      rw [List.reverse_cons, List.append_assoc]
      exact this
  have := gen ops h [] hw .nil
  rwa [List.append_nil] at this

/-- **C57**: after every history over any objects, reading a `requiredAttribute` raises `AttributeError` if nothing has
been stored for it in that object, and else yields what was stored last. -/
theorem required_history (cs : Classes) (ho : OnlyRequired cs) (h : Heap) (hw : ∀ i, Dict.WF (h i)) (ops : List Op)
    (i : Nat) (n r : Name) (hn : find (cs i) n = some (requiredAttribute r)) :
    ∃ last, Last cs i r (Dict.get? (h i) r) ops.reverse last ∧
      (getattr (cs i) i n (run cs ops h)).1 = match last with | some v => .ok v | none => .error .attributeError := by
  refine ⟨_, run_last cs ho h hw ops i r, ?_⟩
  rw [required_read (cs i) i n r _ hn]

/-- The specification is a function of the history. -/
theorem last_unique {cs : Classes} {i : Nat} {r : Name} {init : Option Value} {ops : List Op} {v w : Option Value}
    (h : Last cs i r init ops v) (h' : Last cs i r init ops w) : v = w := by
  induction h generalizing w with
  | nil => cases h'; rfl
  | wrote a =>
    cases h' with
    | wrote b => rfl
    | wroteElse b _ => exact absurd ⟨rfl, a⟩ b
  | deleted a b =>
    cases h' with
    | deleted => rfl
    | deletedElse c _ => exact absurd ⟨rfl, a, b⟩ c
  | read _ ih => cases h' with | read q => exact ih q
  | wroteElse a _ ih =>
    cases h' with
    | wrote b => exact absurd ⟨rfl, b⟩ a
    | wroteElse _ q => exact ih q
  | deletedElse a _ ih =>
    cases h' with
    | deleted b c => exact absurd ⟨rfl, b, c⟩ a
    | deletedElse _ q => exact ih q

/-- The documented use: a subclass supplies the value as a class attribute; it is then read from there. -/
theorem required_overridden (sub : Dict Name ClassAttr) (base : Cls) (n : Name) (v : Value) (i : Nat) (h : Heap)
    (hs : Dict.get? sub n = some (.value v)) (hi : Dict.get? (h i) n = none) : getattr (sub :: base) i n h = (.ok v, h) := by
  have : find (sub :: base) n = some (.value v) := by unfold find; rw [List.findSome?_cons, hs]
  unfold getattr
  simp only [this, hi]

/-- A counter as in the class's documentation, and a required attribute. -/
def demo : Cls := [[([120], .desc (metaNew [(nGet, fun i _ h =>
  (.ok (some (((Dict.get? (h i) [99]).getD none).getD 0 + 1)),
    setDict h i (Dict.set (h i) [99] (some (((Dict.get? (h i) [99]).getD none).getD 0 + 1)))))]))],
  [([114], requiredAttribute [114])]]

example : (getattr demo 3 [120] (getattr demo 3 [120] fun _ => []).2).1 = .ok (some 2) := rfl
example : (setattr demo 3 [120] (some 4) fun _ => []).1 = .error .attributeError := rfl
example : (getattr demo 3 [114] (setattr demo 4 [114] none fun _ => []).2).1 = .error .attributeError := rfl
example : (getattr demo 4 [114] (setattr demo 4 [114] none fun _ => []).2).1 = .ok none := rfl

example : OnlyRequired fun _ => [[([114], requiredAttribute [115]), ([115], .value (some 1))]] := by
  intro i n d h
  unfold find at h
  by_cases h1 : ([114] : Name) = n
  · subst h1; exact ⟨[115], (Option.some.inj h).symm⟩
  · by_cases h2 : ([115] : Name) = n
    · subst h2; cases h
    · simp [List.findSome?, Dict.get?, h1, h2] at h

end Verif.Descriptor
