import Verif.Lemmas.Modal
/-!
# C52, C53: modal classes

`impl attrs k n` (in the lemmas) is what the source of a class says: the definition of `n` in the mode `k`.
-/
namespace Verif.Modal
open Verif.Py

/-- The class being defined: proper dictionaries, and both required attributes are strings. -/
structure Source (attrs : Dict Name Val) (bases : List Cls) (a i : Name) : Prop where
  dicts : DictsOK attrs
  modeAttribute : inherited nModeAttribute (.mk attrs bases) = .ok (.str a)
  initialMode : inherited nInitialMode (.mk attrs bases) = .ok (.str i)

theorem impl_initial {attrs : Dict Name Val} {bases : List Cls} {a i : Name} (h : Source attrs bases a i) (k n : Name) :
    impl (Dict.set attrs nInitialMode (.str i)) k n = impl attrs k n := by
  unfold impl
  rw [Dict.get?_set]
  by_cases hk : nInitialMode = k
  · subst hk
    rw [if_pos rfl]
    have := h.initialMode
    unfold inherited at this
    cases hg : Dict.get? attrs nInitialMode with
    | none => rfl
    | some v => rw [hg] at this; cases this; rfl
  · rw [if_neg hk]

theorem set_dictsOK {attrs : Dict Name Val} (h : DictsOK attrs) (k s : Name) : DictsOK (Dict.set attrs k (.str s)) := by
  refine ⟨h.1.set _ _, fun q d hm => ?_⟩
  have hg := Dict.get?_of_mem (h.1.set k (.str s)) hm
  rw [Dict.get?_set] at hg
  split at hg
  · cases hg
  · exact h.2 q d (Dict.mem_of_get? hg)

/-- What `ModalType.__new__` makes of a class: a method that some mode defines becomes a `ModalMethod` with exactly those
definitions; everything else stays, and `mode` is the initial mode. -/
theorem modal_class {attrs : Dict Name Val} {bases : List Cls} {a i : Name} (h : Source attrs bases a i) :
    ∃ cls, modalNew attrs bases = .ok cls ∧ ∀ n,
      ((∃ k v, impl attrs k n = some v) → ∃ methods, Dict.get? cls n = some (.modal n methods (.str a)) ∧
        ∀ k, Dict.get? methods k = impl attrs k n) ∧
      ((∀ k, impl attrs k n = none) → Dict.get? cls n =
        if n = nInitialMode then some (.str i) else (Dict.get? attrs n).or (if n = nMode then some (.str i) else none)) := by
  unfold modalNew
  rw [h.modeAttribute, h.initialMode]
  refine ⟨_, rfl, fun n => ?_⟩
  have hd := set_dictsOK h.dicts nInitialMode i
  obtain ⟨f1, f2⟩ := foldl_addMode _ hd [] n
  simp only [impl_initial h] at f1 f2
  rw [foldl_set_get (fun n m => Val.modal n m (.str a)) _ (implementations_wf _)]
  unfold implementations
  refine ⟨fun ⟨k, v, hv⟩ => ?_, fun hn => ?_⟩
  · obtain ⟨m, hm⟩ := Option.isSome_iff_exists.1 (f2.2 (Or.inl ⟨k, by rw [hv]; rfl⟩))
    rw [hm]
    refine ⟨m, rfl, fun k => ?_⟩
    have := f1 k
    rw [hm] at this
    simpa using this
  · have : Dict.get? (List.foldl addMode [] (Dict.set attrs nInitialMode (.str i))) n = none := by
      cases hg : Dict.get? (List.foldl addMode [] (Dict.set attrs nInitialMode (.str i))) n with
      | none => rfl
      | some m =>
        rw [hg] at f2
        rcases f2.1 rfl with ⟨k, hk⟩ | hk
        · rw [hn k] at hk; cases hk
        · cases hk
    rw [this]
    simp only
    rw [foldl_set_get (fun _ v => v) _ hd.1, Dict.get?_set]
    by_cases e : nInitialMode = n
    · rw [if_pos e, if_pos e.symm]
    · rw [if_neg e, if_neg (fun h => e h.symm)]
      cases Dict.get? attrs n with
      | some v => rfl
      | none =>
        unfold Dict.get?
        by_cases e' : nMode = n
        · subst e'; rfl
        · have e'' : ¬ n = nMode := fun h => e' h.symm
          simp [e', e'', Dict.get?]

/-! ## C52 -/

/-- The mode of an instance: the last one assigned, or the initial one. -/
def modeOf (inst : Dict Name Val) (i : Name) : Val := (Dict.get? inst nMode).getD (.str i)

/-- What a modal attribute should be, given the definitions of each mode and the current mode. -/
def dispatch (table : Name → Option Val) (mode : Val) : Except PyErr Got :=
  match mode with
  | .str m =>
    match table m with
    | none => .error .attributeError
    | some f => methodType f
  | _ => .error .attributeError

/-- Reading `n` on any instance that has no attribute of that name of its own dispatches on its mode. -/
def Dispatches (mro : List (Dict Name Val)) (i n : Name) (table : Name → Option Val) : Prop :=
  ∀ inst, Dict.get? inst n = none → getattr mro inst n = dispatch table (modeOf inst i)

theorem dispatches_of_lookup {mro : List (Dict Name Val)} {i n q : Name} {methods : Dict Name Val}
    (hl : lookup mro n = some (.modal q methods (.str nMode))) (hm : lookup mro nMode = some (.str i)) :
    Dispatches mro i n (Dict.get? methods) := by
  intro inst hi
  unfold getattr
  rw [hi, hl]
  simp only [modalGet, currentMode]
  unfold modeOf
  cases hg : Dict.get? inst nMode with
  | none =>
    rw [hm]; rfl
  | some v => cases v <;> rfl

/-- The class keeps to the rules: its mode attribute is `mode`, and it does not define that itself. -/
structure Regular (attrs : Dict Name Val) (bases : List Cls) (i : Name) : Prop extends Source attrs bases nMode i where
  noMode : Dict.get? attrs nMode = none
  noModal : ∀ k, impl attrs k nMode = none

theorem regular_mode {attrs : Dict Name Val} {bases : List Cls} {i : Name} (h : Regular attrs bases i)
    {cls : Dict Name Val} (hc : modalNew attrs bases = .ok cls) (rest : List (Dict Name Val)) :
    lookup (cls :: rest) nMode = some (.str i) := by
  obtain ⟨cls', e, hn⟩ := modal_class h.toSource
  rw [hc] at e; cases e
  have := (hn nMode).2 h.noModal
  rw [if_neg (by decide), h.noMode, if_pos rfl] at this
  unfold lookup
  rw [List.findSome?_cons, this]
  rfl

/-- **C52, partial**: in a class whose mode attribute is `mode`, after any history of assignments, a name that some mode
of the class defines is the definition of the mode assigned last (at first, of the initial mode), bound to the instance;
or `AttributeError` if that mode does not define it.  Missing: other mode attributes (`modal_attribute_fails`) and
definitions for the same name in modes of base classes (`modal_subclass_fails`). -/
theorem modal_dispatch_partial {attrs : Dict Name Val} {bases : List Cls} {i : Name} (h : Regular attrs bases i) :
    ∃ cls, modalNew attrs bases = .ok cls ∧ ∀ rest n, (∃ k v, impl attrs k n = some v) →
      Dispatches (cls :: rest) i n (fun k => impl attrs k n) := by
  obtain ⟨cls, hc, hn⟩ := modal_class h.toSource
  refine ⟨cls, hc, fun rest n hd => ?_⟩
  obtain ⟨methods, hm, ht⟩ := (hn n).1 hd
  have : (fun k => impl attrs k n) = Dict.get? methods := funext fun k => (ht k).symm
  rw [this]
  refine dispatches_of_lookup (q := n) ?_ (regular_mode h hc rest)
  unfold lookup
  rw [List.findSome?_cons, hm]

/-- A subclass that does not redefine the name inherits the dispatch of its base, with its own initial mode. -/
theorem modal_inherited {attrs : Dict Name Val} {bases : List Cls} {i : Name} (h : Regular attrs bases i)
    {rest : List (Dict Name Val)} {n q : Name} {methods : Dict Name Val} (hi : n ≠ nInitialMode) (hm : n ≠ nMode)
    (h1 : ∀ k, impl attrs k n = none) (h2 : Dict.get? attrs n = none)
    (hl : lookup rest n = some (.modal q methods (.str nMode))) :
    ∃ cls, modalNew attrs bases = .ok cls ∧ Dispatches (cls :: rest) i n (Dict.get? methods) := by
  obtain ⟨cls, hc, hn⟩ := modal_class h.toSource
  refine ⟨cls, hc, dispatches_of_lookup (q := q) ?_ (regular_mode h hc rest)⟩
  have := (hn n).2 h1
  rw [if_neg hi, h2, if_neg hm] at this
  unfold lookup at hl ⊢
  rw [List.findSome?_cons, this]
  exact hl

/-- Histories: the mode after any assignments to attributes is the one assigned last; a new instance is in the initial
mode. -/
theorem modeOf_history (asg : List (Name × Val)) (i : Name) :
    modeOf (asg.foldl (fun d m => Dict.set d m.1 m.2) []) i =
      (((asg.filter (·.1 = nMode)).getLast?).map (·.2)).getD (.str i) := by
  unfold modeOf
  rw [foldl_assign]
  cases (asg.filter (·.1 = nMode)).getLast? <;> rfl

theorem initial_mode {attrs : Dict Name Val} {bases : List Cls} {i : Name} (h : Regular attrs bases i) :
    ∃ cls, modalNew attrs bases = .ok cls ∧ ∀ rest, getattr (cls :: rest) [] nMode = .ok (.plain (.str i)) := by
  obtain ⟨cls, hc, _⟩ := modal_class h.toSource
  refine ⟨cls, hc, fun rest => ?_⟩
  unfold getattr
  rw [regular_mode h hc rest]; rfl

/-- Attributes that no mode defines are unaffected. -/
theorem nonmodal_unaffected {attrs : Dict Name Val} {bases : List Cls} {a i : Name} (h : Source attrs bases a i) :
    ∃ cls, modalNew attrs bases = .ok cls ∧ ∀ rest n, n ≠ nMode → n ≠ nInitialMode → (∀ k, impl attrs k n = none) →
      lookup (cls :: rest) n = lookup (attrs :: rest) n := by
  obtain ⟨cls, hc, hn⟩ := modal_class h
  refine ⟨cls, hc, fun rest n h1 h2 h3 => ?_⟩
  have := (hn n).2 h3
  rw [if_neg h2, if_neg h1, Option.or_none] at this
  unfold lookup
  rw [List.findSome?_cons, List.findSome?_cons, this]

/-- Reading an attribute that is not modal: the instance's own value, or the class's, functions bound to the instance. -/
theorem nonmodal_getattr {attrs : Dict Name Val} {bases : List Cls} {a i : Name} (h : Source attrs bases a i) :
    ∃ cls, modalNew attrs bases = .ok cls ∧ ∀ rest n inst, n ≠ nMode → n ≠ nInitialMode → (∀ k, impl attrs k n = none) →
      (∀ v, Dict.get? inst n = some v → getattr (cls :: rest) inst n = .ok (.plain v)) ∧
      (Dict.get? inst n = none →
        (∀ f, lookup (attrs :: rest) n = some (.func f) → getattr (cls :: rest) inst n = .ok (.bound (.func f))) ∧
        (∀ k, lookup (attrs :: rest) n = some (.other k) → getattr (cls :: rest) inst n = .ok (.plain (.other k))) ∧
        (∀ k, lookup (attrs :: rest) n = some (.str k) → getattr (cls :: rest) inst n = .ok (.plain (.str k))) ∧
        (lookup (attrs :: rest) n = none → getattr (cls :: rest) inst n = .error .attributeError)) := by
  obtain ⟨cls, hc, hn⟩ := nonmodal_unaffected h
  refine ⟨cls, hc, fun rest n inst h1 h2 h3 => ⟨fun v hv => ?_, fun hi => ?_⟩⟩
  · unfold getattr; rw [hv]
  · have hl := hn rest n h1 h2 h3
    unfold getattr
    rw [hi, hl]
    refine ⟨fun f e => ?_, fun k e => ?_, fun k e => ?_, fun e => ?_⟩ <;> simp only [e]

mutual
/-- The dictionaries of a class and its bases, depth first, left to right. -/
def preorder : Cls → List (Dict Name Val)
  | .mk attrs bases => attrs :: preorders bases
def preorders : List Cls → List (Dict Name Val)
  | [] => []
  | b :: bs => preorder b ++ preorders bs
end

mutual
/-- The required attributes are looked for in the class and then depth first in its bases. -/
theorem inherited_spec (n : Name) : ∀ c, inherited n c =
    match lookup (preorder c) n with | some v => .ok v | none => .error .typeError
  | .mk attrs bases => by
    rw [inherited, preorder]
    unfold lookup
    rw [List.findSome?_cons]
    cases Dict.get? attrs n with
    | some v => rfl
    | none => exact inheritedFrom_spec n bases
theorem inheritedFrom_spec (n : Name) : ∀ bs, inheritedFrom n bs =
    match lookup (preorders bs) n with | some v => .ok v | none => .error .typeError
  | [] => by rw [inheritedFrom]; rfl
  | b :: bs => by
    rw [inheritedFrom, preorders, inherited_spec n b]
    have := inheritedFrom_spec n bs
    unfold lookup at this ⊢
    rw [List.findSome?_append]
    cases List.findSome? (fun d => Dict.get? d n) (preorder b) with
    | some v => rfl
    | none => simpa using this
end

/-- The class is refused exactly if a required attribute is not to be found in it or its bases. -/
theorem modalNew_error (attrs : Dict Name Val) (bases : List Cls) (e : PyErr) :
    modalNew attrs bases = .error e ↔ inherited nModeAttribute (.mk attrs bases) = .error e ∨
      (∃ v, inherited nModeAttribute (.mk attrs bases) = .ok v) ∧ inherited nInitialMode (.mk attrs bases) = .error e := by
  unfold modalNew
  cases h1 : inherited nModeAttribute (.mk attrs bases) <;> cases h2 : inherited nInitialMode (.mk attrs bases) <;> simp

/-! ### A class with two modes

`alpha` has `one` (1) and `two` (2), `beta` has `two` (3); `four` (4) belongs to no mode. -/

def nAlpha : Name := [97]
def nBeta : Name := [98]
def nOne : Name := [49]
def nTwo : Name := [50]
def nFour : Name := [52]

/-- `Modal` itself (`modal.py:118-134`), before the metaclass; `transitionTo` is 100. -/
def modalAttrs : Dict Name Val := [(nModeAttribute, .str nMode), (nInitialMode, .str nNil),
  (nNil, .modeCls [(nEnter, .func 101), (nExit, .func 102)]), ([116], .func 100)]

def demo : Dict Name Val := [(nModeAttribute, .str nMode), (nInitialMode, .str nAlpha),
  (nAlpha, .modeCls [(nOne, .func 1), (nTwo, .func 2)]), (nBeta, .modeCls [(nTwo, .func 3)]), (nFour, .func 4)]

theorem dictsOK_of {attrs : Dict Name Val} (h : Dict.WF attrs)
    (h' : ∀ p ∈ attrs, match p.2 with | .modeCls d => Dict.WF (κ := Name) d | _ => True) : DictsOK attrs :=
  ⟨h, fun k d hm => h' _ hm⟩

theorem demo_regular : Regular demo [] nAlpha where
  dicts := dictsOK_of (by unfold demo Dict.WF Dict.keys; decide) (by
    intro p hp
    unfold demo at hp
    simp only [List.mem_cons, List.not_mem_nil, or_false] at hp
    rcases hp with rfl | rfl | rfl | rfl | rfl <;> first | trivial | (unfold Dict.WF Dict.keys; decide))
  modeAttribute := rfl
  initialMode := rfl
  noMode := rfl
  noModal k := by
    unfold impl
    by_cases h1 : nModeAttribute = k
    · subst h1; rfl
    by_cases h2 : nInitialMode = k
    · subst h2; rfl
    by_cases h3 : nAlpha = k
    · subst h3; rfl
    by_cases h4 : nBeta = k
    · subst h4; rfl
    by_cases h5 : nFour = k
    · subst h5; rfl
    · simp [demo, Dict.get?, h1, h2, h3, h4, h5]

example : impl demo nAlpha nTwo = some (.func 2) ∧ impl demo nBeta nTwo = some (.func 3) ∧ impl demo nBeta nOne = none :=
  ⟨rfl, rfl, rfl⟩

/-- A subclass that defines the name in one more mode loses the definitions of its base's modes. -/
theorem modal_subclass_fails : ∃ (base sub : Dict Name Val), modalNew demo [] = .ok base ∧
    modalNew [([99], .modeCls [(nTwo, .func 5)])] [.mk base []] = .ok sub ∧
    (∃ f, getattr [base] [] nTwo = .ok (.bound f)) ∧ getattr [sub, base] [] nTwo = .error .attributeError :=
  ⟨_, _, rfl, rfl, ⟨_, rfl⟩, rfl⟩

/-- A class whose mode attribute is not called `mode` cannot dispatch: the metaclass binds the initial mode to `mode`. -/
theorem modal_attribute_fails : ∃ cls, modalNew (Dict.set demo nModeAttribute (.str [115])) [] = .ok cls ∧
    getattr [cls] [] nOne = .error .attributeError ∧ impl demo nAlpha nOne = some (.func 1) :=
  ⟨_, rfl, rfl, rfl⟩

/-- Every mode class has a `__doc__`, so the `__doc__` of the class itself becomes modal and can no longer be read. -/
theorem modal_doc_fails : ∃ cls, modalNew (demo.map fun p => match p with
      | (k, .modeCls d) => (k, .modeCls (d ++ [(nDoc, .other 0)]))
      | p => p) [] = .ok cls ∧ getattr [cls] [] nDoc = .error .typeError :=
  ⟨_, rfl, rfl⟩

/-! ## C53 -/

/-- **C53**: `transitionTo(s)` from the mode `m` runs the `__exit__` of `m`, then changes the mode, then runs the
`__enter__` of `s`, once each and in this order, whatever the functions do; an error ends it there. -/
theorem transition_spec {mro : List (Dict Name Val)} {i : Name} {exit enter : Name → Option Val}
    (hx : Dispatches mro i nExit exit) (hn : Dispatches mro i nEnter enter) (body : Body) (s : Name) (st : St)
    (h1 : Dict.get? st.inst nExit = none) :
    -- no `__exit__`
    ((dispatch exit (modeOf st.inst i) = .error .attributeError) →
      transitionTo mro body s st = (.error .attributeError, st)) ∧
    (∀ m f, modeOf st.inst i = .str m → exit m = some (.func f) →
      -- `__exit__` raises
      (∀ e, (body f st.inst).1 = .error e →
        transitionTo mro body s st = (.error e, ⟨(body f st.inst).2, st.trace ++ [.ran f]⟩)) ∧
      ((body f st.inst).1 = .ok () → Dict.get? (body f st.inst).2 nEnter = none →
        -- no `__enter__`
        (enter s = none → transitionTo mro body s st = (.error .attributeError,
          ⟨Dict.set (body f st.inst).2 nMode (.str s), st.trace ++ [.ran f, .mode s]⟩)) ∧
        -- both
        (∀ g, enter s = some (.func g) → transitionTo mro body s st =
          ((body g (Dict.set (body f st.inst).2 nMode (.str s))).1,
            ⟨(body g (Dict.set (body f st.inst).2 nMode (.str s))).2, st.trace ++ [.ran f, .mode s, .ran g]⟩)))) := by
  have e1 := hx st.inst h1
  refine ⟨fun h => ?_, fun m f hm hf => ?_⟩
  · rw [h] at e1
    unfold transitionTo callAttr
    rw [e1]
  · have e2 : getattr mro st.inst nExit = .ok (.bound (.func f)) := by
      rw [e1, hm]; unfold dispatch; simp only [hf]; rfl
    have e3 : callAttr mro body nExit st = ((body f st.inst).1, ⟨(body f st.inst).2, st.trace ++ [.ran f]⟩) := by
      unfold callAttr; rw [e2]
    refine ⟨fun e he => ?_, fun ho hn' => ?_⟩
    · unfold transitionTo
      rw [e3, he]
    · have h3 : Dict.get? (Dict.set (body f st.inst).2 nMode (.str s)) nEnter = none := by
        rw [Dict.get?_set, if_neg (by decide), hn']
      have e4 := hn _ h3
      have e5 : modeOf (Dict.set (body f st.inst).2 nMode (.str s)) i = .str s := by
        unfold modeOf; rw [Dict.get?_set, if_pos rfl]; rfl
      rw [e5] at e4
      have e6 : transitionTo mro body s st = callAttr mro body nEnter
          ⟨Dict.set (body f st.inst).2 nMode (.str s), st.trace ++ [.ran f] ++ [.mode s]⟩ := by
        unfold transitionTo
        rw [e3, ho]
      refine ⟨fun hg => ?_, fun g hg => ?_⟩
      · have e7 : getattr mro (Dict.set (body f st.inst).2 nMode (.str s)) nEnter = .error .attributeError := by
          rw [e4]; unfold dispatch; simp only [hg]
        rw [e6]
        unfold callAttr
        simp only [e7, List.append_assoc, List.cons_append, List.nil_append]
      · have e7 : getattr mro (Dict.set (body f st.inst).2 nMode (.str s)) nEnter = .ok (.bound (.func g)) := by
          rw [e4]; unfold dispatch; simp only [hg]; rfl
        rw [e6]
        unfold callAttr
        simp only [e7, List.append_assoc, List.cons_append, List.nil_append]

/-- The functions succeed and leave the mode, `__enter__` and `__exit__` of the instance alone. -/
def Quiet (body : Body) : Prop := ∀ f d, (body f d).1 = .ok () ∧ ∀ n, n = nMode ∨ n = nEnter ∨ n = nExit →
  Dict.get? (body f d).2 n = Dict.get? d n

/-- What a sequence of transitions should do. -/
def tour (enter exit : Name → Nat) : Name → List Name → List Ev
  | _, [] => []
  | m, s :: ss => [.ran (exit m), .mode s, .ran (enter s)] ++ tour enter exit s ss

/-- **C53** for sequences of transitions. -/
theorem transitions_spec {mro : List (Dict Name Val)} {i : Name} {exit enter : Name → Option Val}
    (hx : Dispatches mro i nExit exit) (hn : Dispatches mro i nEnter enter) {body : Body} (hq : Quiet body)
    {fx fn : Name → Nat} (ss : List Name) (st : St) (m : Name) (h1 : Dict.get? st.inst nExit = none)
    (h2 : Dict.get? st.inst nEnter = none) (hm : modeOf st.inst i = .str m)
    (hall : ∀ k ∈ m :: ss, exit k = some (.func (fx k)) ∧ enter k = some (.func (fn k))) :
    ∃ inst, transitions mro body ss st = (.ok (), ⟨inst, st.trace ++ tour fn fx m ss⟩) ∧
      modeOf inst i = .str ((m :: ss).getLast (by simp)) ∧
      Dict.get? inst nExit = none ∧ Dict.get? inst nEnter = none := by
  induction ss generalizing st m with
  | nil => exact ⟨st.inst, by simp [transitions, tour], hm, h1, h2⟩
  | cons s ss ih =>
    have q1 := hq (fx m) st.inst
    have t := ((transition_spec hx hn body s st h1).2 m (fx m) hm (hall m (by simp)).1).2 q1.1
      (by rw [q1.2 nEnter (by simp), h2])
    have t := t.2 (fn s) (hall s (by simp)).2
    have q2 := hq (fn s) (Dict.set (body (fx m) st.inst).2 nMode (.str s))
    rw [q2.1] at t
    obtain ⟨inst, e, e1, e2, e3⟩ := ih
      ⟨(body (fn s) (Dict.set (body (fx m) st.inst).2 nMode (.str s))).2,
        st.trace ++ [.ran (fx m), .mode s, .ran (fn s)]⟩ s
      (by simp only; rw [q2.2 nExit (by simp), Dict.get?_set, if_neg (by decide), q1.2 nExit (by simp), h1])
      (by simp only; rw [q2.2 nEnter (by simp), Dict.get?_set, if_neg (by decide), q1.2 nEnter (by simp), h2])
      (by simp only; unfold modeOf; rw [q2.2 nMode (by simp), Dict.get?_set, if_pos rfl]; rfl)
      (fun k hk => hall k (by
        rcases List.mem_cons.1 hk with rfl | hk
        · simp
        · simp [hk]))
    refine ⟨inst, ?_, ?_, e2, e3⟩
    · unfold transitions
      rw [t]
      simp only
      rw [e]
      simp [tour]
    · rw [e1]; rfl

/-- A transition that raises ends the sequence; one that does not goes on with the next. -/
theorem transitions_append (mro : List (Dict Name Val)) (body : Body) (ss : List Name) (s : Name) (rest : List Name) (st : St) :
    (∀ e st', transitions mro body ss st = (.error e, st') → transitions mro body (ss ++ s :: rest) st = (.error e, st')) ∧
    (∀ st', transitions mro body ss st = (.ok (), st') →
      (∀ e st'', transitionTo mro body s st' = (.error e, st'') →
        transitions mro body (ss ++ s :: rest) st = (.error e, st'')) ∧
      (∀ st'', transitionTo mro body s st' = (.ok (), st'') →
        transitions mro body (ss ++ s :: rest) st = transitions mro body rest st'')) := by
  induction ss generalizing st with
  | nil =>
    refine ⟨fun e st' h => (by cases h), fun st' h => ?_⟩
    cases h
    refine ⟨fun e st'' h => ?_, fun st'' h => ?_⟩ <;> rw [List.nil_append, transitions, h]
  | cons t ss ih =>
    rw [List.cons_append, transitions, transitions]
    cases ht : transitionTo mro body t st with
    | mk r st1 =>
      cases r with
      | error e =>
        refine ⟨fun e' st' h => h, fun st' h => ?_⟩
        cases h
      | ok u => exact ih st1

/-- `Modal` itself: its only mode has both; so a subclass whose modes have neither (they inherit the two of `mode`, but
those do not count) can leave `nil` and then fails. -/
example : ∃ cls, modalNew modalAttrs [] = .ok cls ∧
    transitionTo [cls] (fun _ d => (.ok (), d)) nAlpha ⟨[], []⟩ =
      (.error .attributeError, ⟨[(nMode, .str nAlpha)], [.ran 102, .mode nAlpha]⟩) :=
  ⟨_, rfl, rfl⟩

example : Quiet fun _ d => (.ok (), d) := fun _ _ => ⟨rfl, fun _ _ => rfl⟩

end Verif.Modal
