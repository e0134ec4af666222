import Verif.Model.HotfixInstall
/-!
# C112: what installing hotfixes changes, and that it cures what `require` looks for
-/
namespace Verif.HotfixInstall
open Verif.Py

/-- The modules of the hotfixes were loaded and nothing was installed; no two classes share a dictionary. -/
structure Loaded (h : Heap) : Prop where
  glob : ∀ p, h.glob p = .hot p
  separate : ∀ c c', h.dictOf c = h.dictOf c' → c = c'
  cmp : h.own (.hot .filepath) "__cmp__" = some (.fn .fpCmp)
  clone : h.own (.hot .filepath) "clonePath" = some (.cls (.hot .filepath))
  callLater : h.own (.hot .timeout) "callLater" = some (.fn .callLater)
  init : h.own (.hot .delayed) "__init__" = some (.fn .dcInit)
  write : h.own .hotTransport "write" = some (.fn .write)

/-- The kinds of classes allow the fix. -/
def Can (h : Heap) : Fix → Prop
  | .pair p => h.newStyle (.target p) = false ∧ h.newStyle (.hot p) = false
  | .transport => h.newStyle .transport = false
  | _ => True

instance (h : Heap) (m : Fix) : Decidable (Can h m) := by
  cases m <;> unfold Can <;> infer_instance

/-- Specification: the attribute that is set, by which fix, to what. -/
def touch (c : Cls) (k : String) : Option (Fix × Val) :=
  match c with
  | .hot p => if k = p.key then some (.pair p, .str p.module) else none
  | .waitForDeferred => if k = "getResult" then some (.deferred, .fn .getResult) else none
  | .transport => if k = "write" then some (.transport, .fn .write) else none
  | .clock => if k = "callLater" then some (.clock, .fn .clockCallLater) else none
  | .testCase => if k = "failUnlessWarns" ∨ k = "assertWarns" then some (.warns, .fn .failUnlessWarns) else none
  | _ => none

/-- Specification: the names of modules that are set. -/
def touchMod (x : String × String) : Option (Fix × Val) :=
  if x = ("twisted.internet.defer", "_deferGenerator") then some (.deferred, .fn .deferGenerator)
  else if x = ("twisted.plugin", "pluginPackagePaths") then some (.paths, .fn .pluginPackagePaths)
  else if x = ("twisted.protocols.loopback", "_loopbackAsyncContinue") then some (.loopback, .fn .loopbackContinue)
  else none

def over (F : Fix → Prop) [DecidablePred F] (t : Option (Fix × Val)) (was : Option Val) : Option Val :=
  match t with
  | some (m, v) => if F m then some v else was
  | none => was

/-- Specification: the attribute in the class itself, when the fixes in `F` took effect. A class whose dictionary is replaced has what the
class of the hotfix has. -/
def ownAfter (h : Heap) (F : Fix → Prop) [DecidablePred F] (c : Cls) (k : String) : Option Val :=
  match c with
  | .target p =>
    if F (.pair p) then (if k = p.key then some (.str p.module) else h.own (.hot p) k) else h.own (.target p) k
  | c => over F (touch c k) (h.own c k)

/-- What holds after the fixes in `F` took effect. -/
structure Inv (h0 : Heap) (F : Fix → Prop) [DecidablePred F] (h : Heap) : Prop where
  style : h.newStyle = h0.newStyle
  bases : h.bases = h0.bases
  fnArgs : h.fnArgs = h0.fnArgs
  dictTarget : ∀ p, h.dictOf (.target p) = if F (.pair p) then h0.dictOf (.hot p) else h0.dictOf (.target p)
  dictOf : ∀ c, (∀ p, c ≠ .target p) → h.dictOf c = h0.dictOf c
  glob : ∀ p, h.glob p = if F (.pair p) then .target p else .hot p
  dicts : ∀ c k, Dict.get? (h.dicts (h0.dictOf c)) k = over F (touch c k) (h0.own c k)
  mods : ∀ x, Dict.get? h.mods x = over F (touchMod x) (Dict.get? h0.mods x)
  fnModule : ∀ f, h.fnModule f =
    if F .deferred ∧ (f = .getResult ∨ f = .deferGenerator) then "twisted.internet.defer" else h0.fnModule f

theorem Inv.own {h0 h : Heap} {F : Fix → Prop} [DecidablePred F] (i : Inv h0 F h) (c : Cls) (k : String) :
    h.own c k = ownAfter h0 F c k := by
  unfold Heap.own
  cases c with
  | target p =>
    rw [i.dictTarget]
    by_cases hp : F (.pair p)
    · rw [if_pos hp, i.dicts]
      show over F (if k = p.key then some (.pair p, .str p.module) else none) _ = if F (.pair p) then _ else _
      rw [if_pos hp]
      by_cases hk : k = p.key
      · rw [if_pos hk, if_pos hk]
        show (if F (.pair p) then _ else _) = _
        rw [if_pos hp]
      · rw [if_neg hk, if_neg hk]; rfl
    · rw [if_neg hp, i.dicts]
      show _ = if F (.pair p) then _ else _
      rw [if_neg hp]; rfl
  | _ =>
    rw [i.dictOf _ (by intro p e; cases e), i.dicts]
    rfl

/-- The fixes in `F` and `m`. -/
def With (F : Fix → Prop) (m : Fix) (x : Fix) : Prop := F x ∨ x = m

instance (F : Fix → Prop) [DecidablePred F] (m : Fix) : DecidablePred (With F m) := fun x => by unfold With; infer_instance

theorem With.new (F : Fix → Prop) (m : Fix) : With F m m := Or.inr rfl

/-- When the new fix sets what `t` says it sets. -/
theorem over_with (F : Fix → Prop) [DecidablePred F] (m : Fix) (t : Option (Fix × Val)) (was : Option Val) :
    over (With F m) t was = (match t with
      | some (m', v) => if m' = m then some v else over F t was
      | none => over F t was) := by
  cases t with
  | none => rfl
  | some x =>
    obtain ⟨m', v⟩ := x
    show (if With F m m' then some v else was) = if m' = m then some v else (if F m' then some v else was)
    by_cases h1 : m' = m
    · rw [if_pos (show With F m m' from Or.inr h1), if_pos h1]
    · rw [if_neg h1]
      by_cases h2 : F m'
      · rw [if_pos (show With F m m' from Or.inl h2), if_pos h2]
      · rw [if_neg h2, if_neg (show ¬ With F m m' from fun h => h.elim h2 h1)]

theorem over_same (F : Fix → Prop) [DecidablePred F] (m : Fix) (t : Option (Fix × Val)) (was : Option Val)
    (h : ∀ v, t ≠ some (m, v)) : over (With F m) t was = over F t was := by
  rw [over_with]
  cases t with
  | none => rfl
  | some x =>
    obtain ⟨m', v⟩ := x
    show (if m' = m then some v else _) = _
    rw [if_neg (by intro e; exact h v (by rw [e]))]

/-- The dictionaries after one is set. -/
theorem dicts_put {h0 h : Heap} (hl : Loaded h0) (c : Cls) (hc : h.dictOf c = h0.dictOf d) (k : String) (v : Val) (c' : Cls) (k' : String) :
    Dict.get? ((h.put c k v).dicts (h0.dictOf c')) k' =
      if c' = d ∧ k' = k then some v else Dict.get? (h.dicts (h0.dictOf c')) k' := by
  unfold Heap.put
  simp only [hc]
  by_cases h1 : c' = d
  · subst h1
    rw [if_pos rfl, Dict.get?_set]
    by_cases h2 : k = k'
    · rw [if_pos h2, if_pos ⟨rfl, h2.symm⟩]
    · rw [if_neg h2, if_neg (fun h => h2 h.2.symm)]
  · rw [if_neg (fun h => h1 (hl.separate _ _ h)), if_neg (fun h => h1 h.1)]

theorem pairs_with (F : Fix → Prop) [DecidablePred F] (m : Fix) (hm : ∀ p, m ≠ .pair p) (p : Pair) : With F m (.pair p) ↔ F (.pair p) :=
  ⟨fun h => h.elim id (fun e => absurd e.symm (hm p)), Or.inl⟩

theorem deferred_with (F : Fix → Prop) [DecidablePred F] (m : Fix) (hm : m ≠ .deferred) : With F m .deferred ↔ F .deferred :=
  ⟨fun h => h.elim id (fun e => absurd e.symm hm), Or.inl⟩

/-- A fix that sets attributes `ks` of the class `c` to `v`, and nothing else. -/
theorem step_attr {h0 h h' : Heap} {F : Fix → Prop} [DecidablePred F] (i : Inv h0 F h) (m : Fix)
    (hm : ∀ p, m ≠ .pair p)
    (e1 : h'.newStyle = h.newStyle) (e2 : h'.bases = h.bases) (e3 : h'.fnArgs = h.fnArgs) (e4 : h'.dictOf = h.dictOf)
    (e5 : h'.glob = h.glob)
    (e6 : ∀ f, h'.fnModule f =
      if m = .deferred ∧ (f = .getResult ∨ f = .deferGenerator) then "twisted.internet.defer" else h.fnModule f)
    (e7 : ∀ c k, Dict.get? (h'.dicts (h0.dictOf c)) k = (match touch c k with
      | some (m', v) => if m' = m then some v else Dict.get? (h.dicts (h0.dictOf c)) k
      | none => Dict.get? (h.dicts (h0.dictOf c)) k))
    (e8 : ∀ x, Dict.get? h'.mods x = (match touchMod x with
      | some (m', v) => if m' = m then some v else Dict.get? h.mods x
      | none => Dict.get? h.mods x)) : Inv h0 (With F m) h' := by
  refine ⟨e1.trans i.style, e2.trans i.bases, e3.trans i.fnArgs, fun p => ?_, fun c hc => by rw [e4]; exact i.dictOf c hc, fun p => ?_,
    fun c k => ?_, fun x => ?_, fun f => ?_⟩
  · rw [e4, i.dictTarget]; simp only [pairs_with F m hm]
  · rw [e5, i.glob]; simp only [pairs_with F m hm]
  · rw [e7, over_with]
    cases ht : touch c k with
    | none => have := i.dicts c k; rw [ht] at this; exact this
    | some y => have := i.dicts c k; rw [ht] at this; simp only [this]
  · rw [e8, over_with]
    cases ht : touchMod x with
    | none => have := i.mods x; rw [ht] at this; exact this
    | some y => have := i.mods x; rw [ht] at this; simp only [this]
  · rw [e6, i.fnModule]
    by_cases h1 : m = .deferred
    · subst h1
      by_cases h2 : f = .getResult ∨ f = .deferGenerator
      · rw [if_pos ⟨rfl, h2⟩, if_pos ⟨With.new F _, h2⟩]
      · rw [if_neg (fun h => h2 h.2), if_neg (fun h => h2 h.2), if_neg (fun h => h2 h.2)]
    · rw [if_neg (fun h => h1 h.1)]
      simp only [deferred_with F m h1]

theorem step_pair {h0 h : Heap} (hl : Loaded h0) {F : Fix → Prop} [DecidablePred F] (i : Inv h0 F h) (p : Pair) (hc : Can h0 (.pair p)) :
    ∃ h', install h (.pair p) = .ok h' ∧ Inv h0 (With F (.pair p)) h' := by
  obtain ⟨c1, c2⟩ := hc
  have hg : h.newStyle (h.glob p) = false := by
    rw [i.style, i.glob]
    by_cases hp : F (.pair p)
    · rw [if_pos hp]; exact c1
    · rw [if_neg hp]; exact c2
  have ht : h.newStyle (.target p) = false := by rw [i.style]; exact c1
  have hd : h.dictOf (h.glob p) = h0.dictOf (.hot p) := by
    rw [i.glob]
    by_cases hp : F (.pair p)
    · rw [if_pos hp, i.dictTarget, if_pos hp]
    · rw [if_neg hp, i.dictOf _ (by intro p e; cases e)]
  let h1 : Heap := { h with dictOf := fun x => if x = .target p then h.dictOf (h.glob p) else h.dictOf x }
  have s1 : h.setDict (.target p) (h.glob p) = .ok h1 := by
    unfold Heap.setDict
    rw [ht, hg]; rfl
  have s2 : h1.setItem (.target p) p.key (.str p.module) = .ok (h1.put (.target p) p.key (.str p.module)) := by
    unfold Heap.setItem
    rw [show h1.newStyle (.target p) = false from ht]; rfl
  have hd1 : h1.dictOf (.target p) = h0.dictOf (.hot p) := by
    show (if Cls.target p = Cls.target p then _ else _) = _
    rw [if_pos rfl, hd]
  refine ⟨(h1.put (.target p) p.key (.str p.module)).setGlob p (.target p), ?_, ?_⟩
  · show installPair p h = _
    unfold installPair
    rw [s1]
    show (do let h ← h1.setItem (.target p) p.key (.str p.module); return h.setGlob p (.target p) : Except PyErr Heap) = _
    rw [s2]; rfl
  · refine ⟨i.style, i.bases, i.fnArgs, fun q => ?_, fun c hc => ?_, fun q => ?_, fun c k => ?_, fun x => ?_, fun f => ?_⟩
    · show (if Cls.target q = Cls.target p then h.dictOf (h.glob p) else h.dictOf (.target q)) = _
      by_cases hq : q = p
      · subst hq
        rw [if_pos rfl, if_pos (With.new F _), hd]
      · rw [if_neg (by intro e; cases e; exact hq rfl), i.dictTarget]
        have : With F (.pair p) (.pair q) ↔ F (.pair q) :=
          ⟨fun h => h.elim id (fun e => by cases e; exact absurd rfl hq), Or.inl⟩
        simp only [this]
    · show (if c = Cls.target p then h.dictOf (h.glob p) else h.dictOf c) = _
      rw [if_neg (hc p), i.dictOf c hc]
    · show (if q = p then Cls.target p else h.glob q) = _
      by_cases hq : q = p
      · subst hq
        rw [if_pos rfl, if_pos (With.new F _)]
      · rw [if_neg hq, i.glob]
        have : With F (.pair p) (.pair q) ↔ F (.pair q) :=
          ⟨fun h => h.elim id (fun e => by cases e; exact absurd rfl hq), Or.inl⟩
        simp only [this]
    · show Dict.get? ((h1.put (.target p) p.key (.str p.module)).dicts (h0.dictOf c)) k = _
      rw [dicts_put hl _ hd1]
      by_cases h2 : c = .hot p ∧ k = p.key
      · obtain ⟨rfl, rfl⟩ := h2
        rw [if_pos ⟨rfl, rfl⟩]
        show _ = over _ (if p.key = p.key then _ else _) _
        rw [if_pos rfl]
        show _ = if With F (.pair p) (.pair p) then _ else _
        rw [if_pos (With.new F _)]
      · rw [if_neg h2, over_same]
        · exact i.dicts c k
        · intro v e
          apply h2
          unfold touch at e
          cases c with
          | hot q =>
            simp only at e
            by_cases hk : k = q.key
            · rw [if_pos hk] at e
              simp only [Option.some.injEq, Prod.mk.injEq, Fix.pair.injEq] at e
              obtain ⟨rfl, _⟩ := e
              exact ⟨rfl, hk⟩
            · rw [if_neg hk] at e; cases e
          | target q => cases e
          | other n => cases e
          | hotTransport => cases e
          | _ =>
            simp only at e
            split at e
            · simp at e
            · cases e
    · show Dict.get? h.mods x = _
      rw [over_same, i.mods]
      intro v e
      unfold touchMod at e
      split at e
      · simp at e
      · split at e
        · simp at e
        · split at e
          · simp at e
          · cases e
    · show h.fnModule f = _
      rw [i.fnModule]; simp only [deferred_with F (.pair p) (by intro e; cases e)]

theorem setAttr_plain (h : Heap) (c : Cls) (k : String) (v : Val) :
    (h.setAttr c k v).newStyle = h.newStyle ∧ (h.setAttr c k v).bases = h.bases ∧ (h.setAttr c k v).fnArgs = h.fnArgs ∧
    (h.setAttr c k v).dictOf = h.dictOf ∧ (h.setAttr c k v).glob = h.glob ∧ (h.setAttr c k v).fnModule = h.fnModule ∧
    (h.setAttr c k v).mods = h.mods := ⟨rfl, rfl, rfl, rfl, rfl, rfl, rfl⟩

/-- Setting one attribute, when it is what the fix sets. -/
theorem step_put {h0 h : Heap} (hl : Loaded h0) (m : Fix) (c0 : Cls) (k0 : String) (v0 : Val) (h1 : h.dictOf c0 = h0.dictOf c0)
    (ht : ∀ c k v, touch c k = some (m, v) ↔ c = c0 ∧ k = k0 ∧ v = v0) (c : Cls) (k : String) :
    Dict.get? ((h.put c0 k0 v0).dicts (h0.dictOf c)) k = (match touch c k with
      | some (m', v) => if m' = m then some v else Dict.get? (h.dicts (h0.dictOf c)) k
      | none => Dict.get? (h.dicts (h0.dictOf c)) k) := by
  rw [dicts_put hl c0 h1]
  by_cases h2 : c = c0 ∧ k = k0
  · rw [if_pos h2, (ht c k v0).mpr ⟨h2.1, h2.2, rfl⟩]
    simp
  · rw [if_neg h2]
    cases hk : touch c k with
    | none => rfl
    | some z =>
      obtain ⟨m', v⟩ := z
      show _ = if m' = m then some v else _
      rw [if_neg]
      intro e
      rw [e] at hk
      exact h2 ⟨((ht c k v).mp hk).1, ((ht c k v).mp hk).2.1⟩

theorem touchMod_cases (m : Fix) (hm : m = .clock ∨ m = .warns ∨ m = .transport) (x : String × String) (y : Option Val) :
    (match touchMod x with
      | some (m', v) => if m' = m then some v else y
      | none => y) = y := by
  unfold touchMod
  by_cases h1 : x = ("twisted.internet.defer", "_deferGenerator")
  · rw [if_pos h1]
    rcases hm with rfl | rfl | rfl <;> rfl
  · rw [if_neg h1]
    by_cases h2 : x = ("twisted.plugin", "pluginPackagePaths")
    · rw [if_pos h2]
      rcases hm with rfl | rfl | rfl <;> rfl
    · rw [if_neg h2]
      by_cases h3 : x = ("twisted.protocols.loopback", "_loopbackAsyncContinue")
      · rw [if_pos h3]
        rcases hm with rfl | rfl | rfl <;> rfl
      · rw [if_neg h3]

/-- What `touch` says for one fix. -/
theorem touch_other (m : Fix) (c : Cls) (k : String) (y : Option Val) (h : ∀ v, touch c k ≠ some (m, v)) :
    (match touch c k with
      | some (m', v) => if m' = m then some v else y
      | none => y) = y := by
  cases ht : touch c k with
  | none => rfl
  | some z =>
    obtain ⟨m', v⟩ := z
    show (if m' = m then some v else y) = y
    rw [if_neg]
    intro e
    exact h v (by rw [ht, e])

theorem touch_class {m : Fix} {c : Cls} {k : String} {v : Val} (h : touch c k = some (m, v)) :
    (m = .clock ↔ c = .clock ∧ k = "callLater" ∧ v = .fn .clockCallLater) ∧
    (m = .transport ↔ c = .transport ∧ k = "write" ∧ v = .fn .write) ∧
    (m = .deferred ↔ c = .waitForDeferred ∧ k = "getResult" ∧ v = .fn .getResult) ∧
    (m = .warns ↔ c = .testCase ∧ (k = "failUnlessWarns" ∨ k = "assertWarns") ∧ v = .fn .failUnlessWarns) ∧
    m ≠ .paths ∧ m ≠ .loopback := by
  unfold touch at h
  cases c with
  | target q => cases h
  | other n => cases h
  | hotTransport => cases h
  | _ =>
    simp only at h
    split at h
    · rename_i hk
      simp only [Option.some.injEq, Prod.mk.injEq] at h
      obtain ⟨rfl, rfl⟩ := h
      simp [hk]
    · cases h

theorem touch_clock (c : Cls) (k : String) (v : Val) :
    touch c k = some (.clock, v) ↔ c = .clock ∧ k = "callLater" ∧ v = .fn .clockCallLater := by
  refine ⟨fun h => (touch_class h).1.mp rfl, ?_⟩
  rintro ⟨rfl, rfl, rfl⟩; rfl

theorem touch_transport (c : Cls) (k : String) (v : Val) :
    touch c k = some (.transport, v) ↔ c = .transport ∧ k = "write" ∧ v = .fn .write := by
  refine ⟨fun h => (touch_class h).2.1.mp rfl, ?_⟩
  rintro ⟨rfl, rfl, rfl⟩; rfl

theorem touch_deferred (c : Cls) (k : String) (v : Val) :
    touch c k = some (.deferred, v) ↔ c = .waitForDeferred ∧ k = "getResult" ∧ v = .fn .getResult := by
  refine ⟨fun h => (touch_class h).2.2.1.mp rfl, ?_⟩
  rintro ⟨rfl, rfl, rfl⟩; rfl

theorem mods_set (h : Heap) (a b : String) (v : Val) (x : String × String) :
    Dict.get? (h.setMod a b v).mods x = if x = (a, b) then some v else Dict.get? h.mods x := by
  show Dict.get? (Dict.set h.mods (a, b) v) x = _
  rw [Dict.get?_set]
  by_cases e : (a, b) = x
  · rw [if_pos e, if_pos e.symm]
  · rw [if_neg e, if_neg (Ne.symm e)]

/-- Every fix that the classes allow takes effect, whatever was installed before. -/
theorem step_can {h0 h : Heap} (hl : Loaded h0) {F : Fix → Prop} [DecidablePred F] (i : Inv h0 F h) (m : Fix) (hc : Can h0 m) :
    ∃ h', install h m = .ok h' ∧ Inv h0 (With F m) h' := by
  have nt : ∀ c : Cls, (∀ p, c ≠ .target p) → h.dictOf c = h0.dictOf c := i.dictOf
  cases m with
  | pair p => exact step_pair hl i p hc
  | clock =>
    refine ⟨_, rfl, step_attr i .clock (by intro p e; cases e) rfl rfl rfl rfl rfl (fun f => ?_) ?_ fun x => ?_⟩
    · rw [if_neg (by rintro ⟨e, _⟩; cases e)]; rfl
    · exact step_put hl .clock .clock _ _ (nt _ (by intro p e; cases e)) touch_clock
    · rw [touchMod_cases .clock (Or.inl rfl)]; rfl
  | transport =>
    have hw : h.own .hotTransport "write" = some (.fn .write) := by
      rw [i.own]; exact hl.write
    have hs : h.newStyle .transport = false := by rw [i.style]; exact hc
    refine ⟨h.put .transport "write" (.fn .write), ?_, step_attr i .transport (by intro p e; cases e) rfl rfl rfl rfl rfl (fun f => ?_)
      ?_ fun x => ?_⟩
    · show installTransport h = _
      unfold installTransport
      rw [hw]
      show h.setItem .transport "write" (.fn .write) = _
      unfold Heap.setItem
      rw [hs]; rfl
    · rw [if_neg (by rintro ⟨e, _⟩; cases e)]; rfl
    · exact step_put hl .transport .transport _ _ (nt _ (by intro p e; cases e)) touch_transport
    · rw [touchMod_cases .transport (Or.inr (Or.inr rfl))]; rfl
  | warns =>
    refine ⟨_, rfl, step_attr i .warns (by intro p e; cases e) rfl rfl rfl rfl rfl (fun f => ?_) (fun c k => ?_) fun x => ?_⟩
    · rw [if_neg (by rintro ⟨e, _⟩; cases e)]; rfl
    · show Dict.get? (((h.put .testCase "failUnlessWarns" (.fn .failUnlessWarns)).put .testCase "assertWarns"
        (.fn .failUnlessWarns)).dicts (h0.dictOf c)) k = _
      have hd : h.dictOf .testCase = h0.dictOf .testCase := nt _ (by intro p e; cases e)
      rw [dicts_put (h := h.put .testCase "failUnlessWarns" (.fn .failUnlessWarns)) hl .testCase (d := .testCase) hd,
        dicts_put (h := h) hl .testCase (d := .testCase) hd]
      by_cases h1 : c = .testCase
      · subst h1
        by_cases h2 : k = "failUnlessWarns" ∨ k = "assertWarns"
        · have ht : touch .testCase k = some (.warns, .fn .failUnlessWarns) := by
            show (if k = "failUnlessWarns" ∨ k = "assertWarns" then _ else _) = _
            rw [if_pos h2]
          rw [ht]
          show _ = if Fix.warns = Fix.warns then _ else _
          rw [if_pos rfl]
          rcases h2 with rfl | rfl
          · rw [if_neg (by decide), if_pos ⟨rfl, rfl⟩]
          · rw [if_pos ⟨rfl, rfl⟩]
        · have ht : touch .testCase k = none := by
            show (if k = "failUnlessWarns" ∨ k = "assertWarns" then _ else _) = _
            rw [if_neg h2]
          rw [ht, if_neg (fun h => h2 (Or.inr h.2)), if_neg (fun h => h2 (Or.inl h.2))]
      · rw [if_neg (fun h => h1 h.1), if_neg (fun h => h1 h.1), touch_other]
        intro v e
        exact h1 ((touch_class e).2.2.2.1.mp rfl).1
    · rw [touchMod_cases .warns (Or.inr (Or.inl rfl))]; rfl
  | deferred =>
    refine ⟨_, rfl, step_attr i .deferred (by intro p e; cases e) rfl rfl rfl rfl rfl (fun f => ?_) ?_ fun x => ?_⟩
    · show (if f = .deferGenerator then _ else if f = .getResult then _ else h.fnModule f) = _
      by_cases h1 : f = .deferGenerator
      · rw [if_pos h1, if_pos ⟨rfl, Or.inr h1⟩]
      · rw [if_neg h1]
        by_cases h2 : f = .getResult
        · rw [if_pos h2, if_pos ⟨rfl, Or.inl h2⟩]
        · rw [if_neg h2, if_neg (by rintro ⟨_, e | e⟩; exact h2 e; exact h1 e)]
    · exact step_put (h := h) hl .deferred .waitForDeferred _ _ (nt _ (by intro p e; cases e)) touch_deferred
    · show Dict.get? (h.setMod "twisted.internet.defer" "_deferGenerator" (.fn .deferGenerator)).mods x = _
      rw [mods_set]
      unfold touchMod
      by_cases h1 : x = ("twisted.internet.defer", "_deferGenerator")
      · rw [if_pos h1, if_pos h1]; rfl
      · rw [if_neg h1, if_neg h1]
        by_cases h2 : x = ("twisted.plugin", "pluginPackagePaths")
        · rw [if_pos h2]; rfl
        · rw [if_neg h2]
          by_cases h3 : x = ("twisted.protocols.loopback", "_loopbackAsyncContinue")
          · rw [if_pos h3]; rfl
          · rw [if_neg h3]
  | paths =>
    refine ⟨_, rfl, step_attr i .paths (by intro p e; cases e) rfl rfl rfl rfl rfl (fun f => ?_) (fun c k => ?_) fun x => ?_⟩
    · rw [if_neg (by rintro ⟨e, _⟩; cases e)]; rfl
    · rw [touch_other]; · rfl
      intro v e; exact (touch_class e).2.2.2.2.1 rfl
    · show Dict.get? (h.setMod "twisted.plugin" "pluginPackagePaths" (.fn .pluginPackagePaths)).mods x = _
      rw [mods_set]
      unfold touchMod
      by_cases h1 : x = ("twisted.internet.defer", "_deferGenerator")
      · rw [if_pos h1, if_neg (by rw [h1]; decide)]; rfl
      · rw [if_neg h1]
        by_cases h2 : x = ("twisted.plugin", "pluginPackagePaths")
        · rw [if_pos h2, if_pos h2]; rfl
        · rw [if_neg h2, if_neg h2]
          by_cases h3 : x = ("twisted.protocols.loopback", "_loopbackAsyncContinue")
          · rw [if_pos h3]; rfl
          · rw [if_neg h3]
  | loopback =>
    refine ⟨_, rfl, step_attr i .loopback (by intro p e; cases e) rfl rfl rfl rfl rfl (fun f => ?_) (fun c k => ?_) fun x => ?_⟩
    · rw [if_neg (by rintro ⟨e, _⟩; cases e)]; rfl
    · rw [touch_other]; · rfl
      intro v e; exact (touch_class e).2.2.2.2.2 rfl
    · show Dict.get? (h.setMod "twisted.protocols.loopback" "_loopbackAsyncContinue" (.fn .loopbackContinue)).mods x = _
      rw [mods_set]
      unfold touchMod
      by_cases h1 : x = ("twisted.internet.defer", "_deferGenerator")
      · rw [if_pos h1, if_neg (by rw [h1]; decide)]; rfl
      · rw [if_neg h1]
        by_cases h2 : x = ("twisted.plugin", "pluginPackagePaths")
        · rw [if_pos h2, if_neg (by rw [h2]; decide)]; rfl
        · rw [if_neg h2]
          by_cases h3 : x = ("twisted.protocols.loopback", "_loopbackAsyncContinue")
          · rw [if_pos h3, if_pos h3]; rfl
          · rw [if_neg h3, if_neg h3]

/-- A fix that the classes do not allow raises: `AttributeError` or `TypeError`. -/
theorem step_cannot {h0 h : Heap} (hl : Loaded h0) {F : Fix → Prop} [DecidablePred F] (i : Inv h0 F h)
    (hF : ∀ m, F m → Can h0 m) (m : Fix) (hc : ¬ Can h0 m) :
    install h m = .error (match m with
      | .pair p => if h0.newStyle (.target p) then .attributeError else .typeError
      | _ => .typeError) := by
  cases m with
  | pair p =>
    show installPair p h = .error (if h0.newStyle (.target p) then _ else _)
    have hp : ¬ F (.pair p) := fun h => hc (hF _ h)
    unfold installPair Heap.setDict
    rw [i.style, i.glob, if_neg hp]
    cases h1 : h0.newStyle (.target p) with
    | true => rfl
    | false =>
      cases h2 : h0.newStyle (.hot p) with
      | true => rfl
      | false => exact absurd ⟨h1, h2⟩ hc
  | transport =>
    show installTransport h = _
    unfold installTransport
    have hw : h.own .hotTransport "write" = some (.fn .write) := by
      rw [i.own]; exact hl.write
    rw [hw]
    show h.setItem .transport "write" (.fn .write) = _
    unfold Heap.setItem
    rw [i.style]
    cases h1 : h0.newStyle .transport with
    | true => rfl
    | false => exact absurd h1 hc
  | _ => exact absurd trivial hc

/-- The fixes that took effect: those that were installed and that the classes allow. -/
def Done (h0 : Heap) (ms : List Fix) (m : Fix) : Prop := m ∈ ms ∧ Can h0 m

instance (h0 : Heap) (ms : List Fix) : DecidablePred (Done h0 ms) := fun m => by unfold Done; infer_instance

theorem Inv.congr {h0 h : Heap} {F G : Fix → Prop} [DecidablePred F] [DecidablePred G] (e : ∀ m, F m ↔ G m) (i : Inv h0 F h) : Inv h0 G h := by
  have ho : ∀ t was, over F t was = over G t was := by
    intro t was
    unfold over
    cases t with
    | none => rfl
    | some z => simp only [e]
  refine ⟨i.style, i.bases, i.fnArgs, fun p => ?_, i.dictOf, fun p => ?_, fun c k => ?_, fun x => ?_, fun f => ?_⟩
  · rw [i.dictTarget]; simp only [e]
  · rw [i.glob]; simp only [e]
  · rw [i.dicts, ho]
  · rw [i.mods, ho]
  · rw [i.fnModule]; simp only [e]

theorem run_snoc (h : Heap) (ms : List Fix) (m : Fix) :
    run h (ms ++ [m]) = (match install (run h ms) m with | .ok h' => h' | .error _ => run h ms) := by
  induction ms generalizing h with
  | nil => rfl
  | cons x ms ih => exact ih _

theorem inv_start {h0 : Heap} (hl : Loaded h0) : Inv h0 (Done h0 []) h0 := by
  have no : ∀ m, ¬ Done h0 [] m := fun m h => by cases h.1
  have ho : ∀ t was, over (Done h0 []) t was = was := by
    intro t was
    cases t with
    | none => rfl
    | some z =>
      obtain ⟨m, v⟩ := z
      show (if Done h0 [] m then some v else was) = was
      exact if_neg (no m)
  refine ⟨rfl, rfl, rfl, fun p => by rw [if_neg (no _)], fun _ _ => rfl, fun p => by rw [if_neg (no _)]; exact hl.glob p,
    fun c k => by rw [ho]; rfl, fun x => by rw [ho], fun f => by rw [if_neg (fun h => no _ h.1)]⟩

theorem run_inv {h0 : Heap} (hl : Loaded h0) (ms : List Fix) : Inv h0 (Done h0 ms) (run h0 ms) := by
  have key : ∀ rs : List Fix, Inv h0 (Done h0 rs.reverse) (run h0 rs.reverse) := by
    intro rs
    induction rs with
    | nil => exact inv_start hl
    | cons m rs ih =>
      rw [List.reverse_cons, run_snoc]
      by_cases hc : Can h0 m
      · obtain ⟨h', e, i⟩ := step_can hl ih m hc
        rw [e]
        refine Inv.congr (fun x => ?_) i
        unfold With Done
        constructor
        · rintro (⟨h1, h2⟩ | rfl)
          · exact ⟨List.mem_append_left _ h1, h2⟩
          · exact ⟨List.mem_append_right _ (List.mem_singleton.mpr rfl), hc⟩
        · rintro ⟨h1, h2⟩
          rcases List.mem_append.mp h1 with h1 | h1
          · exact Or.inl ⟨h1, h2⟩
          · exact Or.inr (List.mem_singleton.mp h1)
      · rw [step_cannot hl ih (fun _ h => h.2) m hc]
        refine Inv.congr (fun x => ?_) ih
        unfold Done
        constructor
        · rintro ⟨h1, h2⟩; exact ⟨List.mem_append_left _ h1, h2⟩
        · rintro ⟨h1, h2⟩
          rcases List.mem_append.mp h1 with h1 | h1
          · exact ⟨h1, h2⟩
          · rw [List.mem_singleton] at h1; subst h1; exact absurd h2 hc
  have := key ms.reverse
  rwa [List.reverse_reverse] at this

/-! ## The claims -/

/-- After any sequence of installations, every attribute of every class is what it was, but for those that `ownAfter` names, of the fixes
that were installed and that the kinds of classes allow; the order and repetitions do not matter. -/
theorem installs_exact {h0 : Heap} (hl : Loaded h0) (ms : List Fix) (c : Cls) (k : String) :
    (run h0 ms).own c k = ownAfter h0 (Done h0 ms) c k := (run_inv hl ms).own c k

/-- The names in modules of Twisted, and the `__module__` of functions. -/
theorem installs_modules {h0 : Heap} (hl : Loaded h0) (ms : List Fix) :
    (∀ x, Dict.get? (run h0 ms).mods x = over (Done h0 ms) (touchMod x) (Dict.get? h0.mods x)) ∧
    (∀ f, (run h0 ms).fnModule f =
      if .deferred ∈ ms ∧ (f = .getResult ∨ f = .deferGenerator) then "twisted.internet.defer" else h0.fnModule f) := by
  refine ⟨(run_inv hl ms).mods, fun f => ?_⟩
  rw [(run_inv hl ms).fnModule]
  have : Done h0 ms .deferred ↔ .deferred ∈ ms := ⟨fun h => h.1, fun h => ⟨h, trivial⟩⟩
  simp only [this]

/-- A class that no fix is about keeps its attributes, and so do the attributes that no fix is about. -/
theorem installs_frame {h0 : Heap} (hl : Loaded h0) (ms : List Fix) (c : Cls) (k : String) (hc : ∀ p, c ≠ .target p) (hk : touch c k = none) :
    (run h0 ms).own c k = h0.own c k := by
  rw [installs_exact hl]
  unfold ownAfter
  cases c with
  | target p => exact absurd rfl (hc p)
  | _ => simp only [hk]; rfl

/-- An installation succeeds just when the kinds of classes allow it, and raises `AttributeError` or `TypeError` otherwise, changing
nothing. -/
theorem install_succeeds {h0 : Heap} (hl : Loaded h0) (ms : List Fix) (m : Fix) :
    (Can h0 m ↔ ∃ h', install (run h0 ms) m = .ok h') ∧
    (¬ Can h0 m → run h0 (ms ++ [m]) = run h0 ms ∧
      (install (run h0 ms) m = .error .attributeError ∨ install (run h0 ms) m = .error .typeError)) := by
  have i := run_inv hl ms
  refine ⟨⟨fun h => ?_, fun ⟨h', e⟩ => ?_⟩, fun hc => ?_⟩
  · obtain ⟨h', e, _⟩ := step_can hl i m h
    exact ⟨h', e⟩
  · by_cases hc : Can h0 m
    · exact hc
    · rw [step_cannot hl i (fun _ h => h.2) m hc] at e; cases e
  · have e := step_cannot hl i (fun _ h => h.2) m hc
    refine ⟨by rw [run_snoc, e], ?_⟩
    rw [e]
    cases m with
    | pair p =>
      show Except.error (if h0.newStyle (.target p) then _ else _) = _ ∨ Except.error (if h0.newStyle (.target p) then _ else _) = _
      cases h0.newStyle (.target p)
      · exact Or.inr rfl
      · exact Or.inl rfl
    | _ => exact Or.inr rfl

/-- An attribute of the class itself is found first. -/
theorem attr_own {h : Heap} {c : Cls} {k : String} {v : Val} (e : h.own c k = some v) : h.attr c k = some v := by
  unfold Heap.attr
  rw [List.findSome?_cons, e]

theorem own_target {h0 : Heap} (hl : Loaded h0) {ms : List Fix} {p : Pair} (hm : .pair p ∈ ms) (hc : Can h0 (.pair p)) (k : String)
    (hk : k ≠ p.key) : (run h0 ms).own (.target p) k = h0.own (.hot p) k := by
  rw [installs_exact hl]
  show (if Done h0 ms (.pair p) then (if k = p.key then _ else _) else _) = _
  rw [if_pos ⟨hm, hc⟩, if_neg hk]

theorem own_touch {h0 : Heap} (hl : Loaded h0) {ms : List Fix} {m : Fix} (hm : m ∈ ms) (hc : Can h0 m) {c : Cls} {k : String} {v : Val}
    (h : ∀ p, c ≠ .target p) (ht : touch c k = some (m, v)) : (run h0 ms).own c k = some v := by
  rw [installs_exact hl]
  unfold ownAfter
  cases c with
  | target p => exact absurd rfl (h p)
  | _ =>
    simp only [ht]
    show (if Done h0 ms m then some v else _) = some v
    rw [if_pos ⟨hm, hc⟩]

/-- **Cured**: when a fix other than the two below was installed, and the classes allow it, `require` would not install it any more, then or after
whatever else is installed. The fix of the clock needs calls that take a clock. -/
theorem cured_partial (o : Outside) {h0 : Heap} (hl : Loaded h0) {ms : List Fix} {m : Fix} (hm : m ∈ ms) (hc : Can h0 m)
    (h1 : m ≠ .deferred) (h2 : m ≠ .loopback) (h3 : m = .clock → .pair .delayed ∈ ms ∧ Can h0 (.pair .delayed)) :
    wanted o (run h0 ms) m = .ok false := by
  have i := run_inv hl ms
  have delayed : .pair .delayed ∈ ms → Can h0 (.pair .delayed) →
      (run h0 ms).delayedArgs = .ok ["self", "time", "func", "args", "kw", "cancel", "reset", "seconds"] := by
    intro a b
    unfold Heap.delayedArgs
    rw [attr_own ((own_target hl a b "__init__" (by decide)).trans hl.init)]
    rfl
  cases m with
  | deferred => exact absurd rfl h1
  | loopback => exact absurd rfl h2
  | pair p =>
    cases p with
    | filepath =>
      show Except.ok ((run h0 ms).differ o (.target .filepath)) = .ok false
      unfold Heap.differ
      rw [attr_own ((own_target hl hm hc "__cmp__" (by decide)).trans hl.cmp)]
      have hg : (run h0 ms).glob .filepath = .target .filepath := by
        rw [i.glob, if_pos ⟨hm, hc⟩]
      have : (run h0 ms).fpCmpSame (.target .filepath) = some 0 := by
        unfold Heap.fpCmpSame Heap.isInstance
        rw [hg, if_pos (by simp)]
      simp [this]
    | timeout =>
      show Except.ok ((run h0 ms).attr (.target .timeout) "callLater").isNone = .ok false
      rw [attr_own ((own_target hl hm hc "callLater" (by decide)).trans hl.callLater)]
      rfl
    | delayed =>
      unfold wanted
      simp only [delayed hm hc]
      rfl
  | transport =>
    have := attr_own (own_touch hl hm hc (c := .transport) (k := "write") (by intro p e; cases e) rfl)
    unfold wanted
    simp only [this]
    rfl
  | clock =>
    have := attr_own (own_touch hl hm hc (c := .clock) (k := "callLater") (by intro p e; cases e) rfl)
    show clockIsBroken o (run h0 ms) = .ok false
    unfold clockIsBroken
    simp only [this, delayed (h3 rfl).1 (h3 rfl).2]
    rfl
  | warns =>
    have := attr_own (own_touch hl hm hc (c := .testCase) (k := "failUnlessWarns") (by intro p e; cases e) rfl)
    unfold wanted
    simp only [this]
    rfl
  | paths =>
    unfold wanted
    simp only [i.mods]
    show Except.ok (over (Done h0 ms) (some (.paths, .fn .pluginPackagePaths)) _).isNone = _
    show Except.ok (if Done h0 ms .paths then _ else _ : Option Val).isNone = _
    rw [if_pos ⟨hm, hc⟩]
    rfl

/-- What `require` gives is what was there, or what the installation makes of it; and it installs just when `wanted` says so. -/
theorem require_run (o : Outside) {h0 : Heap} (hl : Loaded h0) (ms : List Fix) (m : Fix) :
    (wanted o (run h0 ms) m = .ok true → Can h0 m → require o (run h0 ms) m = .ok (run h0 (ms ++ [m]))) ∧
    (wanted o (run h0 ms) m = .ok true → ¬ Can h0 m →
      require o (run h0 ms) m = .error .attributeError ∨ require o (run h0 ms) m = .error .typeError) ∧
    (wanted o (run h0 ms) m = .ok false → require o (run h0 ms) m = .ok (run h0 ms)) ∧
    (∀ e, wanted o (run h0 ms) m = .error e → require o (run h0 ms) m = .error e) := by
  unfold require
  refine ⟨fun h hc => ?_, fun h hc => ?_, fun h => by rw [h], fun e h => by rw [h]⟩
  · rw [h]
    obtain ⟨h', e⟩ := (install_succeeds hl ms m).1.mp hc
    show install (run h0 ms) m = _
    rw [run_snoc, e]
  · rw [h]
    exact ((install_succeeds hl ms m).2 hc).2

/-- After `require` has returned, it does not want the fix any more. -/
theorem require_cures_partial (o : Outside) {h0 : Heap} (hl : Loaded h0) (ms : List Fix) (m : Fix) (h' : Heap)
    (h : require o (run h0 ms) m = .ok h') (h1 : m ≠ .deferred) (h2 : m ≠ .loopback)
    (h3 : m = .clock → .pair .delayed ∈ ms ∧ Can h0 (.pair .delayed)) : wanted o h' m = .ok false := by
  obtain ⟨r1, r2, r3, r4⟩ := require_run o hl ms m
  cases hw : wanted o (run h0 ms) m with
  | error e => rw [r4 e hw] at h; cases h
  | ok b =>
    cases b with
    | false =>
      rw [r3 hw] at h
      cases h
      exact hw
    | true =>
      by_cases hc : Can h0 m
      · rw [r1 hw hc] at h
        cases h
        refine cured_partial o hl (List.mem_append_right _ (List.mem_singleton.mpr rfl)) hc h1 h2 fun e => ?_
        exact ⟨List.mem_append_left _ (h3 e).1, (h3 e).2⟩
      · rcases r2 hw hc with he | he <;> (rw [he] at h; cases h)

/-- The fix of generators does not change what `require` looks at: with it installed `require` would always install it again, as in another
process; were it `[None]` that the test leaves, it would not be. -/
theorem deferred_fails (o : Outside) {h0 : Heap} (hl : Loaded h0) {ms : List Fix} (hm : .deferred ∈ ms) :
    wanted o (run h0 ms) .deferred = .ok true := by
  have := attr_own (own_touch hl hm trivial (c := .waitForDeferred) (k := "getResult") (by intro p e; cases e) rfl)
  unfold wanted
  simp only [this]
  rfl

/-- Nor does that of the loopback, which goes by the version: it is wanted before Twisted 8.2. -/
theorem loopback_fails (o : Outside) (h h' : Heap) : wanted o h .loopback = wanted o h' .loopback ∧
    (wanted o h .loopback = .ok true ↔ o.version.1 ≤ 7 ∨ o.version = (8, 0) ∨ o.version = (8, 1)) ∧
    (wanted o h .loopback = .ok false ↔ (o.version.1 = 8 ∧ 2 ≤ o.version.2) ∨ 9 ≤ o.version.1) := by
  refine ⟨rfl, ?_, ?_⟩ <;> unfold wanted <;> simp only [Except.ok.injEq, decide_eq_true_eq, decide_eq_false_iff_not, Prod.ext_iff] <;> omega

/-- The clock's fix, without the one of calls, makes every `callLater` raise `TypeError`, and so `require` in turn. -/
theorem clock_alone_fails (o : Outside) {h0 : Heap} (hl : Loaded h0) {ms : List Fix} (hm : .clock ∈ ms) (as : List String)
    (ha : (run h0 ms).delayedArgs = .ok as) (hs : as.length < 8) : wanted o (run h0 ms) .clock = .error .typeError := by
  have := attr_own (own_touch hl hm trivial (c := .clock) (k := "callLater") (by intro p e; cases e) rfl)
  show clockIsBroken o (run h0 ms) = _
  unfold clockIsBroken
  simp only [this, ha, if_pos hs]

/-- The fixed `TimeoutMixin` says it is of the module of the hotfix, and has an attribute `module`. -/
theorem timeout_module_fails {h0 : Heap} (hl : Loaded h0) {ms : List Fix} (hm : .pair .timeout ∈ ms) (hc : Can h0 (.pair .timeout)) :
    (run h0 ms).own (.target .timeout) "__module__" = h0.own (.hot .timeout) "__module__" ∧
    (run h0 ms).own (.target .timeout) "module" = some (.str "twisted.protocols.policies") := by
  refine ⟨own_target hl hm hc _ (by decide), ?_⟩
  rw [installs_exact hl]
  show (if Done h0 ms (.pair .timeout) then (if "module" = "module" then _ else _) else _) = _
  rw [if_pos ⟨hm, hc⟩, if_pos rfl]
  rfl

theorem module_of {h0 : Heap} (hl : Loaded h0) {ms : List Fix} {p : Pair} (hp : p ≠ .timeout) (hm : .pair p ∈ ms) (hc : Can h0 (.pair p)) :
    (run h0 ms).own (.target p) "__module__" = some (.str p.module) := by
  rw [installs_exact hl]
  show (if Done h0 ms (.pair p) then (if "__module__" = p.key then _ else _) else _) = _
  rw [if_pos ⟨hm, hc⟩, if_pos]
  cases p with
  | timeout => exact absurd rfl hp
  | _ => rfl

/-- The others say the module of Twisted. -/
theorem module_named {h0 : Heap} (hl : Loaded h0) (ms : List Fix) :
    (.pair .filepath ∈ ms → Can h0 (.pair .filepath) →
      (run h0 ms).own (.target .filepath) "__module__" = some (.str "twisted.python.filepath")) ∧
    (.pair .delayed ∈ ms → Can h0 (.pair .delayed) →
      (run h0 ms).own (.target .delayed) "__module__" = some (.str "twisted.internet.base")) :=
  ⟨fun h hc => module_of hl (by intro e; cases e) h hc, fun h hc => module_of hl (by intro e; cases e) h hc⟩

/-- The fix of paths does not cure the children of paths: they are of the class of the hotfix, which is not the one that `__cmp__` looks
for any more, so two children of the same name differ; before the fix is installed, they do not. -/
theorem children_differ_fails (o : Outside) {h0 : Heap} (hl : Loaded h0) {ms : List Fix} (hm : .pair .filepath ∈ ms)
    (hc : Can h0 (.pair .filepath)) (hb : Cls.target .filepath ∉ h0.bases (.hot .filepath)) :
    (run h0 ms).cloneClass (.target .filepath) = some (.hot .filepath) ∧
    (run h0 ms).differ o (.hot .filepath) = true ∧ h0.differ o (.hot .filepath) = false := by
  have i := run_inv hl ms
  have hg : (run h0 ms).glob .filepath = .target .filepath := by rw [i.glob, if_pos ⟨hm, hc⟩]
  refine ⟨?_, ?_, ?_⟩
  · unfold Heap.cloneClass
    rw [attr_own ((own_target hl hm hc "clonePath" (by decide)).trans hl.clone)]
  · have ho : (run h0 ms).own (.hot .filepath) "__cmp__" = some (.fn .fpCmp) := by
      rw [installs_frame hl ms (.hot .filepath) "__cmp__" (by intro p e; cases e) rfl]; exact hl.cmp
    have hn : (run h0 ms).fpCmpSame (.hot .filepath) = none := by
      unfold Heap.fpCmpSame Heap.isInstance
      rw [hg, i.bases, if_neg]
      simp [hb]
    unfold Heap.differ
    rw [attr_own ho]
    simp [hn]
  · have hs : h0.fpCmpSame (.hot .filepath) = some 0 := by
      unfold Heap.fpCmpSame Heap.isInstance
      rw [hl.glob, if_pos (by simp)]
    unfold Heap.differ
    rw [attr_own hl.cmp]
    simp [hs]

/-- Twisted with old-style classes that have none of what the fixes bring; `new` makes its classes new-style. -/
def sampleDict : Cls → Nat × Dict String Val
  | .target .filepath => (0, [("path", .other 0)])
  | .target .timeout => (1, [])
  | .target .delayed => (2, [("__init__", .fn (.other 0))])
  | .hot .filepath => (3, [("__cmp__", .fn .fpCmp), ("clonePath", .cls (.hot .filepath))])
  | .hot .timeout => (4, [("__module__", .str "epsilon.hotfixes.timeoutmixin_calllater"), ("callLater", .fn .callLater)])
  | .hot .delayed => (5, [("__init__", .fn .dcInit)])
  | .waitForDeferred => (6, [("getResult", .fn (.other 1))])
  | .transport => (7, [("write", .fn (.other 2))])
  | .hotTransport => (8, [("write", .fn .write)])
  | .clock => (9, [("callLater", .fn (.other 3))])
  | .testCase => (10, [])
  | .other n => (11 + n, [])

def sample (new : Bool) : Heap where
  newStyle c := new && (c = .target .timeout || c = .transport)
  bases _ := []
  dictOf c := (sampleDict c).1
  dicts d :=
    match d with
    | 0 => (sampleDict (.target .filepath)).2
    | 2 => (sampleDict (.target .delayed)).2
    | 3 => (sampleDict (.hot .filepath)).2
    | 4 => (sampleDict (.hot .timeout)).2
    | 5 => (sampleDict (.hot .delayed)).2
    | 6 => (sampleDict .waitForDeferred).2
    | 7 => (sampleDict .transport).2
    | 8 => (sampleDict .hotTransport).2
    | 9 => (sampleDict .clock).2
    | _ => []
  glob p := .hot p
  mods := []
  fnModule _ := ""
  fnArgs _ := ["self", "time"]

theorem sample_loaded (new : Bool) : Loaded (sample new) := by
  refine ⟨fun _ => rfl, fun c c' h => ?_, rfl, rfl, rfl, rfl, rfl⟩
  have h' : (sampleDict c).1 = (sampleDict c').1 := h
  rcases c with p | p | _ | _ | _ | _ | _ | n <;> rcases c' with q | q | _ | _ | _ | _ | _ | k <;> (try cases p) <;> (try cases q) <;>
    simp [sampleDict] at h' ⊢ <;> omega

def sampleOutside : Outside := ⟨fun _ => true, .ok [some 1], .ok (), true, (8, 1)⟩

/-- The mixin and the transport of new-style classes are not cured: the fix raises. -/
theorem new_style_fails : ∃ h0, Loaded h0 ∧
    wanted sampleOutside h0 (.pair .timeout) = .ok true ∧
    (match require sampleOutside h0 (.pair .timeout) with | .error e => some e | .ok _ => none) = some .attributeError ∧
    wanted sampleOutside h0 .transport = .ok true ∧
    (match require sampleOutside h0 .transport with | .error e => some e | .ok _ => none) = some .typeError :=
  ⟨sample true, sample_loaded true, rfl, rfl, rfl, rfl⟩

/-- With old-style classes everything that is asked for is missing, and the fixes bring it. -/
example : Loaded (sample false) ∧ (∀ m, Can (sample false) m) ∧ (∀ p, wanted sampleOutside (sample false) (.pair p) = .ok true) ∧
    wanted sampleOutside (sample false) .clock = .ok true ∧
    wanted sampleOutside (run (sample false) [.clock, .pair .delayed]) .clock = .ok false ∧
    wanted sampleOutside (run (sample false) [.clock]) .clock = .error .typeError := by
  refine ⟨sample_loaded false, fun m => ?_, fun p => ?_, rfl, rfl, rfl⟩
  · cases m with
    | pair p => exact ⟨rfl, rfl⟩
    | transport => rfl
    | _ => trivial
  · cases p <;> rfl

end Verif.HotfixInstall
