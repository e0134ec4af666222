import Verif.Model.StructlikeContext
import Verif.Props.StructRepr
/-!
# C97 — `repr` finds or makes its recursion guard in the context
-/
namespace Verif.StructlikeContext
open Verif.Py Verif.Structlike

mutual
/-- Specification: the value without its `context.call`s. -/
def plain : CValue → Value
  | .leaf s => .leaf s
  | .bad => .bad
  | .seq vs => .seq (plainL vs)
  | .ref i => .ref i
  | .within _ _ v => plain v
def plainL : List CValue → List Value
  | [] => []
  | v :: vs => plain v :: plainL vs
end

def plainObj (o : CObj) : Obj := ⟨o.cls, o.fields.map fun p => (p.1, p.2.map plain)⟩
def plainHeap (h : CHeap) : Heap := h.map plainObj

theorem plainL_map (vs : List CValue) : plainL vs = vs.map plain := by
  induction vs with
  | nil => rfl
  | cons v vs ih => simp [plainL, ih]

theorem plain_fields (o : CObj) : plainL (o.fields.map fun p => cfieldValue p.2) = shownFields (plainObj o) := by
  rw [plainL_map, shownFields, plainObj]
  simp only [List.map_map]
  apply List.map_congr_left
  rintro ⟨n, v⟩ -
  cases v <;> simp [cfieldValue, plain]

theorem plain_show (o : CObj) (ss : List String) : o.cls ++ "(" ++ String.intercalate ", "
    ((o.fields.zip ss).map fun p => p.1.1 ++ "=" ++ p.2) ++ ")" = showRecord (plainObj o) ss := by
  unfold showRecord plainObj
  simp only
  congr 3
  rw [List.zip_map_left, List.map_map]
  rfl

/-- Specification: the records being printed by the guard in the context. -/
def active (st : CSt) : List Nat :=
  match contextGet st .reprer with
  | some r => st.reprers.getD r []
  | none => []

/-- The guard in the context has been made. -/
def Good (st : CSt) : Prop := ∀ r, contextGet st .reprer = some r → r < st.reprers.length

/-- The context is restored; guards have been made, and are no longer in use, only if there was none. -/
def Kept (st st' : CSt) : Prop :=
  st'.contexts = st.contexts ∧ ∃ n, st'.reprers = st.reprers ++ List.replicate n [] ∧
    ((contextGet st .reprer).isSome → n = 0)

theorem Kept.refl (st : CSt) : Kept st st := ⟨rfl, 0, by simp, fun _ => rfl⟩

theorem Kept.get {st st' : CSt} (h : Kept st st') (k : Key) : contextGet st' k = contextGet st k := by
  unfold contextGet; rw [h.1]

theorem Kept.good {st st' : CSt} (h : Kept st st') (hg : Good st) : Good st' := by
  intro r hr
  rw [h.get] at hr
  obtain ⟨-, n, e, -⟩ := h
  rw [e, List.length_append]
  exact Nat.lt_add_right _ (hg r hr)

theorem Kept.active {st st' : CSt} (h : Kept st st') (hg : Good st) : active st' = active st := by
  unfold StructlikeContext.active
  rw [h.get]
  cases hc : contextGet st .reprer with
  | none => rfl
  | some r =>
    obtain ⟨-, n, e, hn⟩ := h
    rw [e, hn (by simp [hc])]
    simp

theorem Kept.trans {a b c : CSt} (h1 : Kept a b) (h2 : Kept b c) : Kept a c := by
  obtain ⟨k1, n, e1, z1⟩ := h1
  obtain ⟨k2, m, e2, z2⟩ := h2
  refine ⟨k2.trans k1, n + m, ?_, fun hs => ?_⟩
  · rw [e2, e1, List.append_assoc, List.replicate_append_replicate]
  · have : (contextGet b .reprer).isSome := by
      unfold contextGet at hs ⊢; rw [k1]; exact hs
    rw [z1 hs, z2 this]

/-- What `contextualize` does. -/
theorem contextualize_some {α : Type} (f : Nat) (receiver : Nat → Comp α) (st : CSt) (r : Nat)
    (h : contextGet st .reprer = some r) : contextualize (f + 1) receiver st = receiver r st := by
  simp [contextualize, h]

theorem contextualize_none {α : Type} (f : Nat) (receiver : Nat → Comp α) (st : CSt)
    (h : contextGet st .reprer = none) : contextualize (f + 2) receiver st =
      match receiver st.reprers.length
        ⟨Dict.set (st.contexts.headD []) .reprer st.reprers.length :: st.contexts, st.reprers ++ [[]]⟩ with
      | none => none
      | some (x, st') => some (x, { st' with contexts := st'.contexts.tail }) := by
  rw [contextualize, h]
  simp only [contextCall]
  rw [contextualize_some (r := st.reprers.length) (h := by simp [contextGet, Dict.get?_set_same])]
  rfl

theorem recursiveRepr_sound {P : List Nat → Except PyErr String → Prop} {st st' : CSt} {r i : Nat} {cls : String} {thunk : Comp String} {x : Except PyErr String}
    (hr : contextGet st .reprer = some r) (hg : Good st)
    (ht : ∀ s s' y, Good s → thunk s = some (y, s') → Kept s s' ∧ P (active s) y)
    (he : recursiveRepr r i cls thunk st = some (x, st')) :
    st' = st ∧ ((i ∈ active st ∧ x = .ok (cls ++ "(...)")) ∨ (i ∉ active st ∧ P (i :: active st) x)) := by
  have ha : active st = st.reprers.getD r [] := by simp [active, hr]
  have hlt := hg r hr
  unfold recursiveRepr at he
  rw [← ha] at he
  simp only at he
  split at he
  · rename_i hm
    cases he
    exact ⟨rfl, .inl ⟨hm, rfl⟩⟩
  · rename_i hm
    split at he
    · cases he
    · rename_i y s' e
      cases he
      have hr' : contextGet { st with reprers := st.reprers.set r (i :: active st) } .reprer = some r := hr
      have hact : active { st with reprers := st.reprers.set r (i :: active st) } = i :: active st := by
        have e1 : active { st with reprers := st.reprers.set r (i :: active st) } =
          (st.reprers.set r (i :: active st)).getD r [] := by rw [active, hr']
        rw [e1]; simp [hlt]
      obtain ⟨⟨k1, n, k2, k3⟩, k4⟩ := ht _ _ _ (by
        intro r' h'
        rw [hr'] at h'; cases h'
        simpa using hlt) e
      rw [hact] at k4
      have hn := k3 (by rw [hr']; rfl)
      subst hn
      simp only [List.replicate_zero, List.append_nil] at k2
      refine ⟨?_, .inr ⟨hm, k4⟩⟩
      rw [k2]
      obtain ⟨ctx, rs⟩ := st
      obtain ⟨ctx', rs'⟩ := s'
      simp only at k1 k2 ha hlt ⊢
      subst k1
      congr 1
      rw [List.set_set]
      have : (rs.set r (i :: active ⟨ctx', rs⟩)).getD r [] = i :: active ⟨ctx', rs⟩ := by simp [hlt]
      rw [this, List.erase_cons_head, ha]
      simp [List.getD_eq_getElem?_getD, hlt]

/-- Whatever is returned is what the specification prescribes for the records now being printed, and the state is kept. -/
theorem reprC_sound (h : CHeap) : ∀ (f : Nat),
    (∀ st v r st', Good st → reprC h f v st = some (r, st') →
      Kept st st' ∧ Printed (plainHeap h) (active st) (plain v) r) ∧
    (∀ st vs r st', Good st → reprCs h f vs st = some (r, st') →
      Kept st st' ∧ PrintedL (plainHeap h) (active st) (plainL vs) r) := by
  intro f
  induction f with
  | zero => exact ⟨fun _ _ _ _ _ e => by simp [reprC] at e, fun _ _ _ _ _ e => by simp [reprCs] at e⟩
  | succ f ih =>
    obtain ⟨ihV, ihL⟩ := ih
    constructor
    · intro st v r st' hg e
      cases v with
      | leaf s => simp only [reprC, Option.some.injEq, Prod.mk.injEq] at e; obtain ⟨rfl, rfl⟩ := e
                  exact ⟨.refl _, .leaf _ _⟩
      | bad => simp only [reprC, Option.some.injEq, Prod.mk.injEq] at e; obtain ⟨rfl, rfl⟩ := e
               exact ⟨.refl _, .bad _⟩
      | seq vs =>
        simp only [reprC] at e
        split at e
        · cases e
        · rename_i h1
          obtain ⟨h2, h3⟩ := ihL _ _ _ _ hg h1
          cases e
          exact ⟨h2, .seqErr _ _ _ h3⟩
        · rename_i h1
          obtain ⟨h2, h3⟩ := ihL _ _ _ _ hg h1
          cases e
          exact ⟨h2, .seq _ _ _ h3⟩
      | within k x v =>
        simp only [reprC, contextCall] at e
        split at e
        · cases e
        · rename_i y s' h1
          cases e
          have hget : contextGet { st with contexts := Dict.set (st.contexts.headD []) (.other k) x :: st.contexts } .reprer =
              contextGet st .reprer := by
            simp only [contextGet]
            rw [Dict.get?_set_other _ _ _ _ (by simp)]
            cases st.contexts <;> rfl
          have hgood : Good { st with contexts := Dict.set (st.contexts.headD []) (.other k) x :: st.contexts } :=
            fun r hr => hg r (by rw [hget] at hr; exact hr)
          obtain ⟨⟨k1, n, k2, k3⟩, h3⟩ := ihV _ _ _ _ hgood h1
          refine ⟨⟨by rw [k1]; rfl, n, k2, fun hs => k3 (by rw [hget]; exact hs)⟩, ?_⟩
          unfold active at h3 ⊢
          rw [hget] at h3
          exact h3
      | ref i =>
        simp only [reprC] at e
        cases hi : h[i]? with
        | none =>
          rw [hi] at e
          cases e
          exact ⟨.refl _, .dangling _ _ (by simp [plainHeap, hi])⟩
        | some o =>
          rw [hi] at e
          simp only at e
          have hi' : (plainHeap h)[i]? = some (plainObj o) := by simp [plainHeap, hi]
          have hthunk : ∀ s s' (y : Except PyErr String), Good s →
              (match reprCs h f (o.fields.map fun p => cfieldValue p.2) s with
              | none => none
              | some (.error e, st') => some (Except.error e, st')
              | some (.ok ss, st') =>
                some (Except.ok (o.cls ++ "(" ++ String.intercalate ", "
                  ((o.fields.zip ss).map fun p => p.1.1 ++ "=" ++ p.2) ++ ")"), st')) = some (y, s') → Kept s s' ∧
              ((∃ ss, PrintedL (plainHeap h) (active s) (shownFields (plainObj o)) (.ok ss) ∧
                y = .ok (showRecord (plainObj o) ss)) ∨
               ∃ e, PrintedL (plainHeap h) (active s) (shownFields (plainObj o)) (.error e) ∧ y = .error e) := by
            intro s s' y hs e
            split at e
            · cases e
            · rename_i h1
              obtain ⟨h2, h3⟩ := ihL _ _ _ _ hs h1
              cases e
              exact ⟨h2, .inr ⟨_, plain_fields o ▸ h3, rfl⟩⟩
            · rename_i h1
              obtain ⟨h2, h3⟩ := ihL _ _ _ _ hs h1
              cases e
              exact ⟨h2, .inl ⟨_, plain_fields o ▸ h3, by rw [plain_show]⟩⟩
          have hprint : ∀ path (x : Except PyErr String), ((i ∈ path ∧ x = .ok (o.cls ++ "(...)")) ∨ (i ∉ path ∧
              ((∃ ss, PrintedL (plainHeap h) (i :: path) (shownFields (plainObj o)) (.ok ss) ∧
                x = .ok (showRecord (plainObj o) ss)) ∨
               ∃ e, PrintedL (plainHeap h) (i :: path) (shownFields (plainObj o)) (.error e) ∧ x = .error e))) →
              Printed (plainHeap h) path (.ref i) x := by
            rintro path x (⟨hm, rfl⟩ | ⟨hm, ⟨ss, h1, rfl⟩ | ⟨e, h1, rfl⟩⟩)
            · exact .cycle _ _ (plainObj o) hi' hm
            · exact .record _ _ _ _ hi' hm h1
            · exact .recordErr _ _ _ _ hi' hm h1
          cases hc : contextGet st .reprer with
          | some q =>
            rw [contextualize_some 1 _ _ q hc] at e
            obtain ⟨rfl, h2⟩ := recursiveRepr_sound (P := fun path y =>
              ((∃ ss, PrintedL (plainHeap h) path (shownFields (plainObj o)) (.ok ss) ∧
                y = .ok (showRecord (plainObj o) ss)) ∨
               ∃ e, PrintedL (plainHeap h) path (shownFields (plainObj o)) (.error e) ∧ y = .error e)) hc hg hthunk e
            exact ⟨.refl _, hprint _ _ h2⟩
          | none =>
            rw [contextualize_none 0 _ _ hc] at e
            split at e
            · cases e
            · rename_i x s' h1
              cases e
              have hget : contextGet ⟨Dict.set (st.contexts.headD []) Key.reprer st.reprers.length :: st.contexts,
                  st.reprers ++ [[]]⟩ .reprer = some st.reprers.length := by simp [contextGet, Dict.get?_set_same]
              obtain ⟨rfl, h2⟩ := recursiveRepr_sound (P := fun path y =>
                ((∃ ss, PrintedL (plainHeap h) path (shownFields (plainObj o)) (.ok ss) ∧
                  y = .ok (showRecord (plainObj o) ss)) ∨
                 ∃ e, PrintedL (plainHeap h) path (shownFields (plainObj o)) (.error e) ∧ y = .error e)) hget
                (by intro r hr; rw [hget] at hr; cases hr; simp) hthunk h1
              have e1 : active ⟨Dict.set (st.contexts.headD []) Key.reprer st.reprers.length :: st.contexts,
                  st.reprers ++ [[]]⟩ = [] := by rw [active, hget]; simp
              have e2 : active st = [] := by simp [active, hc]
              rw [e1] at h2
              refine ⟨⟨rfl, 1, rfl, by simp [hc]⟩, ?_⟩
              rw [e2]
              exact hprint _ _ h2
    · intro st vs r st' hg e
      cases vs with
      | nil => simp only [reprCs, Option.some.injEq, Prod.mk.injEq] at e; obtain ⟨rfl, rfl⟩ := e
               exact ⟨.refl _, .nil _⟩
      | cons v vs =>
        simp only [reprCs] at e
        split at e
        · cases e
        · rename_i h1
          obtain ⟨h2, h3⟩ := ihV _ _ _ _ hg h1
          cases e
          exact ⟨h2, .headErr _ _ _ _ h3⟩
        · rename_i h1
          obtain ⟨h2, h3⟩ := ihV _ _ _ _ hg h1
          split at e
          · cases e
          · rename_i h4
            obtain ⟨h5, h6⟩ := ihL _ _ _ _ (h2.good hg) h4
            cases e
            exact ⟨h2.trans h5, .tailErr _ _ _ _ _ h3 (h2.active hg ▸ h6)⟩
          · rename_i h4
            obtain ⟨h5, h6⟩ := ihL _ _ _ _ (h2.good hg) h4
            cases e
            exact ⟨h2.trans h5, .cons _ _ _ _ _ h3 (h2.active hg ▸ h6)⟩

/-! ## Termination -/

mutual
/-- Each `context.call` becomes a list of one. -/
def boxed : CValue → Value
  | .leaf s => .leaf s
  | .bad => .bad
  | .seq vs => .seq (boxedL vs)
  | .ref i => .ref i
  | .within _ _ v => .seq [boxed v]
def boxedL : List CValue → List Value
  | [] => []
  | v :: vs => boxed v :: boxedL vs
end

def boxedHeap (h : CHeap) : Heap := h.map fun o => ⟨o.cls, o.fields.map fun p => (p.1, p.2.map boxed)⟩

theorem boxedL_map (vs : List CValue) : boxedL vs = vs.map boxed := by
  induction vs with
  | nil => rfl
  | cons v vs ih => simp [boxedL, ih]

theorem boxed_fields (o : CObj) : ((o.fields.map fun p => (p.1, p.2.map boxed)).map fun p => fieldValue p.2) =
    boxedL (o.fields.map fun p => cfieldValue p.2) := by
  rw [boxedL_map]
  simp only [List.map_map]
  apply List.map_congr_left
  rintro ⟨n, v⟩ -
  cases v <;> simp [cfieldValue, fieldValue, boxed]

/-- The same outcome: both return or both raise. -/
def Like {α β : Type} (x : Except PyErr α) (y : Except PyErr β) : Prop := (∃ a b, x = .ok a ∧ y = .ok b) ∨ ∃ e e', x = .error e ∧ y = .error e'

theorem reprC_ends (h : CHeap) : ∀ (f : Nat),
    (∀ st v x a, Good st → reprV (boxedHeap h) f (active st) (boxed v) = some (x, a) →
      ∃ y st', reprC h f v st = some (y, st') ∧ Like x y) ∧
    (∀ st vs x a, Good st → reprL (boxedHeap h) f (active st) (boxedL vs) = some (x, a) →
      ∃ y st', reprCs h f vs st = some (y, st') ∧ Like x y) := by
  intro f
  induction f with
  | zero => exact ⟨fun _ _ _ _ _ e => by simp [reprV] at e, fun _ _ _ _ _ e => by simp [reprL] at e⟩
  | succ f ih =>
    obtain ⟨ihV, ihL⟩ := ih
    constructor
    · intro st v x a hg e
      cases v with
      | leaf s => simp only [boxed, reprV, Option.some.injEq, Prod.mk.injEq] at e; obtain ⟨rfl, rfl⟩ := e
                  exact ⟨_, _, rfl, .inl ⟨_, _, rfl, rfl⟩⟩
      | bad => simp only [boxed, reprV, Option.some.injEq, Prod.mk.injEq] at e; obtain ⟨rfl, rfl⟩ := e
               exact ⟨_, _, rfl, .inr ⟨_, _, rfl, rfl⟩⟩
      | seq vs =>
        simp only [boxed, reprV] at e
        simp only [reprC]
        split at e
        · cases e
        all_goals
          rename_i h1
          obtain ⟨y, st', h2, h3⟩ := ihL _ _ _ _ hg h1
          cases e
          rw [h2]
          rcases h3 with ⟨_, _, e1, rfl⟩ | ⟨_, _, e1, rfl⟩ <;> cases e1
        · exact ⟨_, _, rfl, .inr ⟨_, _, rfl, rfl⟩⟩
        · exact ⟨_, _, rfl, .inl ⟨_, _, rfl, rfl⟩⟩
      | within k z v =>
        have hget : contextGet { st with contexts := Dict.set (st.contexts.headD []) (.other k) z :: st.contexts } .reprer =
            contextGet st .reprer := by
          simp only [contextGet]
          rw [Dict.get?_set_other _ _ _ _ (by simp)]
          cases st.contexts <;> rfl
        have hgood : Good { st with contexts := Dict.set (st.contexts.headD []) (.other k) z :: st.contexts } :=
          fun r hr => hg r (by rw [hget] at hr; exact hr)
        have hact : active { st with contexts := Dict.set (st.contexts.headD []) (.other k) z :: st.contexts } = active st := by
          unfold active; rw [hget]
        simp only [boxed, reprV] at e
        cases f with
        | zero => simp [reprL] at e
        | succ f =>
          simp only [reprL] at e
          have hv : ∃ x', (∃ a', reprV (boxedHeap h) f (active st) (boxed v) = some (x', a')) ∧ Like x x' := by
            cases hx : reprV (boxedHeap h) f (active st) (boxed v) with
            | none => rw [hx] at e; cases e
            | some q =>
              obtain ⟨x', a'⟩ := q
              rw [hx] at e
              cases x' with
              | error e' => cases e; exact ⟨_, ⟨_, rfl⟩, .inr ⟨_, _, rfl, rfl⟩⟩
              | ok s =>
                cases f with
                | zero => simp [reprL] at e
                | succ f => simp only [reprL] at e; cases e; exact ⟨_, ⟨_, rfl⟩, .inl ⟨_, _, rfl, rfl⟩⟩
          obtain ⟨x', ⟨a', h1⟩, h2⟩ := hv
          have h1 := (repr_mono _ f).1 _ _ _ h1
          rw [← hact] at h1
          obtain ⟨y, st', h3, h4⟩ := ihV _ _ _ _ hgood h1
          refine ⟨y, { st' with contexts := st'.contexts.tail }, ?_, ?_⟩
          · simp only [reprC, contextCall]; rw [h3]
          · rcases h2 with ⟨_, _, rfl, rfl⟩ | ⟨_, _, rfl, rfl⟩ <;> rcases h4 with ⟨_, _, e, rfl⟩ | ⟨_, _, e, rfl⟩ <;> cases e
            · exact .inl ⟨_, _, rfl, rfl⟩
            · exact .inr ⟨_, _, rfl, rfl⟩
      | ref i =>
        simp only [boxed, reprV] at e
        simp only [reprC]
        cases hi : h[i]? with
        | none =>
          have : (boxedHeap h)[i]? = none := by simp [boxedHeap, hi]
          rw [this] at e
          cases e
          exact ⟨_, _, rfl, .inr ⟨_, _, rfl, rfl⟩⟩
        | some o =>
          have : (boxedHeap h)[i]? = some ⟨o.cls, o.fields.map fun p => (p.1, p.2.map boxed)⟩ := by simp [boxedHeap, hi]
          rw [this] at e
          simp only [boxed_fields] at e
          have key : ∀ (s : CSt) (r : Nat), contextGet s .reprer = some r → Good s → active s = active st →
              ∃ y st', recursiveRepr r i o.cls (fun st =>
                match reprCs h f (o.fields.map fun p => cfieldValue p.2) st with
                | none => none
                | some (.error e, st') => some (.error e, st')
                | some (.ok ss, st') =>
                  some (.ok (o.cls ++ "(" ++ String.intercalate ", "
                    ((o.fields.zip ss).map fun p => p.1.1 ++ "=" ++ p.2) ++ ")"), st')) s = some (y, st') ∧ Like x y := by
            intro s r hr hs ha
            have ha' : active s = s.reprers.getD r [] := by simp [active, hr]
            unfold recursiveRepr
            simp only [← ha', ha]
            split at e
            · rename_i hm
              rw [if_pos hm]; cases e
              exact ⟨_, _, rfl, .inl ⟨_, _, rfl, rfl⟩⟩
            · rename_i hm
              rw [if_neg hm]
              have hlt := hs r hr
              have hr' : contextGet { s with reprers := s.reprers.set r (i :: active st) } .reprer = some r := hr
              have hgood : Good { s with reprers := s.reprers.set r (i :: active st) } := by
                intro r' h'; rw [hr'] at h'; cases h'; simpa using hlt
              have hact : active { s with reprers := s.reprers.set r (i :: active st) } = i :: active st := by
                have e1 : active { s with reprers := s.reprers.set r (i :: active st) } =
                  (s.reprers.set r (i :: active st)).getD r [] := by rw [active, hr']
                rw [e1]; simp [hlt]
              rw [← hact] at e
              split at e
              · cases e
              all_goals
                rename_i h1
                obtain ⟨y, st', h2, h3⟩ := ihL _ _ _ _ hgood h1
                cases e
                rw [h2]
                rcases h3 with ⟨_, _, e1, rfl⟩ | ⟨_, _, e1, rfl⟩ <;> cases e1
              · exact ⟨_, _, rfl, .inr ⟨_, _, rfl, rfl⟩⟩
              · exact ⟨_, _, rfl, .inl ⟨_, _, rfl, rfl⟩⟩
          cases hc : contextGet st .reprer with
          | some q =>
            simp only
            rw [contextualize_some 1 _ _ q hc]
            exact key st q hc hg rfl
          | none =>
            simp only
            have hget : contextGet ⟨Dict.set (st.contexts.headD []) Key.reprer st.reprers.length :: st.contexts,
                st.reprers ++ [[]]⟩ .reprer = some st.reprers.length := by simp [contextGet, Dict.get?_set_same]
            obtain ⟨y, st', h1, h2⟩ := key ⟨Dict.set (st.contexts.headD []) Key.reprer st.reprers.length :: st.contexts,
                st.reprers ++ [[]]⟩ _ hget (by intro r hr; rw [hget] at hr; cases hr; simp)
                (by rw [active, hget, active, hc]; simp)
            refine ⟨y, { st' with contexts := st'.contexts.tail }, ?_, h2⟩
            have e2 := contextualize_none 0 (fun r => recursiveRepr r i o.cls (fun st =>
                match reprCs h f (o.fields.map fun p => cfieldValue p.2) st with
                | none => none
                | some (.error e, st') => some (.error e, st')
                | some (.ok ss, st') =>
                  some (.ok (o.cls ++ "(" ++ String.intercalate ", "
                    ((o.fields.zip ss).map fun p => p.1.1 ++ "=" ++ p.2) ++ ")"), st'))) _ hc
            rw [h1] at e2
            exact e2
    · intro st vs x a hg e
      cases vs with
      | nil => simp only [boxedL, reprL, Option.some.injEq, Prod.mk.injEq] at e; obtain ⟨rfl, rfl⟩ := e
               exact ⟨_, _, rfl, .inl ⟨_, _, rfl, rfl⟩⟩
      | cons v vs =>
        simp only [boxedL, reprL] at e
        simp only [reprCs]
        split at e
        · cases e
        · rename_i h1
          obtain ⟨y, st', h2, h3⟩ := ihV _ _ _ _ hg h1
          cases e
          rw [h2]
          rcases h3 with ⟨_, _, e1, rfl⟩ | ⟨_, _, e1, rfl⟩ <;> cases e1
          exact ⟨_, _, rfl, .inr ⟨_, _, rfl, rfl⟩⟩
        · rename_i h1
          obtain ⟨y, st', h2, h3⟩ := ihV _ _ _ _ hg h1
          have hk := ((reprC_sound h f).1 _ _ _ _ hg h2).1
          have := ((repr_sound _ f).1 _ _ _ _ h1).2
          subst this
          rw [h2]
          rcases h3 with ⟨_, _, e1, rfl⟩ | ⟨_, _, e1, rfl⟩ <;> cases e1
          simp only
          rw [← hk.active hg] at e
          split at e
          · cases e
          all_goals
            rename_i h1
            obtain ⟨y, st', h2, h3⟩ := ihL _ _ _ _ (hk.good hg) h1
            cases e
            rw [h2]
            rcases h3 with ⟨_, _, e1, rfl⟩ | ⟨_, _, e1, rfl⟩ <;> cases e1
          · exact ⟨_, _, rfl, .inr ⟨_, _, rfl, rfl⟩⟩
          · exact ⟨_, _, rfl, .inl ⟨_, _, rfl, rfl⟩⟩

/-! ## C97 -/

/-- C97: `repr` ends, whatever the data and the contexts; it prints what the specification of C51 prescribes for the
records being printed by the guard in the context, as if there were no `context.call` in the values; the context is as
before, and so are all the guards there were, whether or not it raises. -/
theorem repr_in_context (h : CHeap) (v : CValue) (st : CSt) (hg : Good st) :
    ∃ r, Printed (plainHeap h) (active st) (plain v) r ∧
      ∃ f, ∀ g, f ≤ g → ∃ st', reprC h g v st = some (r, st') ∧ Kept st st' := by
  obtain ⟨f, x, -, hx⟩ := repr_terminates (boxedHeap h) (active st) (boxed v)
  obtain ⟨r, st', h1, -⟩ := (reprC_ends h f).1 st v x _ hg (hx f (Nat.le_refl _))
  obtain ⟨-, h3⟩ := (reprC_sound h f).1 _ _ _ _ hg h1
  refine ⟨r, h3, f, fun g hle => ?_⟩
  obtain ⟨r', st', h4, -⟩ := (reprC_ends h g).1 st v x _ hg (hx g hle)
  obtain ⟨h5, h6⟩ := (reprC_sound h g).1 _ _ _ _ hg h4
  cases printed_unique _ h6 h3
  exact ⟨st', h4, h5⟩

/-- C97: outside any `repr` the printing starts afresh, whatever was printed before and whether or not it raised: the
second of two `repr`s gives what it would give alone. -/
theorem repr_afresh (h : CHeap) (v w : CValue) (st st' : CSt) (f : Nat) (r : Except PyErr String)
    (hn : contextGet st .reprer = none) (he : reprC h f v st = some (r, st')) :
    contextGet st' .reprer = none ∧ ∃ x, Printed (plainHeap h) [] (plain w) x ∧
      ∃ f, ∀ g, f ≤ g → ∃ st'', reprC h g w st' = some (x, st'') := by
  have hg : Good st := by intro r hr; rw [hn] at hr; cases hr
  have hk := ((reprC_sound h f).1 _ _ _ _ hg he).1
  have hn' : contextGet st' .reprer = none := by rw [hk.get, hn]
  refine ⟨hn', ?_⟩
  obtain ⟨x, h1, f', h2⟩ := repr_in_context h w st' (hk.good hg)
  have e : active st' = [] := by simp [active, hn']
  rw [e] at h1
  exact ⟨x, h1, f', fun g hle => (h2 g hle).imp fun _ q => q.1⟩

/-- Two records that refer to each other, one of them through an object that uses the context. -/
def loop : CHeap :=
  [⟨"A", [("b", some (.within 7 1 (.ref 1)))]⟩, ⟨"B", [("a", some (.ref 0)), ("c", none), ("d", some (.seq [.ref 1]))]⟩]

/-- Printed from outside, and after an exception. -/
example : (reprC loop 20 (.ref 0) ⟨[], []⟩).map (fun p => (p.1.toOption, p.2.contexts.length, p.2.reprers)) =
    some (some "A(b=B(a=A(...), c=None, d=[B(...)]))", 0, [[]]) := by decide +kernel

example : (reprC loop 20 (.seq [.ref 0, .ref 1, .bad]) ⟨[], []⟩).map
    (fun p => (p.1.toOption, p.2.contexts.length, p.2.reprers)) = some (none, 0, [[], []]) := by decide +kernel

/-- Inside the printing of `B`. -/
example : (reprC loop 20 (.ref 0) ⟨[[(.reprer, 0)]], [[1]]⟩).map (fun p => (p.1.toOption, p.2.contexts.length, p.2.reprers)) =
    some (some "A(b=B(...))", 1, [[1]]) := by decide +kernel

end Verif.StructlikeContext
