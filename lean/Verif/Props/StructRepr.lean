import Verif.Model.Structlike
import Mathlib.Tactic.ByContra
import Mathlib.Data.Finset.Card
import Mathlib.Tactic.Linarith
/-!
# C51 — `repr` of records terminates on cyclic data

Specification: the relation `Printed path v r`, "with the records on `path` being printed around it, `v`
prints as `r`", without any mutable state or fuel.
-/
namespace Verif.Structlike
open Verif.Py

/-- How a record prints given its printed fields. -/
def showRecord (o : Obj) (ss : List String) : String :=
  o.cls ++ "(" ++ String.intercalate ", " ((o.fields.zip ss).map fun p => p.1.1 ++ "=" ++ p.2) ++ ")"

/-- The values printed for a record: a missing attribute prints as `None`. -/
def shownFields (o : Obj) : List Value := o.fields.map fun p => p.2.getD (.leaf "None")

theorem shownFields_eq (o : Obj) : (o.fields.map fun p => fieldValue p.2) = shownFields o := by
  unfold shownFields
  congr 1; funext p
  cases p.2 <;> rfl

mutual
/-- `v` prints as `r` inside the records `path` (an exception is a possible outcome). -/
inductive Printed (h : Heap) : List Nat → Value → Except PyErr String → Prop
  | leaf (path s) : Printed h path (.leaf s) (.ok s)
  | bad (path) : Printed h path .bad (.error .valueError)
  | seq (path vs ss) : PrintedL h path vs (.ok ss) →
      Printed h path (.seq vs) (.ok ("[" ++ String.intercalate ", " ss ++ "]"))
  | seqErr (path vs e) : PrintedL h path vs (.error e) → Printed h path (.seq vs) (.error e)
  | dangling (path i) : h[i]? = none → Printed h path (.ref i) (.error .attributeError)
  | cycle (path i o) : h[i]? = some o → i ∈ path → Printed h path (.ref i) (.ok (o.cls ++ "(...)"))
  | record (path i o ss) : h[i]? = some o → i ∉ path →
      PrintedL h (i :: path) (shownFields o) (.ok ss) →
      Printed h path (.ref i) (.ok (showRecord o ss))
  | recordErr (path i o e) : h[i]? = some o → i ∉ path →
      PrintedL h (i :: path) (shownFields o) (.error e) →
      Printed h path (.ref i) (.error e)
inductive PrintedL (h : Heap) : List Nat → List Value → Except PyErr (List String) → Prop
  | nil (path) : PrintedL h path [] (.ok [])
  | cons (path v vs s ss) : Printed h path v (.ok s) → PrintedL h path vs (.ok ss) →
      PrintedL h path (v :: vs) (.ok (s :: ss))
  | headErr (path v vs e) : Printed h path v (.error e) → PrintedL h path (v :: vs) (.error e)
  | tailErr (path v vs s e) : Printed h path v (.ok s) → PrintedL h path vs (.error e) →
      PrintedL h path (v :: vs) (.error e)
end

/-- Whatever the function returns, it is what the relation prescribes, and `active` is restored. -/
theorem repr_sound (h : Heap) : ∀ (f : Nat),
    (∀ act v r act', reprV h f act v = some (r, act') → Printed h act v r ∧ act' = act) ∧
    (∀ act vs r act', reprL h f act vs = some (r, act') → PrintedL h act vs r ∧ act' = act) := by
  intro f
  induction f with
  | zero =>
    constructor
    · intro act v r act' e; simp [reprV] at e
    · intro act v r act' e; simp [reprL] at e
  | succ f ih =>
    obtain ⟨ihV, ihL⟩ := ih
    constructor
    · intro act v r act' e
      cases v with
      | leaf s => simp only [reprV, Option.some.injEq, Prod.mk.injEq] at e; obtain ⟨rfl, rfl⟩ := e
                  exact ⟨.leaf _ _, rfl⟩
      | bad => simp only [reprV, Option.some.injEq, Prod.mk.injEq] at e; obtain ⟨rfl, rfl⟩ := e
               exact ⟨.bad _, rfl⟩
      | seq vs =>
        simp only [reprV] at e
        split at e
        · cases e
        · rename_i e' a' h1
          obtain ⟨h2, h3⟩ := ihL _ _ _ _ h1
          simp only [Option.some.injEq, Prod.mk.injEq] at e; obtain ⟨rfl, rfl⟩ := e
          exact ⟨.seqErr _ _ _ h2, h3⟩
        · rename_i ss a' h1
          obtain ⟨h2, h3⟩ := ihL _ _ _ _ h1
          simp only [Option.some.injEq, Prod.mk.injEq] at e; obtain ⟨rfl, rfl⟩ := e
          exact ⟨.seq _ _ _ h2, h3⟩
      | ref i =>
        simp only [reprV] at e
        split at e
        · rename_i h1
          simp only [Option.some.injEq, Prod.mk.injEq] at e; obtain ⟨rfl, rfl⟩ := e
          exact ⟨.dangling _ _ h1, rfl⟩
        · rename_i o h1
          split at e
          · rename_i h2
            simp only [Option.some.injEq, Prod.mk.injEq] at e; obtain ⟨rfl, rfl⟩ := e
            exact ⟨.cycle _ _ _ h1 h2, rfl⟩
          · rename_i h2
            split at e
            · cases e
            · rename_i e' a' h3
              obtain ⟨h4, h5⟩ := ihL _ _ _ _ h3
              simp only [Option.some.injEq, Prod.mk.injEq] at e; obtain ⟨rfl, rfl⟩ := e
              exact ⟨.recordErr _ _ _ _ h1 h2 (shownFields_eq _ ▸ h4), by subst h5; simp⟩
            · rename_i ss a' h3
              obtain ⟨h4, h5⟩ := ihL _ _ _ _ h3
              simp only [Option.some.injEq, Prod.mk.injEq] at e; obtain ⟨rfl, rfl⟩ := e
              exact ⟨.record _ _ _ _ h1 h2 (shownFields_eq _ ▸ h4), by subst h5; simp⟩
    · intro act vs r act' e
      cases vs with
      | nil => simp only [reprL, Option.some.injEq, Prod.mk.injEq] at e; obtain ⟨rfl, rfl⟩ := e
               exact ⟨.nil _, rfl⟩
      | cons v vs =>
        simp only [reprL] at e
        split at e
        · cases e
        · rename_i e' a' h1
          obtain ⟨h2, h3⟩ := ihV _ _ _ _ h1
          simp only [Option.some.injEq, Prod.mk.injEq] at e; obtain ⟨rfl, rfl⟩ := e
          exact ⟨.headErr _ _ _ _ h2, h3⟩
        · rename_i s a' h1
          obtain ⟨h2, h3⟩ := ihV _ _ _ _ h1
          subst h3
          split at e
          · cases e
          · rename_i e' a'' h4
            obtain ⟨h5, h6⟩ := ihL _ _ _ _ h4
            simp only [Option.some.injEq, Prod.mk.injEq] at e; obtain ⟨rfl, rfl⟩ := e
            exact ⟨.tailErr _ _ _ _ _ h2 h5, h6⟩
          · rename_i ss a'' h4
            obtain ⟨h5, h6⟩ := ihL _ _ _ _ h4
            simp only [Option.some.injEq, Prod.mk.injEq] at e; obtain ⟨rfl, rfl⟩ := e
            exact ⟨.cons _ _ _ _ _ h2 h5, h6⟩

/-- More fuel does not change a result. -/
theorem repr_mono (h : Heap) : ∀ (f : Nat),
    (∀ act v r, reprV h f act v = some r → reprV h (f + 1) act v = some r) ∧
    (∀ act vs r, reprL h f act vs = some r → reprL h (f + 1) act vs = some r) := by
  intro f
  induction f with
  | zero =>
    constructor
    · intro act v r e; simp [reprV] at e
    · intro act v r e; simp [reprL] at e
  | succ f ih =>
    obtain ⟨ihV, ihL⟩ := ih
    constructor
    · intro act v r e
      cases v with
      | leaf s => simpa [reprV] using e
      | bad => simpa [reprV] using e
      | seq vs =>
        rw [reprV] at e ⊢
        cases h1 : reprL h f act vs with
        | none => rw [h1] at e; cases e
        | some q => rw [ihL _ _ _ h1]; rw [h1] at e; exact e
      | ref i =>
        rw [reprV] at e ⊢
        cases hi : h[i]? with
        | none => rw [hi] at e; exact e
        | some o =>
          rw [hi] at e
          simp only at e ⊢
          split at e
          · rename_i h2; rw [if_pos h2]; exact e
          · rename_i h2
            rw [if_neg h2]
            cases h1 : reprL h f (i :: act) (o.fields.map fun p => fieldValue p.2) with
            | none => rw [h1] at e; cases e
            | some q => rw [ihL _ _ _ h1]; rw [h1] at e; exact e
    · intro act vs r e
      cases vs with
      | nil => simpa [reprL] using e
      | cons v vs =>
        rw [reprL] at e ⊢
        cases h1 : reprV h f act v with
        | none => rw [h1] at e; cases e
        | some q =>
          rw [ihV _ _ _ h1]; rw [h1] at e
          obtain ⟨q1, q2⟩ := q
          cases q1 with
          | error e' => exact e
          | ok s =>
            simp only at e ⊢
            cases h2 : reprL h f q2 vs with
            | none => rw [h2] at e; cases e
            | some q' => rw [ihL _ _ _ h2]; rw [h2] at e; exact e

theorem repr_mono_le (h : Heap) {f g : Nat} (hle : f ≤ g) :
    (∀ act v r, reprV h f act v = some r → reprV h g act v = some r) ∧
    (∀ act vs r, reprL h f act vs = some r → reprL h g act vs = some r) := by
  induction hle with
  | refl => exact ⟨fun _ _ _ e => e, fun _ _ _ e => e⟩
  | step _ ih =>
    exact ⟨fun act v r e => (repr_mono h _).1 _ _ _ (ih.1 act v r e),
      fun act v r e => (repr_mono h _).2 _ _ _ (ih.2 act v r e)⟩

/-- Number of records not currently being printed. -/
def inactive (h : Heap) (act : List Nat) : Nat := ((List.range h.length).filter (fun i => decide (i ∉ act))).length

theorem inactive_lt (h : Heap) (act : List Nat) (i : Nat) (hi : i < h.length) (hn : i ∉ act) :
    inactive h (i :: act) < inactive h act := by
  unfold inactive
  have hsub : (List.range h.length).filter (fun j => decide (j ∉ i :: act)) =
      ((List.range h.length).filter (fun j => decide (j ∉ act))).filter (fun j => decide (j ≠ i)) := by
    rw [List.filter_filter]
    apply List.filter_congr
    intro j _
    simp only [List.mem_cons, not_or]
    by_cases h1 : j = i <;> by_cases h2 : j ∈ act <;> simp [h1, h2]
  rw [hsub]
  apply List.length_filter_lt_length_iff_exists.2
  exact ⟨i, by simp [hi, hn], by simp⟩

mutual
/-- Size of a value (its own nesting, not what it refers to). -/
def vsize : Value → Nat
  | .leaf _ => 1
  | .bad => 1
  | .seq vs => 1 + vsizeL vs
  | .ref _ => 1
def vsizeL : List Value → Nat
  | [] => 1
  | v :: vs => 1 + vsize v + vsizeL vs
end

/-- Termination: with enough fuel there is a result. -/
theorem repr_total_aux (h : Heap) : ∀ (n : Nat) (m : Nat),
    (∀ act v, inactive h act ≤ n → vsize v ≤ m → ∃ f, (reprV h f act v).isSome) ∧
    (∀ act vs, inactive h act ≤ n → vsizeL vs ≤ m → ∃ f, (reprL h f act vs).isSome) := by
  intro n
  induction n using Nat.strong_induction_on with
  | _ n ihn =>
    intro m
    induction m with
    | zero =>
      constructor
      · intro act v _ hv; cases v <;> simp [vsize] at hv
      · intro act vs _ hv; cases vs <;> simp [vsizeL] at hv
    | succ m ihm =>
      obtain ⟨ihV, ihL⟩ := ihm
      constructor
      · intro act v hn hv
        cases v with
        | leaf s => exact ⟨1, rfl⟩
        | bad => exact ⟨1, rfl⟩
        | seq vs =>
          simp only [vsize] at hv
          obtain ⟨f, hf⟩ := ihL act vs hn (by omega)
          refine ⟨f + 1, ?_⟩
          simp only [reprV]
          cases h1 : reprL h f act vs with
          | none => rw [h1] at hf; cases hf
          | some q => obtain ⟨q1, q2⟩ := q; cases q1 <;> rfl
        | ref i =>
          cases hi : h[i]? with
          | none => exact ⟨1, by simp [reprV, hi]⟩
          | some o =>
            by_cases hact : i ∈ act
            · exact ⟨1, by simp [reprV, hi, hact]⟩
            · have hil : i < h.length := by
                by_contra hge
                rw [List.getElem?_eq_none_iff.2 (by omega)] at hi; cases hi
              have hlt := inactive_lt h act i hil hact
              obtain ⟨f, hf⟩ := (ihn (inactive h (i :: act)) (by omega)
                (vsizeL (o.fields.map fun p => fieldValue p.2))).2 (i :: act)
                (o.fields.map fun p => fieldValue p.2) (Nat.le_refl _) (Nat.le_refl _)
              refine ⟨f + 1, ?_⟩
              simp only [reprV, hi, if_neg hact]
              cases h1 : reprL h f (i :: act) (o.fields.map fun p => fieldValue p.2) with
              | none => rw [h1] at hf; cases hf
              | some q => obtain ⟨q1, q2⟩ := q; cases q1 <;> rfl
      · intro act vs hn hv
        cases vs with
        | nil => exact ⟨1, rfl⟩
        | cons v vs =>
          simp only [vsizeL] at hv
          obtain ⟨f1, hf1⟩ := ihV act v hn (by omega)
          obtain ⟨f2, hf2⟩ := ihL act vs hn (by omega)
          cases h1 : reprV h f1 act v with
          | none => rw [h1] at hf1; cases hf1
          | some q =>
            obtain ⟨q1, q2⟩ := q
            have hq := ((repr_sound h f1).1 _ _ _ _ h1).2
            subst hq
            cases h2 : reprL h f2 q2 vs with
            | none => rw [h2] at hf2; cases hf2
            | some q' =>
              have h1' := (repr_mono_le h (Nat.le_max_left f1 f2)).1 _ _ _ h1
              have h2' := (repr_mono_le h (Nat.le_max_right f1 f2)).2 _ _ _ h2
              refine ⟨max f1 f2 + 1, ?_⟩
              simp only [reprL, h1']
              cases q1 with
              | error e => rfl
              | ok s =>
                simp only [h2']
                obtain ⟨q1', q2'⟩ := q'
                cases q1' <;> rfl

/-- **C51.** `repr` terminates on every heap — cyclic or not — and returns what the specification
prescribes; afterwards the set of records being printed is exactly what it was before, also when some
attribute's `repr` raised.  Further fuel makes no difference. -/
theorem repr_terminates (h : Heap) (act : List Nat) (v : Value) :
    ∃ f r, Printed h act v r ∧ ∀ g, f ≤ g → reprV h g act v = some (r, act) := by
  obtain ⟨f, hf⟩ := (repr_total_aux h (inactive h act) (vsize v)).1 act v (Nat.le_refl _) (Nat.le_refl _)
  cases h1 : reprV h f act v with
  | none => rw [h1] at hf; cases hf
  | some q =>
    obtain ⟨r, act'⟩ := q
    obtain ⟨h2, h3⟩ := (repr_sound h f).1 _ _ _ _ h1
    subst h3
    exact ⟨f, r, h2, fun g hg => (repr_mono_le h hg).1 _ _ _ h1⟩

mutual
theorem printed_unique (h : Heap) : ∀ {path v r r'}, Printed h path v r → Printed h path v r' → r = r'
  | _, _, _, _, .leaf _ _, h2 => by cases h2; rfl
  | _, _, _, _, .bad _, h2 => by cases h2; rfl
  | _, _, _, _, .seq _ _ ss hl, h2 => by
    cases h2 with
    | seq _ _ ss' hl' => cases printedL_unique h hl hl'; rfl
    | seqErr _ _ e hl' => cases printedL_unique h hl hl'
  | _, _, _, _, .seqErr _ _ e hl, h2 => by
    cases h2 with
    | seq _ _ ss' hl' => cases printedL_unique h hl hl'
    | seqErr _ _ e' hl' => cases printedL_unique h hl hl'; rfl
  | _, _, _, _, .dangling _ _ hn, h2 => by
    cases h2 with
    | dangling _ _ hn' => rfl
    | cycle _ _ o ho _ => rw [hn] at ho; cases ho
    | record _ _ o _ ho _ _ => rw [hn] at ho; cases ho
    | recordErr _ _ o _ ho _ _ => rw [hn] at ho; cases ho
  | _, _, _, _, .cycle _ _ o ho hm, h2 => by
    cases h2 with
    | dangling _ _ hn' => rw [hn'] at ho; cases ho
    | cycle _ _ o' ho' _ => rw [ho] at ho'; cases ho'; rfl
    | record _ _ o' _ ho' hm' _ => exact absurd hm hm'
    | recordErr _ _ o' _ ho' hm' _ => exact absurd hm hm'
  | _, _, _, _, .record _ _ o ss ho hm hl, h2 => by
    cases h2 with
    | dangling _ _ hn' => rw [hn'] at ho; cases ho
    | cycle _ _ o' ho' hm' => exact absurd hm' hm
    | record _ _ o' ss' ho' _ hl' =>
      rw [ho] at ho'; cases ho'
      cases printedL_unique h hl hl'; rfl
    | recordErr _ _ o' e ho' _ hl' =>
      rw [ho] at ho'; cases ho'
      cases printedL_unique h hl hl'
  | _, _, _, _, .recordErr _ _ o e ho hm hl, h2 => by
    cases h2 with
    | dangling _ _ hn' => rw [hn'] at ho; cases ho
    | cycle _ _ o' ho' hm' => exact absurd hm' hm
    | record _ _ o' ss' ho' _ hl' =>
      rw [ho] at ho'; cases ho'
      cases printedL_unique h hl hl'
    | recordErr _ _ o' e ho' _ hl' =>
      rw [ho] at ho'; cases ho'
      cases printedL_unique h hl hl'; rfl
theorem printedL_unique (h : Heap) : ∀ {path vs r r'}, PrintedL h path vs r → PrintedL h path vs r' → r = r'
  | _, _, _, _, .nil _, h2 => by cases h2; rfl
  | _, _, _, _, .cons _ _ _ s ss hv hl, h2 => by
    cases h2 with
    | cons _ _ _ s' ss' hv' hl' =>
      cases printed_unique h hv hv'
      cases printedL_unique h hl hl'; rfl
    | headErr _ _ _ e hv' => cases printed_unique h hv hv'
    | tailErr _ _ _ s' e hv' hl' => cases printedL_unique h hl hl'
  | _, _, _, _, .headErr _ _ _ e hv, h2 => by
    cases h2 with
    | cons _ _ _ s' ss' hv' hl' => cases printed_unique h hv hv'
    | headErr _ _ _ e hv' => cases printed_unique h hv hv'; rfl
    | tailErr _ _ _ s' e hv' hl' => cases printed_unique h hv hv'
  | _, _, _, _, .tailErr _ _ _ s e hv hl, h2 => by
    cases h2 with
    | cons _ _ _ s' ss' hv' hl' => cases printedL_unique h hl hl'
    | headErr _ _ _ e hv' => cases printed_unique h hv hv'
    | tailErr _ _ _ s' e hv' hl' => cases printedL_unique h hl hl'; rfl
end

mutual
/-- The plain printout, with no abbreviation at all. -/
inductive PrintedFull (h : Heap) : Value → String → Prop
  | leaf (s) : PrintedFull h (.leaf s) s
  | seq (vs ss) : PrintedFullL h vs ss → PrintedFull h (.seq vs) ("[" ++ String.intercalate ", " ss ++ "]")
  | record (i o ss) : h[i]? = some o → PrintedFullL h (shownFields o) ss →
      PrintedFull h (.ref i) (showRecord o ss)
inductive PrintedFullL (h : Heap) : List Value → List String → Prop
  | nil : PrintedFullL h [] []
  | cons (v vs s ss) : PrintedFull h v s → PrintedFullL h vs ss → PrintedFullL h (v :: vs) (s :: ss)
end

mutual
/-- Every record mentioned in a value satisfies `P`. -/
def AllRefs (P : Nat → Prop) : Value → Prop
  | .leaf _ => True
  | .bad => True
  | .seq vs => AllRefsL P vs
  | .ref i => P i
def AllRefsL (P : Nat → Prop) : List Value → Prop
  | [] => True
  | v :: vs => AllRefs P v ∧ AllRefsL P vs
end

mutual
theorem printed_acyclic (h : Heap) (rank : Nat → Nat)
    (hr : ∀ i o, h[i]? = some o → AllRefsL (fun j => rank j < rank i) (shownFields o)) :
    ∀ {path v r}, Printed h path v r → ∀ s, r = .ok s →
      AllRefs (fun j => ∀ k ∈ path, rank j < rank k) v → PrintedFull h v s
  | _, _, _, .leaf _ _, s, e, _ => by cases e; exact .leaf _
  | _, _, _, .bad _, s, e, _ => by cases e
  | _, _, _, .seq _ _ ss hl, s, e, ha => by
    cases e
    exact .seq _ _ (printedL_acyclic h rank hr hl ss rfl (by simpa [AllRefs] using ha))
  | _, _, _, .seqErr _ _ _ _, s, e, _ => by cases e
  | _, _, _, .dangling _ _ _, s, e, _ => by cases e
  | _, _, _, .cycle _ i o ho hm, s, e, ha => by
    simp only [AllRefs] at ha
    exact absurd (ha i hm) (by omega)
  | _, _, _, .record path i o ss ho hm hl, s, e, ha => by
    cases e
    simp only [AllRefs] at ha
    refine .record _ _ _ ho (printedL_acyclic h rank hr hl ss rfl ?_)
    have := hr i o ho
    exact allRefsL_mono (fun j hj => by
      intro k hk
      rcases List.mem_cons.1 hk with e | hk
      · subst e; exact hj
      · have := ha k hk; omega) _ this
  | _, _, _, .recordErr _ _ _ _ _ _ _, s, e, _ => by cases e
theorem printedL_acyclic (h : Heap) (rank : Nat → Nat)
    (hr : ∀ i o, h[i]? = some o → AllRefsL (fun j => rank j < rank i) (shownFields o)) :
    ∀ {path vs r}, PrintedL h path vs r → ∀ ss, r = .ok ss →
      AllRefsL (fun j => ∀ k ∈ path, rank j < rank k) vs → PrintedFullL h vs ss
  | _, _, _, .nil _, ss, e, _ => by cases e; exact .nil
  | _, _, _, .cons _ _ _ _ _ hv hl, ss, e, ha => by
    cases e
    simp only [AllRefsL] at ha
    exact .cons _ _ _ _ (printed_acyclic h rank hr hv _ rfl ha.1) (printedL_acyclic h rank hr hl _ rfl ha.2)
  | _, _, _, .headErr _ _ _ _ _, ss, e, _ => by cases e
  | _, _, _, .tailErr _ _ _ _ _ _ _, ss, e, _ => by cases e
theorem allRefs_mono {P Q : Nat → Prop} (hpq : ∀ j, P j → Q j) : ∀ v, AllRefs P v → AllRefs Q v
  | .leaf _, _ => by simp [AllRefs]
  | .bad, _ => by simp [AllRefs]
  | .seq vs, h => by simp only [AllRefs] at *; exact allRefsL_mono hpq vs h
  | .ref i, h => by simp only [AllRefs] at *; exact hpq i h
theorem allRefsL_mono {P Q : Nat → Prop} (hpq : ∀ j, P j → Q j) : ∀ vs, AllRefsL P vs → AllRefsL Q vs
  | [], _ => by simp [AllRefsL]
  | v :: vs, h => by
    simp only [AllRefsL] at *; exact ⟨allRefs_mono hpq v h.1, allRefsL_mono hpq vs h.2⟩
end

mutual
theorem allRefs_trivial : ∀ v, AllRefs (fun _ => True) v
  | .leaf _ => by simp [AllRefs]
  | .bad => by simp [AllRefs]
  | .seq vs => by simp only [AllRefs]; exact allRefsL_trivial vs
  | .ref i => by simp [AllRefs]
theorem allRefsL_trivial : ∀ vs, AllRefsL (fun _ => True) vs
  | [] => by simp [AllRefsL]
  | v :: vs => by simp only [AllRefsL]; exact ⟨allRefs_trivial v, allRefsL_trivial vs⟩
end

/-- **C51.** Acyclic data (some ranking strictly decreases along references) is printed in full. -/
theorem repr_acyclic_full (h : Heap) (rank : Nat → Nat)
    (hr : ∀ i o, h[i]? = some o → AllRefsL (fun j => rank j < rank i) (shownFields o))
    (v : Value) (s : String) (hp : Printed h [] v (.ok s)) : PrintedFull h v s :=
  printed_acyclic h rank hr hp s rfl (allRefs_mono (fun _ _ k hk => by simp at hk) v (allRefs_trivial v))

/-- Non-vacuity: `x = R(a=[x], b=<missing>)` prints `R(a=[R(...)], b=None)`; a shared but acyclic record is
printed in full twice. -/
example : reprV [⟨"R", [("a", some (.seq [.ref 0])), ("b", none)]⟩] 10 [] (.ref 0) =
    some (.ok "R(a=[R(...)], b=None)", []) := by rfl
example : reprV [⟨"R", [("a", some (.leaf "1"))]⟩] 10 [] (.seq [.ref 0, .ref 0]) =
    some (.ok "[R(a=1), R(a=1)]", []) := by rfl

end Verif.Structlike
