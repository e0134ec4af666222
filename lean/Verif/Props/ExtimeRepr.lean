import Verif.Model.ExtimeRepr
import Verif.Lemmas.Extime
/-!
# Representation and order of Times: C116
-/
namespace Verif.Extime
open Verif.Py

/-! ## What the expression means -/

/-- The text. -/
def codes (s : String) : List Nat := s.toList.map Char.toNat

/-- A decimal numeral as Python reads it in an expression: digits, without superfluous zeros in front. -/
def numeral (s : List Nat) : Option Nat :=
  if s ≠ [] ∧ s.all isDigit ∧ (s.head? = some 48 → s = [48]) then some (digitsVal s) else none

/-- Calling `datetime.datetime` with some numbers. -/
def construct : List Nat → Option DT
  | y :: m :: d :: l =>
    let t : DT := ⟨y, m, d, l.getD 0 0, l.getD 1 0, l.getD 2 0, l.getD 3 0⟩
    if l.length ≤ 4 ∧ t.Valid then some t else none
  | _ => none

/-- The value of an expression `extime.Time.fromDatetime(datetime.datetime(n, …, n))`. -/
inductive Evaluates : List Nat → Time → Prop where
  | intro (texts : List (List Nat)) (ns : List Nat) (t : DT) (x : Time)
    (hn : List.Forall₂ (fun s n => numeral s = some n) texts ns) (ht : construct ns = some t) (hx : fromDatetime ⟨t, none⟩ = .ok x) :
    Evaluates (codes "extime.Time.fromDatetime(datetime.datetime(" ++ joinSep (codes ", ") texts ++ codes "))") x

theorem digitsAux_head (fuel n : Nat) (h : n ≤ fuel) : (digitsAux 10 fuel n).head? ≠ some 0 := by
  induction fuel generalizing n with
  | zero => simp [digitsAux]
  | succ fuel ih =>
    unfold digitsAux
    split
    · simp
    · rename_i hn
      have := ih (n / 10) (by omega)
      rw [List.head?_append]
      cases hd : (digitsAux 10 fuel (n / 10)).head? with
      | some d => rw [hd] at this; simpa using this
      | none =>
        have he : digitsAux 10 fuel (n / 10) = [] := by simpa using hd
        have h0 := ofDigits_digitsAux 10 (by omega) fuel (n / 10) (by omega)
        rw [he] at h0
        simp [ofDigits] at h0
        simp; omega

theorem numeral_natStr_repr (n : Nat) : numeral (natStr n) = some n := by
  unfold numeral
  rw [if_pos, digitsVal_natStr]
  refine ⟨natStr_ne_nil n, List.all_eq_true.2 (natStr_isDigit n), ?_⟩
  intro h
  unfold natStr digits at h ⊢
  split
  · rfl
  · rename_i hn
    rw [if_neg hn, List.head?_map] at h
    have hh := digitsAux_head n n (Nat.le_refl n)
    cases hd : (digitsAux 10 n n).head? with
    | none => rw [hd] at h; cases h
    | some d =>
      rw [hd] at h hh
      simp only [Option.map_some, Option.some.injEq, digitChar] at h
      have : d = 0 := by split at h <;> omega
      subst this
      exact absurd rfl hh

theorem numeral_noSep {s : List Nat} {n : Nat} (h : numeral s = some n) : ¬ codes ", " <:+: s := by
  unfold numeral at h
  split at h
  · rename_i hs
    intro hi
    have : (44 : Nat) ∈ s := hi.subset (by decide)
    have := List.all_eq_true.1 hs.2.1 44 this
    revert this; decide
  · cases h

theorem numerals_natStr (ns : List Nat) : List.Forall₂ (fun s n => numeral s = some n) (ns.map natStr) ns := by
  induction ns with
  | nil => exact .nil
  | cons n ns ih => exact .cons (numeral_natStr_repr n) ih

theorem construct_args (t : DT) (ht : t.Valid) : construct (reprArgs t) = some t := by
  obtain ⟨y, m, d, h, mi, s, us⟩ := t
  unfold reprArgs
  dsimp only
  split
  · rename_i h0; subst h0
    split
    · rename_i h1; subst h1
      simp [construct, ht]
    · simp [construct, ht]
  · simp [construct, ht]

/-- The values of an expression of this form are those of its numerals. -/
theorem evaluates_unique {texts texts' : List (List Nat)} (h0 : texts ≠ []) (h0' : texts' ≠ [])
    (h : ∀ s ∈ texts, ¬ codes ", " <:+: s) (h' : ∀ s ∈ texts', ¬ codes ", " <:+: s)
    (he : codes "extime.Time.fromDatetime(datetime.datetime(" ++ joinSep (codes ", ") texts ++ codes "))" =
      codes "extime.Time.fromDatetime(datetime.datetime(" ++ joinSep (codes ", ") texts' ++ codes "))") : texts = texts' := by
  rw [List.append_assoc, List.append_assoc] at he
  have := List.append_cancel_right (List.append_cancel_left he)
  rw [← splitSep_joinSep (codes ", ") (by decide) (by decide) texts h0 h, this,
    splitSep_joinSep (codes ", ") (by decide) (by decide) texts' h0' h']

theorem repr_eq (x : Time) : repr x =
    codes "extime.Time.fromDatetime(datetime.datetime(" ++ joinSep (codes ", ") ((reprArgs x.t).map natStr) ++ codes "))" := by
  have h1 : codes "extime.Time.fromDatetime(datetime.datetime(" = fromDatetimeOpen ++ datetimeOpen := by decide
  have h2 : codes "))" = [41] ++ [41] := by decide
  have h3 : codes ", " = [44, 32] := by decide
  rw [h1, h2, h3]
  unfold repr reprDatetime
  simp only [List.append_assoc]

/-! ## C116 -/

/-- **C116**: evaluating the representation gives the same instant with the finest resolution, and nothing else. -/
theorem repr_evaluates (x y : Time) (hx : x.t.Valid) : Evaluates (repr x) y ↔ y = ⟨x.t, 1⟩ := by
  constructor
  · intro h
    generalize hr : repr x = r at h
    cases h with
    | intro texts ns t y hn ht hy =>
      have hne : ∀ s ∈ texts, ¬ codes ", " <:+: s := by
        clear hr ht
        induction hn with
        | nil => intro s hs; cases hs
        | cons h _ ih =>
          intro s hs
          rcases List.mem_cons.1 hs with rfl | hs
          · exact numeral_noSep h
          · exact ih s hs
      have h0 : texts ≠ [] := by
        intro e; subst e
        cases hn
        cases ht
      rw [repr_eq] at hr
      have := evaluates_unique (by simp [reprArgs]) h0 (by
        intro s hs
        obtain ⟨n, -, rfl⟩ := List.mem_map.1 hs
        exact numeral_noSep (numeral_natStr_repr n)) hne hr
      subst this
      have hns : ns = reprArgs x.t := by
        have := numerals_natStr (reprArgs x.t)
        clear hr hne h0 ht
        generalize (reprArgs x.t).map natStr = l at this hn
        generalize reprArgs x.t = l' at this
        induction this generalizing ns with
        | nil => cases hn; rfl
        | cons h _ ih =>
          cases hn with
          | cons k1 k2 =>
            rw [h] at k1; cases k1
            rw [ih _ k2]
      rw [hns, construct_args x.t hx] at ht
      cases ht
      cases hy
      rfl
  · rintro rfl
    rw [repr_eq]
    exact .intro _ _ _ _ (numerals_natStr _) (construct_args x.t hx) rfl

/-- **C116**: representations are equal just for equal times. -/
theorem repr_inj (x y : Time) (hx : x.t.Valid) (hy : y.t.Valid) :
    (repr x = repr y ↔ x.t = y.t) ∧ (repr x = repr y ↔ eq x (some y) = true) := by
  have h : repr x = repr y ↔ x.t = y.t := by
    constructor
    · intro h
      have h1 := (repr_evaluates x ⟨x.t, 1⟩ hx).2 rfl
      rw [h] at h1
      have h2 := (repr_evaluates y _ hy).1 h1
      exact (Time.mk.inj h2).1
    · intro h; unfold repr; rw [h]
  refine ⟨h, h.trans ?_⟩
  unfold eq
  simp only [beq_iff_eq]
  rw [dtCmp_zero hx hy]
  exact ⟨fun e => by rw [e], fun e => DT.toUs_inj hx hy e⟩

/-- The representation does not tell the resolution: an all-day time and an instant are shown alike. -/
theorem repr_resolution_fails : ∃ x y : Time, x.t.Valid ∧ y.t.Valid ∧ isAllDay x = true ∧ isAllDay y = false ∧ repr x = repr y :=
  ⟨⟨⟨2004, 12, 6, 0, 0, 0, 0⟩, dayUs⟩, ⟨⟨2004, 12, 6, 0, 0, 0, 0⟩, 1⟩, by decide, by decide, by decide, by decide, rfl⟩

/-- **C116**: the order of Times is that of their instants, and agrees with equality; other objects are refused. -/
theorem cmp_spec (x y : Time) (hx : x.t.Valid) (hy : y.t.Valid) :
    cmp x none = .error .typeError ∧
    (cmp x (some y) = .ok (-1) ↔ x.t.toUs < y.t.toUs) ∧ (cmp x (some y) = .ok 0 ↔ eq x (some y) = true) ∧
    (cmp x (some y) = .ok 1 ↔ y.t.toUs < x.t.toUs) ∧
    (cmp x (some y) = .ok (-1) ∨ cmp x (some y) = .ok 0 ∨ cmp x (some y) = .ok 1) := by
  refine ⟨rfl, ?_⟩
  unfold cmp eq
  simp only [beq_iff_eq, Except.ok.injEq, dtCmp, dtLt_eq hx hy, dtLt_eq hy hx]
  by_cases h1 : x.t.toUs < y.t.toUs <;> by_cases h2 : y.t.toUs < x.t.toUs <;> simp [h1, h2] <;> omega

/-- **C116**: a new Time is the instant of the clock, with the finest resolution, and `now` stands for its argument's instant
with that resolution. -/
theorem now_spec (d : DT) (hd : d.Valid) (x : Time) (hx : x.t.Valid) :
    new d = ⟨d, 1⟩ ∧ Evaluates (repr (new d)) (new d) ∧ fromNow x = .ok ⟨x.t, 1⟩ := by
  refine ⟨rfl, (repr_evaluates (new d) (new d) hd).2 rfl, ?_⟩
  have : x.t.add 0 = .ok x.t := (DT.add_iff hx).2 (by omega)
  simp only [fromNow, add, this]
  rfl

example : repr ⟨⟨2004, 12, 6, 14, 15, 16, 0⟩, 1⟩ = codes "extime.Time.fromDatetime(datetime.datetime(2004, 12, 6, 14, 15, 16))" := by
  decide +kernel

example : repr ⟨⟨2004, 12, 6, 0, 0, 0, 0⟩, 1⟩ = codes "extime.Time.fromDatetime(datetime.datetime(2004, 12, 6, 0, 0))" := by
  decide +kernel

example : repr ⟨⟨2004, 12, 6, 0, 0, 0, 7⟩, 1⟩ = codes "extime.Time.fromDatetime(datetime.datetime(2004, 12, 6, 0, 0, 0, 7))" := by
  decide +kernel

end Verif.Extime
