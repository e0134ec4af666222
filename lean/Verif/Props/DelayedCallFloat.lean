import Verif.Model.DelayedCallFloat
import Mathlib.Tactic.NormNum
/-!
# C135 — a delayed call with floating-point times
-/
namespace Verif.DelayedCallFloat
open Verif.Py

/-! ## What is wanted: the same with exact arithmetic -/

/-- When the call is wanted to be made, and whether it still waits. -/
structure Want where
  due : Rat
  waits : Bool

/-- The effect of an operation on what is wanted; `own` says which clock counts. -/
def Want.after (own : Bool) (w : Want) : Op → Want
  | .cancel => { w with waits := false }
  | .made => { w with waits := false }
  | .activate => w
  | .delay s => if w.waits then { w with due := w.due + s } else w
  | .reset base mine s => if w.waits then { w with due := (if own then mine else base) + s } else w

def Want.afterAll (own : Bool) : Want → List Op → Want
  | w, [] => w
  | w, o :: os => Want.afterAll own (w.after own o) os

/-- The arguments of an operation are below a bound. -/
def Op.Below (m : Rat) : Op → Prop
  | .reset base own s => |base| < m ∧ |own| < m ∧ |s| < m
  | .delay s => |s| < m
  | _ => True

/-- In the course of a history, all arguments and all values the call keeps are below a bound. -/
def Below (m : Rat) : Call → List Op → Prop
  | c, [] => |c.time| < m ∧ |c.delayed| < m
  | c, o :: os => |c.time| < m ∧ |c.delayed| < m ∧ o.Below m ∧ Below m (step c o).1 os

theorem Below.head {m : Rat} {c : Call} {os : List Op} (h : Below m c os) : |c.time| < m ∧ |c.delayed| < m := by
  cases os with
  | nil => exact h
  | cons o os => exact ⟨h.1, h.2.1⟩

theorem pow_float (e : Int) (he : -1074 ≤ e) : roundF ((2 : Rat) ^ e) = 2 ^ e := by
  have := roundF_exact 1 e (by norm_num) he
  simpa using this

/-- What rounds to less than a power of two is less. -/
theorem lt_of_round {x : Rat} {e : Int} (he : -1074 ≤ e) (h : |roundF x| < 2 ^ e) : |x| < 2 ^ e := by
  rw [abs_lt] at h ⊢
  constructor
  · by_contra hc
    push Not at hc
    have := roundF_le (t := -(2 ^ e)) (q := x) (by rw [roundF_neg, pow_float e he]) hc
    linarith
  · by_contra hc
    push Not at hc
    have := le_roundF (t := 2 ^ e) (q := x) (pow_float e he) hc
    linarith

theorem add_lt {x y : Rat} {b : Int} (hx : |x| < 2 ^ (b - 1)) (hy : |y| < 2 ^ (b - 1)) : |x + y| < 2 ^ b := by
  have : (2 : Rat) ^ b = 2 ^ (b - 1) + 2 ^ (b - 1) := by
    rw [← two_mul, ← zpow_one_add₀ (by norm_num)]; congr 1; ring
  rw [this]
  exact lt_of_le_of_lt (abs_add_le x y) (by linarith)

/-- Rounding a number below `2 ^ (b - 1)`. -/
theorem err_small {x : Rat} {b : Int} (hb : -1000 ≤ b) (h : |x| < 2 ^ (b - 1)) : |roundF x - x| ≤ 2 ^ (b - 54) := by
  refine roundF_error x b (lt_of_lt_of_le h ?_) (by omega)
  exact zpow_le_zpow_right₀ (by norm_num) (by omega)

theorem step_own (c : Call) (o : Op) : (step c o).1.own = c.own := by
  cases o <;> simp only [step, activateDelay] <;> (repeat' split) <;> rfl

theorem refused_none {c : Call} : refused c = none ↔ c.cancelled = false ∧ c.called = false := by
  unfold refused
  cases c.cancelled <;> cases c.called <;> simp

theorem refused_some {c : Call} {e : PyErr} (h : refused c = some e) : (c.cancelled || c.called) = true := by
  unfold refused at h
  cases hc : c.cancelled <;> cases hd : c.called <;> simp_all

/-- One operation adds at most two roundings. -/
theorem step_error {b : Int} (hb : -1000 ≤ b) {c : Call} {o : Op} {w : Want} (_h1 : |c.time| < 2 ^ (b - 1))
    (h2 : |c.delayed| < 2 ^ (b - 1)) (ho : o.Below (2 ^ (b - 1))) (h3 : |(step c o).1.time| < 2 ^ (b - 1))
    (h4 : |(step c o).1.delayed| < 2 ^ (b - 1)) (hw : w.waits = !(c.cancelled || c.called)) :
    |(step c o).1.time + (step c o).1.delayed - (w.after c.own o).due| ≤ |c.time + c.delayed - w.due| + 2 * 2 ^ (b - 54) ∧
      (w.after c.own o).waits = !((step c o).1.cancelled || (step c o).1.called) := by
  have hE : (0 : Rat) < 2 ^ (b - 54) := zpow_pos (by norm_num) _
  have keep : |c.time + c.delayed - w.due| ≤ |c.time + c.delayed - w.due| + 2 * 2 ^ (b - 54) := by linarith
  cases o with
  | cancel =>
    cases hr : refused c with
    | some e =>
      have := refused_some hr
      simp only [step, hr, Want.after] at *
      exact ⟨keep, by simp [this]⟩
    | none =>
      simp only [step, hr, Want.after] at *
      exact ⟨keep, by simp⟩
  | made =>
    simp only [step, Want.after] at *
    exact ⟨keep, by simp⟩
  | activate =>
    simp only [step, Want.after, activateDelay] at *
    refine ⟨?_, hw⟩
    have hs := lt_of_round (by omega) h3
    have he := err_small hb hs
    have : fadd c.time c.delayed + 0 - w.due = (roundF (c.time + c.delayed) - (c.time + c.delayed)) + (c.time + c.delayed - w.due) := by
      unfold fadd; ring
    rw [this]
    exact le_trans (abs_add_le _ _) (by linarith)
  | delay s =>
    cases hr : refused c with
    | some e =>
      have hx := refused_some hr
      have hwf : w.waits = false := by rw [hw, hx]; rfl
      simp only [step, hr, Want.after, hwf, Bool.false_eq_true, if_false, hx]
      exact ⟨keep, rfl⟩
    | none =>
      obtain ⟨a1, a2⟩ := refused_none.mp hr
      have hwt : w.waits = true := by rw [hw, a1, a2]; rfl
      have e1 := roundF_error (c.delayed + s) b (add_lt h2 ho) (by omega)
      simp only [step, hr, Want.after, hwt, if_true] at *
      split at h3
      · rename_i hneg
        rw [if_pos hneg] at h4 ⊢
        simp only [activateDelay] at *
        refine ⟨?_, by simp [a1, a2]⟩
        have hs := lt_of_round (by omega) h3
        have he := err_small hb hs
        have : fadd c.time (fadd c.delayed s) + 0 - (w.due + s) = (roundF (c.time + fadd c.delayed s) - (c.time + fadd c.delayed s)) +
            ((roundF (c.delayed + s) - (c.delayed + s)) + (c.time + c.delayed - w.due)) := by
          unfold fadd; ring
        rw [this]
        refine le_trans (abs_add_le _ _) ?_
        have := abs_add_le (roundF (c.delayed + s) - (c.delayed + s)) (c.time + c.delayed - w.due)
        linarith
      · rename_i hneg
        rw [if_neg hneg] at h4 ⊢
        simp only at *
        refine ⟨?_, by simp [a1, a2]⟩
        have : c.time + fadd c.delayed s - (w.due + s) = (roundF (c.delayed + s) - (c.delayed + s)) + (c.time + c.delayed - w.due) := by
          unfold fadd; ring
        rw [this]
        have := abs_add_le (roundF (c.delayed + s) - (c.delayed + s)) (c.time + c.delayed - w.due)
        linarith
  | reset base mine s =>
    cases hr : refused c with
    | some e =>
      have hx := refused_some hr
      have hwf : w.waits = false := by rw [hw, hx]; rfl
      simp only [step, hr, Want.after, hwf, Bool.false_eq_true, if_false, hx]
      exact ⟨keep, rfl⟩
    | none =>
      obtain ⟨a1, a2⟩ := refused_none.mp hr
      have hwt : w.waits = true := by rw [hw, a1, a2]; rfl
      have hn : |newTime c base mine s - ((if c.own then mine else base) + s)| ≤ 2 ^ (b - 54) := by
        unfold newTime fadd
        obtain ⟨o1, o2, o3⟩ := ho
        cases c.own
        · exact roundF_error _ b (add_lt o1 o3) (by omega)
        · exact roundF_error _ b (add_lt o2 o3) (by omega)
      have hpos := abs_nonneg (c.time + c.delayed - w.due)
      simp only [step, hr, Want.after, hwt, if_true] at *
      split at h3
      · rename_i hlt
        rw [if_pos hlt] at h4 ⊢
        simp only at *
        refine ⟨?_, by simp [a1, a2]⟩
        rw [add_zero]; linarith
      · rename_i hlt
        rw [if_neg hlt] at h4 ⊢
        simp only at *
        refine ⟨?_, by simp [a1, a2]⟩
        have hs := lt_of_round (x := newTime c base mine s - c.time) (by omega) h4
        have he := err_small hb hs
        have : c.time + fsub (newTime c base mine s) c.time - ((if c.own then mine else base) + s) =
            (roundF (newTime c base mine s - c.time) - (newTime c base mine s - c.time)) +
              (newTime c base mine s - ((if c.own then mine else base) + s)) := by
          unfold fsub; ring
        rw [this]
        exact le_trans (abs_add_le _ _) (by linarith)

theorem run_error {b : Int} (hb : -1000 ≤ b) (os : List Op) : ∀ (c : Call) (w : Want), Below (2 ^ (b - 1)) c os →
    w.waits = !(c.cancelled || c.called) →
    |(run c os).time + (run c os).delayed - (w.afterAll c.own os).due| ≤ |c.time + c.delayed - w.due| + 2 * os.length * 2 ^ (b - 54) ∧
      |(run c os).time| < 2 ^ (b - 1) ∧ |(run c os).delayed| < 2 ^ (b - 1) := by
  induction os with
  | nil =>
    intro c w h hw
    refine ⟨?_, h⟩
    simp [run, Want.afterAll]
  | cons o os ih =>
    intro c w h hw
    obtain ⟨h1, h2, h3, h4⟩ := h
    have hh := h4.head
    have hs := step_error hb h1 h2 h3 hh.1 hh.2 hw
    have hr := ih (step c o).1 (w.after c.own o) h4 hs.2
    rw [step_own] at hr
    refine ⟨?_, hr.2⟩
    rw [run, Want.afterAll]
    refine le_trans hr.1 ?_
    push_cast [List.length_cons]
    linarith [hs.1]

/-- **C135.**  While times, delays and clock readings stay below half of `2 ^ b`, the time that `getTime()` says differs from the
one asked for, computed without rounding, by at most `2k + 1` roundings of numbers below `2 ^ b`, `k` being the number of
operations. -/
theorem due_within {b : Int} (hb : -1000 ≤ b) (t : Rat) (own : Bool) (os : List Op) (h : Below (2 ^ (b - 1)) (new t own) os) :
    |getTime (run (new t own) os) - (Want.afterAll own ⟨t, true⟩ os).due| ≤ (2 * os.length + 1) * 2 ^ (b - 54) := by
  have hr := run_error hb os (new t own) ⟨t, true⟩ h rfl
  obtain ⟨h1, h2, h3⟩ := hr
  have he := roundF_error _ b (add_lt h2 h3) (by omega)
  have e0 : (new t own).time + (new t own).delayed - (⟨t, true⟩ : Want).due = 0 := by simp [new]
  rw [e0, abs_zero, zero_add] at h1
  have hown : (new t own).own = own := rfl
  rw [hown] at h1
  have : getTime (run (new t own) os) - (Want.afterAll own ⟨t, true⟩ os).due =
      (roundF ((run (new t own) os).time + (run (new t own) os).delayed) - ((run (new t own) os).time + (run (new t own) os).delayed)) +
      ((run (new t own) os).time + (run (new t own) os).delayed - (Want.afterAll own ⟨t, true⟩ os).due) := by
    unfold getTime fadd; ring
  rw [this]
  refine le_trans (abs_add_le _ _) ?_
  linarith

/-- In seconds since 1970, until the year 2106: less than a microsecond for each operation, and half of one. -/
theorem due_within_microseconds (t : Rat) (own : Bool) (os : List Op) (h : Below (2 ^ (32 : Int)) (new t own) os) :
    |getTime (run (new t own) os) - (Want.afterAll own ⟨t, true⟩ os).due| ≤ (os.length + 1 / 2) / 1000000 := by
  refine le_trans (due_within (b := 33) (by norm_num) t own os (by norm_num at h ⊢; exact h)) ?_
  have : (2 : Rat) ^ ((33 : Int) - 54) = 1 / 2097152 := by norm_num
  rw [this]
  have hk : (0 : Rat) ≤ os.length := Nat.cast_nonneg _
  linarith

/-! ## What the owner sees -/

/-- The invariant: the times are floats, and the delay is not negative. -/
structure Inv (c : Call) : Prop where
  float : roundF c.time = c.time
  delay : 0 ≤ c.delayed

theorem inv_step {c : Call} (h : Inv c) (o : Op) : Inv (step c o).1 := by
  have hact : ∀ c : Call, Inv (activateDelay c) := fun c => ⟨roundF_roundF _, le_refl _⟩
  cases o with
  | cancel => simp only [step]; split <;> exact ⟨h.1, h.2⟩
  | made => exact ⟨h.1, h.2⟩
  | activate => exact hact c
  | delay s =>
    simp only [step]
    split
    · exact h
    · split
      · exact hact _
      · rename_i hn; exact ⟨h.1, by simpa using hn⟩
  | reset base own s =>
    simp only [step]
    split
    · exact h
    · split
      · refine ⟨?_, le_refl _⟩
        simp only [newTime]
        split <;> exact roundF_roundF _
      · rename_i hn
        refine ⟨h.1, le_roundF roundF_zero ?_⟩
        push Not at hn
        linarith

theorem inv_run {c : Call} (h : Inv c) (os : List Op) : Inv (run c os) := by
  induction os generalizing c with
  | nil => exact h
  | cons o os ih => exact ih (inv_step h o)

/-- **C135.**  The time by which the owner has sorted the call is never after the time the call is due, so that the owner looks at
it early enough. -/
theorem never_late (t : Rat) (ht : roundF t = t) (own : Bool) (os : List Op) :
    (run (new t own) os).time ≤ getTime (run (new t own) os) :=
  le_fadd (inv_run ⟨ht, le_refl _⟩ os).1 (inv_run (c := new t own) ⟨ht, le_refl _⟩ os).2

/-- **C135, partial.**  Whenever the time by which it has sorted the call becomes earlier, the owner is told; and when it is told of
a reset, this time has not become later.  Missing: it may have stayed the same. -/
theorem told_partial (t : Rat) (ht : roundF t = t) (own : Bool) (os : List Op) (o : Op) :
    ((step (run (new t own) os) o).1.time < (run (new t own) os).time → (step (run (new t own) os) o).2.1 = [.resetter]) ∧
    ((step (run (new t own) os) o).2.1 = [.resetter] → (step (run (new t own) os) o).1.time ≤ (run (new t own) os).time) := by
  have hi := inv_run (c := new t own) ⟨ht, le_refl _⟩ os
  generalize run (new t own) os = c at hi
  cases o with
  | cancel =>
    simp only [step]
    split
    · exact ⟨fun h => absurd h (lt_irrefl _), fun h => by cases h⟩
    · exact ⟨fun h => absurd h (lt_irrefl _), fun h => by cases h⟩
  | made => exact ⟨fun h => absurd h (lt_irrefl _), fun h => by cases h⟩
  | activate =>
    simp only [step, activateDelay]
    exact ⟨fun h => absurd h (not_lt.mpr (le_fadd hi.1 hi.2)), fun h => by cases h⟩
  | delay s =>
    simp only [step]
    split
    · exact ⟨fun h => absurd h (lt_irrefl _), fun h => by cases h⟩
    · split
      · rename_i hn
        exact ⟨fun _ => rfl, fun _ => fadd_le hi.1 (le_of_lt hn)⟩
      · exact ⟨fun h => absurd h (lt_irrefl _), fun h => by cases h⟩
  | reset base own s =>
    simp only [step]
    split
    · exact ⟨fun h => absurd h (lt_irrefl _), fun h => by cases h⟩
    · split
      · rename_i hn
        exact ⟨fun _ => rfl, fun _ => le_of_lt hn⟩
      · exact ⟨fun h => absurd h (lt_irrefl _), fun h => by cases h⟩

/-- The owner can be told although nothing moved: a call at `10 ** 9` seconds, made earlier by less than half the spacing of floats
there (`2 ** -24` of a second). -/
theorem told_fails : roundF 1000000000 = 1000000000 ∧ roundF (-(1 / 2 ^ 25)) = -(1 / 2 ^ 25) ∧
    step (new 1000000000 false) (.delay (-(1 / 2 ^ 25))) = (new 1000000000 false, [.resetter], none) := by
  decide +kernel

/-- **C135.**  A reset is exact (the time is the rounded sum of the clock's reading and the argument) when it is to an earlier time,
or to at most twice the time by which the call was sorted. -/
theorem reset_exact (t : Rat) (ht : roundF t = t) (own : Bool) (os : List Op) (base mine s : Rat)
    (hw : refused (run (new t own) os) = none) (h0 : 0 < (run (new t own) os).time)
    (h2 : (if own then fadd mine s else fadd base s) ≤ 2 * (run (new t own) os).time) :
    getTime (step (run (new t own) os) (.reset base mine s)).1 = if own then fadd mine s else fadd base s := by
  have hi := inv_run (c := new t own) ⟨ht, le_refl _⟩ os
  have hown : (run (new t own) os).own = own := by
    have : ∀ (os : List Op) (c : Call), (run c os).own = c.own := by
      intro os
      induction os with
      | nil => intro c; rfl
      | cons o os ih => intro c; rw [run, ih, step_own]
    rw [this]; rfl
  generalize run (new t own) os = c at *
  have hn : newTime c base mine s = if own then fadd mine s else fadd base s := by rw [newTime, hown]
  have hf : roundF (newTime c base mine s) = newTime c base mine s := by
    unfold newTime; split <;> exact roundF_roundF _
  rw [← hn] at h2 ⊢
  simp only [step, hw]
  split
  · simp only [getTime, fadd, add_zero]; exact hf
  · rename_i hge
    push Not at hge
    simp only [getTime]
    rw [fsub_exact hf hi.1 h0 hge h2, fadd, add_sub_cancel, hf]

/-- **C135.**  A call that was cancelled or made refuses everything, and stays as it is. -/
theorem refuses (c : Call) (s base mine : Rat) :
    (c.cancelled = true → ∀ o ∈ [Op.cancel, .delay s, .reset base mine s], step c o = (c, [], some (.other "AlreadyCancelled"))) ∧
    (c.cancelled = false → c.called = true →
      ∀ o ∈ [Op.cancel, .delay s, .reset base mine s], step c o = (c, [], some (.other "AlreadyCalled"))) := by
  constructor
  · intro h o ho
    simp only [List.mem_cons, List.not_mem_nil, or_false] at ho
    rcases ho with rfl | rfl | rfl <;> simp [step, refused, h]
  · intro h h' o ho
    simp only [List.mem_cons, List.not_mem_nil, or_false] at ho
    rcases ho with rfl | rfl | rfl <;> simp [step, refused, h, h']

/-- Otherwise not: of a clock that shows 0, a call after 0.2 seconds that is reset to 0.9 seconds says 0.8999999999999999. -/
theorem reset_fails : roundF (1 / 5) = 3602879701896397 / 2 ^ 54 ∧ roundF (9 / 10) = 8106479329266893 / 2 ^ 53 ∧
    getTime (run (new (3602879701896397 / 2 ^ 54) true) [.reset 0 0 (8106479329266893 / 2 ^ 53)]) = 8106479329266892 / 2 ^ 53 := by
  decide +kernel

/-- Concrete: a call at 100 seconds is delayed by a quarter of a second, twice made earlier by ten, and reset to 150; every value is
below `2 ^ 32`, so `due_within_microseconds` applies. -/
example : Below (2 ^ (32 : Int)) (new 100 false) [.delay (1 / 4), .delay (-10), .delay (-10), .reset 50 0 100] ∧
    getTime (run (new 100 false) [.delay (1 / 4), .delay (-10), .delay (-10), .reset 50 0 100]) = 150 ∧
    (run (new 100 false) [.delay (1 / 4), .delay (-10), .delay (-10), .reset 50 0 100]).time = 80 + 1 / 4 := by
  refine ⟨?_, by decide +kernel, by decide +kernel⟩
  simp only [Below, Op.Below]
  decide +kernel

example : refused (run (new 100 false) [.delay 1]) = none ∧ 0 < (run (new 100 false) [.delay 1]).time ∧
    fadd 50 100 ≤ 2 * (run (new 100 false) [.delay 1]).time := by decide +kernel

end Verif.DelayedCallFloat
