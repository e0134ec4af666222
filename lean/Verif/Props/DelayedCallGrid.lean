import Verif.Model.DelayedCall
import Verif.Props.DelayedCallFloat
import Mathlib.Tactic.Linarith
import Mathlib.Tactic.Ring
/-!
# C135 — delayed calls whose times are whole numbers of a binary unit

With times that are multiples of `2 ^ e` seconds (whole seconds, halves, …), none of them more than `2 ^ 52` units away, floats
and integers behave alike, so what is proved of the integer model holds of the code.
-/
namespace Verif.DelayedCallGrid
open Verif.Py

abbrev FCall := Verif.DelayedCallFloat.Call
abbrev ICall := Verif.DelayedCall.Call

/-- `n` units of `2 ^ e` seconds, as a float. -/
def units (e : Int) (n : Int) : Rat := (n : Rat) * 2 ^ e

/-- The call of the integer model, with its times in seconds. -/
def call (e : Int) (c : ICall) : FCall := ⟨units e c.time, units e c.delayed, c.cancelled, c.called, c.own⟩

/-- The operation, with its times in seconds. -/
def op (e : Int) : Verif.DelayedCall.Op → Verif.DelayedCallFloat.Op
  | .cancel => .cancel
  | .reset base own s => .reset (units e base) (units e own) (units e s)
  | .delay s => .delay (units e s)
  | .activate => .activate
  | .made => .made

/-- What the owner is told. -/
def notice : Verif.DelayedCall.Notice → Verif.DelayedCallFloat.Notice
  | .resetter => .resetter
  | .canceller => .canceller

/-- Both times of the call, and those that a reset asks for, are below `2 ^ 52` units. -/
def Near : ICall → List Verif.DelayedCall.Op → Prop
  | c, [] => |c.time| < 2 ^ 52 ∧ |c.time + c.delayed| < 2 ^ 52
  | c, o :: os => |c.time| < 2 ^ 52 ∧ |c.time + c.delayed| < 2 ^ 52 ∧
    (∀ base own s, o = .reset base own s → |base + s| < 2 ^ 52 ∧ |own + s| < 2 ^ 52) ∧ Near (Verif.DelayedCall.step c o).1 os

theorem fadd_units (e a b : Int) (he : -1074 ≤ e) (h : |a + b| < 2 ^ 53) : fadd (units e a) (units e b) = units e (a + b) := by
  unfold fadd units
  rw [← add_mul, ← Int.cast_add, roundF_exact _ _ h he]

theorem fsub_units (e a b : Int) (he : -1074 ≤ e) (h : |a - b| < 2 ^ 53) : fsub (units e a) (units e b) = units e (a - b) := by
  unfold fsub units
  rw [← sub_mul, ← Int.cast_sub, roundF_exact _ _ h he]

theorem units_lt (e a b : Int) : units e a < units e b ↔ a < b := by
  unfold units
  rw [mul_lt_mul_iff_left₀ (zpow_pos (by norm_num) e)]
  exact Int.cast_lt

theorem units_zero (e : Int) : units e 0 = 0 := by simp [units]

theorem units_neg (e a : Int) : units e a < 0 ↔ a < 0 := by rw [← units_zero e, units_lt]

theorem near_head {c : ICall} {os : List Verif.DelayedCall.Op} (h : Near c os) :
    |c.time| < 2 ^ 52 ∧ |c.time + c.delayed| < 2 ^ 52 := by
  cases os with
  | nil => exact h
  | cons o os => exact ⟨h.1, h.2.1⟩

theorem refused_eq (e : Int) (c : ICall) : Verif.DelayedCallFloat.refused (call e c) = Verif.DelayedCall.refused c := rfl

/-- One operation. -/
theorem step_eq (e : Int) (he : -1074 ≤ e) (c : ICall) (o : Verif.DelayedCall.Op) (os : List Verif.DelayedCall.Op)
    (h : Near c (o :: os)) :
    Verif.DelayedCallFloat.step (call e c) (op e o) =
      (call e (Verif.DelayedCall.step c o).1, (Verif.DelayedCall.step c o).2.1.map notice, (Verif.DelayedCall.step c o).2.2) := by
  obtain ⟨h1, h2, h3, h4⟩ := h
  have h5 := near_head h4
  cases o with
  | cancel =>
    simp only [op, Verif.DelayedCallFloat.step, Verif.DelayedCall.step, refused_eq]
    cases Verif.DelayedCall.refused c <;> rfl
  | made => rfl
  | activate =>
    have : Verif.DelayedCallFloat.activateDelay (call e c) = call e (Verif.DelayedCall.activateDelay c) := by
      simp only [Verif.DelayedCallFloat.activateDelay, Verif.DelayedCall.activateDelay, call]
      rw [fadd_units e _ _ he (lt_trans h2 (by norm_num)), units_zero]
    simp only [op, Verif.DelayedCallFloat.step, Verif.DelayedCall.step, this]
    rfl
  | reset base own s =>
    obtain ⟨hb, ho⟩ := h3 base own s rfl
    have hn : Verif.DelayedCallFloat.newTime (call e c) (units e base) (units e own) (units e s) =
        units e (Verif.DelayedCall.newTime c base own s) := by
      simp only [Verif.DelayedCallFloat.newTime, Verif.DelayedCall.newTime, call]
      rw [fadd_units e _ _ he (lt_trans ho (by norm_num)), fadd_units e _ _ he (lt_trans hb (by norm_num))]
      by_cases hw : c.own = true
      · rw [if_pos hw]; exact if_pos hw
      · rw [if_neg hw]; exact if_neg hw
    have hl : |Verif.DelayedCall.newTime c base own s - c.time| < 2 ^ 53 := by
      have : |Verif.DelayedCall.newTime c base own s| < 2 ^ 52 := by
        simp only [Verif.DelayedCall.newTime]; split <;> assumption
      rw [abs_lt] at *
      constructor <;> linarith
    simp only [op, Verif.DelayedCallFloat.step, Verif.DelayedCall.step, refused_eq, hn]
    cases Verif.DelayedCall.refused c with
    | some x => rfl
    | none =>
      dsimp only
      have ht : (call e c).time = units e c.time := rfl
      by_cases hc : Verif.DelayedCall.newTime c base own s < c.time
      · rw [if_pos hc, ht, if_pos ((units_lt e _ _).2 hc)]
        simp only [call, units_zero]; rfl
      · rw [if_neg hc, ht, if_neg (fun x => hc ((units_lt e _ _).1 x))]
        simp only [call]
        rw [fsub_units e _ _ he hl]; rfl
  | delay s =>
    simp only [op, Verif.DelayedCallFloat.step, Verif.DelayedCall.step, refused_eq] at h5 ⊢
    cases hr : Verif.DelayedCall.refused c with
    | some x => rfl
    | none =>
      rw [hr] at h5
      dsimp only at h5 ⊢
      have hd : |c.delayed + s| < 2 ^ 53 ∧ |c.time + (c.delayed + s)| < 2 ^ 53 := by
        split at h5
        · simp only [Verif.DelayedCall.activateDelay, add_zero] at h5
          rw [abs_lt] at *; rw [abs_lt]
          refine ⟨⟨?_, ?_⟩, ?_, ?_⟩ <;> linarith [h5.1.1, h5.1.2]
        · rw [abs_lt] at *; rw [abs_lt]
          dsimp only at h5
          have := abs_lt.1 h5.2
          refine ⟨⟨?_, ?_⟩, ?_, ?_⟩ <;> linarith [this.1, this.2]
      have hs : fadd (call e c).delayed (units e s) = units e (c.delayed + s) := fadd_units e _ _ he hd.1
      rw [hs]
      by_cases hc : c.delayed + s < 0
      · rw [if_pos hc, if_pos ((units_neg e _).2 hc)]
        simp only [Verif.DelayedCallFloat.activateDelay, Verif.DelayedCall.activateDelay, call]
        rw [fadd_units e _ _ he hd.2, units_zero]; rfl
      · rw [if_neg hc, if_neg (fun x => hc ((units_neg e _).1 x))]
        rfl

/-- **Floats and integers agree**, in every history: the call's times, and so the time it is due. -/
theorem grid_run (e : Int) (he : -1074 ≤ e) (os : List Verif.DelayedCall.Op) : ∀ c : ICall, Near c os →
    Verif.DelayedCallFloat.run (call e c) (os.map (op e)) = call e (Verif.DelayedCall.run c os) ∧
    Verif.DelayedCallFloat.getTime (Verif.DelayedCallFloat.run (call e c) (os.map (op e))) =
      units e (Verif.DelayedCall.getTime (Verif.DelayedCall.run c os)) := by
  induction os with
  | nil =>
    intro c h
    exact ⟨rfl, fadd_units e _ _ he (lt_trans h.2 (by norm_num))⟩
  | cons o os ih =>
    intro c h
    have hs := step_eq e he c o os h
    simp only [List.map_cons, Verif.DelayedCallFloat.run, Verif.DelayedCall.run, hs]
    exact ih _ h.2.2.2

/-- **… and what every operation tells the owner and raises** is the same. -/
theorem grid_step (e : Int) (he : -1074 ≤ e) (c : ICall) (o : Verif.DelayedCall.Op) (h : Near c [o]) :
    (Verif.DelayedCallFloat.step (call e c) (op e o)).2.1 = (Verif.DelayedCall.step c o).2.1.map notice ∧
    (Verif.DelayedCallFloat.step (call e c) (op e o)).2.2 = (Verif.DelayedCall.step c o).2.2 := by
  rw [step_eq e he c o [] h]
  exact ⟨rfl, rfl⟩

/-- Non-vacuity: halves of seconds; reset to 2.5, half a second later. -/
example : Near (Verif.DelayedCall.new 3 false) [.reset 4 0 1, .delay 1] ∧
    Verif.DelayedCallFloat.getTime
      (Verif.DelayedCallFloat.run (Verif.DelayedCallFloat.new (3 / 2) false) [.reset 2 0 (1 / 2), .delay (1 / 2)]) = 3 := by
  refine ⟨?_, by decide +kernel⟩
  simp [Near, Verif.DelayedCall.step, Verif.DelayedCall.new, Verif.DelayedCall.refused, Verif.DelayedCall.newTime]

/-- The bound is needed: one second more than `2 ** 53` seconds is not a float. -/
theorem grid_bound_needed : fadd (units 0 (2 ^ 53)) (units 0 1) ≠ units 0 (2 ^ 53 + 1) := by
  decide +kernel

end Verif.DelayedCallGrid
