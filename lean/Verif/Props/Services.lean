import Verif.Model.Services
/-!
# C130: services that say whether they are running

The full claim, that `running` of a service is true exactly from `startService` to `stopService`, is false for both services of Epsilon:
neither `startService` calls the method it overrides.
-/
namespace Verif.Services
open Verif.Py

/-- What a use asks of the cooperator. -/
def asked : Op → Event
  | .start => .coopStart
  | .stop => .coopStop
  | .add i => .coiterate i

theorem scheduling_run (s : Service) (h : s.kind = .scheduling) (os : List Op) :
    run s os = .ok ⟨.scheduling, s.running, s.log ++ os.map asked⟩ := by
  induction os generalizing s with
  | nil => cases s; simp only at h; subst h; simp [run]
  | cons o os ih =>
    cases s with
    | mk k r l =>
      simp only at h; subst h
      cases o with
      | start => simp only [run, step, startService]; rw [ih _ rfl]; simp [asked]
      | stop => simp only [run, step, stopService]; rw [ih _ rfl]; simp [asked]
      | add i => simp only [run, step, addIterator]; rw [ih _ rfl]; simp [asked]

/-- **C130.** A `SchedulingService` asks of its cooperator exactly what was asked of it, in order; nothing before. -/
theorem scheduling_passes_on_partial (os : List Op) :
    ∃ s, run (new .scheduling) os = .ok s ∧ s.log = os.map asked :=
  ⟨_, scheduling_run _ rfl os, by simp [new]⟩

/-- **C130 fails.** Whatever is done, a `SchedulingService` does not say that it is running. -/
theorem scheduling_running_fails (os : List Op) (s : Service) (h : run (new .scheduling) os = .ok s) : s.running = false := by
  rw [scheduling_run _ rfl os] at h
  cases h; rfl

/-- Starts and stops. -/
def NoAdd (os : List Op) : Prop := ∀ o ∈ os, o = .start ∨ o = .stop

theorem standardIO_run (p : Nat) (s : Service) (h : s.kind = .standardIO p) (hr : s.running = false) (os : List Op) (ho : NoAdd os) :
    run s os = .ok ⟨.standardIO p, false, s.log ++ List.replicate (os.count .start) (.stdio p)⟩ := by
  induction os generalizing s with
  | nil => cases s; simp only at h hr; subst h hr; simp [run]
  | cons o os ih =>
    cases s with
    | mk k r l =>
      simp only at h hr; subst h hr
      have ho' : NoAdd os := fun x hx => ho x (by simp [hx])
      rcases ho o (by simp) with rfl | rfl
      · simp only [run, step, startService]; rw [ih _ rfl rfl ho']; simp [List.replicate_succ]
      · simp only [run, step, stopService]; rw [ih _ rfl rfl ho']; simp

/-- **C130 fails.** A `StandardIOService` connects its protocol at every start, again if it was not stopped; it never says that it is
running, and a stop disconnects nothing. -/
theorem standardIO_running_fails (p : Nat) (os : List Op) (ho : NoAdd os) :
    ∃ s, run (new (.standardIO p)) os = .ok s ∧ s.running = false ∧ s.log = List.replicate (os.count .start) (.stdio p) :=
  ⟨_, standardIO_run p _ rfl rfl os ho, rfl, by simp [new]⟩

/-- **C130** for services that override nothing: they run exactly if the last use was a start. -/
theorem plain_running_partial (os : List Op) (ho : NoAdd os) :
    ∃ s, run (new .plain) os = .ok s ∧ (s.running = true ↔ os.getLast? = some .start) := by
  have key : ∀ (s : Service), s.kind = .plain → ∃ s', run s os = .ok s' ∧
      (s'.running = true ↔ os.getLast? = some .start ∨ (os = [] ∧ s.running = true)) := by
    induction os with
    | nil => intro s _; exact ⟨s, rfl, by simp⟩
    | cons o os ih =>
      intro s hk
      have ho' : NoAdd os := fun x hx => ho x (by simp [hx])
      rcases ho o (by simp) with rfl | rfl
      · obtain ⟨s', h1, h2⟩ := ih ho' (startService s) (by simp [startService, hk])
        refine ⟨s', by simp only [run, step, h1], ?_⟩
        rw [h2]
        cases os with
        | nil => simp [startService, hk]
        | cons a b => simp [List.getLast?_cons_cons]
      · obtain ⟨s', h1, h2⟩ := ih ho' (stopService s) (by simp [stopService, hk])
        refine ⟨s', by simp only [run, step, h1], ?_⟩
        rw [h2]
        cases os with
        | nil => simp [stopService, hk]
        | cons a b => simp [List.getLast?_cons_cons]
  obtain ⟨s, h1, h2⟩ := key (new .plain) rfl
  exact ⟨s, h1, by simpa [new] using h2⟩

/-- **C130.** `iterateInReactor` uses the global cooperator, at once whatever the delay. -/
theorem iterate_global_partial (i : Nat) (d₁ d₂ : Option Nat) :
    iterateInReactor i d₁ = [.globalCoiterate i] ∧ iterateInReactor i d₁ = iterateInReactor i d₂ := ⟨rfl, rfl⟩

example : run (new .scheduling) [.add 1, .start, .add 2, .stop] =
    .ok ⟨.scheduling, false, [.coiterate 1, .coopStart, .coiterate 2, .coopStop]⟩ := rfl
example : run (new (.standardIO 7)) [.start, .start, .stop] = .ok ⟨.standardIO 7, false, [.stdio 7, .stdio 7]⟩ := rfl
example : run (new .plain) [.start] = .ok ⟨.plain, true, []⟩ := rfl
example : NoAdd [.start, .start, .stop] := by intro o ho; simp at ho; exact ho

end Verif.Services
