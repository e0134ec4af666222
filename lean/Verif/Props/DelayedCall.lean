import Verif.Model.DelayedCall
/-!
# C69: `DelayedCall` reports the time most recently requested; C73: `Clock.callLater`
-/
namespace Verif.DelayedCall
open Verif.Py

/-! ## C69 -/

/-- What the holder of a call knows: the time asked for last, and whether the call was cancelled or made. -/
structure Asked where
  time : Int
  cancelled : Bool
  called : Bool

/-- How an operation at a clock reading `now` changes it; operations on a cancelled or made call change nothing. -/
def ask (own : Bool) (a : Asked) : Op → Asked
  | .cancel => if a.cancelled || a.called then a else { a with cancelled := true }
  | .reset b o s => if a.cancelled || a.called then a else { a with time := (if own then o else b) + s }
  | .delay s => if a.cancelled || a.called then a else { a with time := a.time + s }
  | .activate => a
  | .made => { a with called := true }

def asked (own : Bool) : Asked → List Op → Asked
  | a, [] => a
  | a, o :: os => asked own (ask own a o) os

theorem refused_iff (c : Call) : refused c = none ↔ (c.cancelled || c.called) = false := by
  unfold refused
  cases c.cancelled <;> cases c.called <;> simp

theorem step_asked (c : Call) (a : Asked) (o : Op) (h : getTime c = a.time ∧ c.cancelled = a.cancelled ∧ c.called = a.called) :
    let c' := (step c o).1
    let a' := ask c.own a o
    getTime c' = a'.time ∧ c'.cancelled = a'.cancelled ∧ c'.called = a'.called ∧ c'.own = c.own := by
  obtain ⟨h1, h2, h3⟩ := h
  unfold getTime at h1
  cases hr : refused c with
  | some e =>
    have hb : (c.cancelled || c.called) = true := by
      cases hb : (c.cancelled || c.called)
      · rw [(refused_iff c).mpr hb] at hr; cases hr
      · rfl
    have hb' : (a.cancelled || a.called) = true := by rw [← h2, ← h3]; exact hb
    cases o with
    | cancel => simp only [step, hr, ask, hb', if_true]; exact ⟨h1, h2, h3, by trivial⟩
    | reset b o s => simp only [step, hr, ask, hb', if_true]; exact ⟨h1, h2, h3, by trivial⟩
    | delay s => simp only [step, hr, ask, hb', if_true]; exact ⟨h1, h2, h3, by trivial⟩
    | activate => simp only [step, ask, activateDelay, getTime]; exact ⟨by omega, h2, h3, by trivial⟩
    | made => simp only [step, ask, getTime]; exact ⟨h1, h2, by trivial, by trivial⟩
  | none =>
    have hb := (refused_iff c).mp hr
    have hb' : (a.cancelled || a.called) = false := by rw [← h2, ← h3]; exact hb
    cases o with
    | cancel => simp only [step, hr, ask, hb', Bool.false_eq_true, if_false, getTime]; exact ⟨h1, by trivial, h3, by trivial⟩
    | reset b o s =>
      simp only [step, hr, ask, hb', Bool.false_eq_true, if_false]
      have hn : newTime c b o s = (if c.own = true then o else b) + s := by unfold newTime; split <;> rfl
      rw [hn]
      generalize (if c.own = true then o else b) + s = nt
      by_cases hlt : nt < c.time
      · simp only [if_pos hlt]
        exact ⟨by simp only [getTime]; omega, h2, h3, by trivial⟩
      · simp only [if_neg hlt]
        exact ⟨by simp only [getTime]; omega, h2, h3, by trivial⟩
    | delay s =>
      simp only [step, hr, ask, hb', Bool.false_eq_true, if_false]
      split
      · exact ⟨by simp only [getTime, activateDelay]; omega, h2, h3, by trivial⟩
      · exact ⟨by simp only [getTime]; omega, h2, h3, by trivial⟩
    | activate => simp only [step, ask, activateDelay, getTime]; exact ⟨by omega, h2, h3, by trivial⟩
    | made => simp only [step, ask, getTime]; exact ⟨h1, h2, by trivial, by trivial⟩

theorem run_asked (os : List Op) (c : Call) (a : Asked) (h : getTime c = a.time ∧ c.cancelled = a.cancelled ∧ c.called = a.called) :
    getTime (run c os) = (asked c.own a os).time ∧ (run c os).cancelled = (asked c.own a os).cancelled ∧
    (run c os).called = (asked c.own a os).called := by
  induction os generalizing c a with
  | nil => exact h
  | cons o os ih =>
    obtain ⟨h1, h2, h3, h4⟩ := step_asked c a o h
    have := ih (step c o).1 (ask c.own a o) ⟨h1, h2, h3⟩
    rw [h4] at this
    exact this

/-- **C69.**  After any history `getTime()` is the time that the last successful operation asked for, and the call is active
exactly if it was neither cancelled nor made. -/
theorem time_requested (time : Int) (own : Bool) (os : List Op) :
    getTime (run (new time own) os) = (asked own ⟨time, false, false⟩ os).time ∧
    (active (run (new time own) os) = true ↔
      (asked own ⟨time, false, false⟩ os).cancelled = false ∧ (asked own ⟨time, false, false⟩ os).called = false) := by
  obtain ⟨h1, h2, h3⟩ := run_asked os (new time own) ⟨time, false, false⟩ ⟨by simp [getTime, new], rfl, rfl⟩
  refine ⟨h1, ?_⟩
  have e : (new time own).own = own := rfl
  rw [e] at h2 h3
  rw [← h2, ← h3]
  simp [active]

/-- **C69**, the owner: whatever the state, `delay` and `reset` tell the owner exactly when the time in the owner's heap
moves earlier (once), and otherwise leave that time alone. -/
theorem owner_told (c : Call) (o : Op) (ho : (∃ s, o = .delay s) ∨ ∃ b n s, o = .reset b n s) :
    ((step c o).1.time < c.time ↔ (step c o).2.1 = [.resetter]) ∧
    ((step c o).2.1 ≠ [.resetter] → (step c o).2.1 = [] ∧ (step c o).1.time = c.time) := by
  rcases ho with ⟨s, rfl⟩ | ⟨b, n, s, rfl⟩
  · unfold step
    cases refused c with
    | some e => simp
    | none =>
      simp only
      split
      · simp only [activateDelay]; constructor
        · constructor
          · intro _; trivial
          · intro _; omega
        · intro h; exact absurd rfl h
      · simp
  · unfold step
    cases refused c with
    | some e => simp
    | none =>
      simp only
      split
      · rename_i h; simp [h]
      · simp

/-- **C69**, refusals: on a cancelled call every operation of the holder raises `AlreadyCancelled`, on one that was made
`AlreadyCalled`; nothing changes and the owner is not told; otherwise no operation raises. -/
theorem refusals (c : Call) (o : Op) (ho : o ≠ .activate ∧ o ≠ .made) :
    (c.cancelled = true → step c o = (c, [], some (.other "AlreadyCancelled"))) ∧
    (c.cancelled = false → c.called = true → step c o = (c, [], some (.other "AlreadyCalled"))) ∧
    (active c = true → (step c o).2.2 = none) := by
  have hr : ∀ e, refused c = some e → step c o = (c, [], some e) := by
    intro e he
    cases o with
    | cancel => simp [step, he]
    | reset b n s => simp [step, he]
    | delay s => simp [step, he]
    | activate => exact absurd rfl ho.1
    | made => exact absurd rfl ho.2
  refine ⟨fun h => hr _ (by simp [refused, h]), fun h h2 => hr _ (by simp [refused, h, h2]), fun h => ?_⟩
  have hn : refused c = none := by
    rw [refused_iff]
    simpa [active] using h
  cases o with
  | cancel => simp [step, hn]
  | reset b n s => simp only [step, hn]; split <;> rfl
  | delay s => simp only [step, hn]; split <;> rfl
  | activate => exact absurd rfl ho.1
  | made => exact absurd rfl ho.2

/-- A successful cancellation tells the owner and is final. -/
theorem cancel_active (c : Call) (h : active c = true) :
    step c .cancel = ({ c with cancelled := true }, [.canceller], none) := by
  have hn : refused c = none := by rw [refused_iff]; simpa [active] using h
  simp [step, hn]

theorem delayed_step (c : Call) (o : Op) (h : 0 ≤ c.delayed) : 0 ≤ (step c o).1.delayed := by
  cases o with
  | cancel => unfold step; cases refused c <;> exact h
  | reset b n s =>
    unfold step
    cases refused c with
    | some e => exact h
    | none =>
      simp only
      split
      · exact Int.le_refl 0
      · simp only; omega
  | delay s =>
    unfold step
    cases refused c with
    | some e => exact h
    | none =>
      simp only
      split
      · exact Int.le_refl 0
      · simp only; omega
  | activate => exact Int.le_refl 0
  | made => exact h

/-- The time in the heap is never later than the time reported, so that the owner looks at the call in time. -/
theorem heap_not_late (time : Int) (own : Bool) (os : List Op) :
    (run (new time own) os).time ≤ getTime (run (new time own) os) := by
  have key : ∀ (os : List Op) (c : Call), 0 ≤ c.delayed → 0 ≤ (run c os).delayed := by
    intro os
    induction os with
    | nil => exact fun c h => h
    | cons o os ih => exact fun c h => ih _ (delayed_step c o h)
  have := key os (new time own) (Int.le_refl 0)
  unfold getTime
  omega

/-- Activating the delay brings the heap up to date and does not change the reported time. -/
theorem activate_time (c : Call) : (activateDelay c).time = getTime c ∧ getTime (activateDelay c) = getTime c := by
  simp [activateDelay, getTime]

/-- The heap is ordered by the scheduled times. -/
theorem heap_order (a b : Call) : le a b = true ↔ a.time ≤ b.time := by simp [le]

/-- `delay(5)`, then `reset(1)` at 2 on the call's own clock, then `delay(-2)`: asked for 15, 3, 1. -/
example : (asked true ⟨10, false, false⟩ [.delay 5, .reset 1000 2 1, .delay (-2)]).time = 1 := rfl
example : getTime (run (new 10 true) [.delay 5]) = 15 ∧ (step (run (new 10 true) [.delay 5]) (.reset 1000 2 1)).2.1 = [.resetter] ∧
    getTime (run (new 10 true) [.delay 5, .reset 1000 2 1]) = 3 ∧
    getTime (run (new 10 true) [.delay 5, .reset 1000 2 1, .delay (-2), .made, .activate]) = 1 := by decide

/-! ## C73 -/

/-- The calls are in the order of their times. -/
def Sorted (cs : List (Nat × Call)) : Prop := cs.Pairwise fun a b => getTime a.2 ≤ getTime b.2

theorem before_trans (a b c : Nat × Call) (h1 : before a b = true) (h2 : before b c = true) : before a c = true := by
  simp only [before, decide_eq_true_eq] at *; omega

theorem before_total (a b : Nat × Call) : (before a b || before b a) = true := by
  simp only [before, Bool.or_eq_true, decide_eq_true_eq]; omega

/-- **C73**, on Python 2: `callLater` returns the call that it schedules, at the time asked for; the pending calls are those
there were and this one, in the order of their times; if they were in order, the others keep their places and the new one is
after all those not later than it.

Missing: on Python 3 the call is appended and `TypeError` is raised (`callLater_python3_fails`). -/
theorem callLater_partial (k : Clock) (when_ : Int) :
    ∃ k' dc, callLater true k when_ = (k', .ok k.next) ∧ (k.next, dc) ∈ k'.calls ∧
      getTime dc = k.now + when_ ∧ active dc = true ∧ k'.now = k.now ∧ k.next < k'.next ∧
      Sorted k'.calls ∧ (k.calls ++ [(k.next, dc)]).Perm k'.calls ∧
      (Sorted k.calls → k.calls.Sublist k'.calls) ∧
      (∀ x ∈ k.calls, getTime x.2 ≤ getTime dc → [x, (k.next, dc)].Sublist k'.calls) := by
  let dc := new (k.now + when_) true
  refine ⟨⟨k.now, (k.calls ++ [(k.next, dc)]).mergeSort before, k.next + 1⟩, dc, rfl, ?_, ?_, rfl, rfl, Nat.lt_succ_self _,
    ?_, ?_, ?_, ?_⟩
  · rw [List.mem_mergeSort]; simp
  · simp [dc, getTime, new]
  · have := List.pairwise_mergeSort before_trans before_total (k.calls ++ [(k.next, dc)])
    exact this.imp fun h => by simpa [before] using h
  · exact (List.mergeSort_perm _ _).symm
  · intro hs
    apply List.sublist_mergeSort before_trans before_total
    · exact hs.imp fun h => by simpa [before] using h
    · exact List.sublist_append_left _ _
  · intro x hx hle
    apply List.sublist_mergeSort before_trans before_total
    · simp [before, hle]
    · obtain ⟨a, b, e⟩ := List.append_of_mem hx
      rw [e, List.append_assoc, List.cons_append]
      refine List.Sublist.trans ?_ (List.sublist_append_right _ _)
      exact List.Sublist.cons_cons _ (List.sublist_append_right _ _)

/-- Two calls are never the same (what `clockIsBroken` tests). -/
theorem callLater_distinct (k : Clock) (a b : Int) :
    ∃ i j, (callLater true k a).2 = .ok i ∧ (callLater true (callLater true k a).1 b).2 = .ok j ∧ i ≠ j :=
  ⟨k.next, k.next + 1, rfl, rfl, Nat.ne_of_lt (Nat.lt_succ_self _)⟩

/-- On Python 3 every `callLater` raises `TypeError`, although the call has been added. -/
theorem callLater_python3_fails (k : Clock) (when_ : Int) :
    (callLater false k when_).2 = .error .typeError ∧
    (callLater false k when_).1.calls = k.calls ++ [(k.next, new (k.now + when_) true)] := ⟨rfl, rfl⟩

/-- Calls at 15, 11 and 15 again: the last two are after the first of the same time. -/
example : (callLater true (callLater true (callLater true ⟨10, [], 0⟩ 5).1 1).1 5).1.calls.map Prod.fst = [1, 0, 2] := by
  simp [callLater, new, before, getTime, List.mergeSort, List.MergeSort.Internal.splitInTwo, List.merge]

end Verif.DelayedCall
