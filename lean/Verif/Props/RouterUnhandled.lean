import Verif.Model.Router
/-!
# C133: failures of a route go to the router's sender

The full claim, that a route hands failures on whenever it may be asked to, is false: `AttributeError` before the router has started.
-/
namespace Verif.Router
open Verif.Py

theorem step_sender (r : Router) (op : Op) : (step r op).1.sender = (r.sender || decide (op = .start)) := by
  cases op with
  | newId => simp [step, createRouteIdentifier]
  | bind rcv n =>
    have : (bindRoute r rcv n).1.sender = r.sender := by
      obtain ⟨s, u, m, c, hp⟩ := r
      cases n <;> cases m <;> cases u <;> rfl
    simp only [step]
    split <;> simp_all
  | connect rid n =>
    simp only [step, connectTo]
    cases r.heap[rid]? <;> simp
  | unbind rid =>
    simp only [step, unbind]
    cases r.heap[rid]? with
    | none => simp
    | some ro =>
      cases r.routes with
      | none => simp
      | some m => by_cases h : Dict.has m ro.localName <;> simp [h]
  | start =>
    simp only [step, startReceivingBoxes]
    cases r.unstarted <;> simp
  | receive box =>
    have : (ampBoxReceived r box).1 = r := by
      unfold ampBoxReceived
      dsimp only
      repeat' split
      all_goals rfl
    simp only [step]
    simp [this]
  | stop reason =>
    simp only [step, stopReceivingBoxes]
    cases r.routes <;> simp
  | send rid box =>
    have : (sendBox r rid box).1 = r := by
      unfold sendBox
      repeat' split
      all_goals rfl
    simp only [step]
    simp [this]

theorem run_sender (r : Router) (ops : List Op) : (run r ops).1.sender = (r.sender || decide (.start ∈ ops)) := by
  induction ops generalizing r with
  | nil => simp [run]
  | cons op ops ih =>
    show (run (step r op).1 ops).1.sender = _
    rw [ih, step_sender]
    by_cases h : op = .start
    · simp [h]
    · simp [h, Ne.symm h]

/-- **C133, partial**: once the router has been started, whatever happened before and after, even if it was stopped, a failure given to
one of its routes is given to the sender, unchanged. -/
theorem unhandled_partial (ops : List Op) (h : .start ∈ ops) (failure : Nat) :
    unhandledError (run Router.new ops).1 failure = .ok failure := by
  unfold unhandledError
  rw [run_sender]
  simp [h]

/-- **C133 fails** before: `AttributeError`, and the failure goes nowhere. -/
theorem unhandled_fails (ops : List Op) (h : .start ∉ ops) (failure : Nat) :
    unhandledError (run Router.new ops).1 failure = .error .attributeError := by
  unfold unhandledError
  rw [run_sender]
  simp [h, Router.new]

/-- A stopped router has not forgotten its sender: a connected route still sends boxes after the stop. -/
theorem send_after_stop (ops : List Op) (h : .start ∈ ops) (rid : Nat) (box : Box) {ro : Route} {name : Str}
    (hr : (run Router.new ops).1.heap[rid]? = some ro) (hn : ro.remote = .to (some name)) :
    (sendBox (run Router.new ops).1 rid box).2 = ([.send (Dict.set box ROUTE name)], .ok ()) := by
  have hs : (run Router.new ops).1.sender = true := by rw [run_sender]; simp [h]
  unfold sendBox
  simp only [hr, hn, hs, if_true]

example : unhandledError (run Router.new [.bind 3 none, .start, .stop 1]).1 9 = .ok 9 := rfl
example : unhandledError (run Router.new [.bind 3 none, .connect 0 none]).1 9 = .error .attributeError := rfl
example :
    let ops : List Op := [.bind 3 none, .connect 0 (some [98]), .start, .stop 1]
    (run Router.new ops).1.heap[0]? = some ⟨3, some [48], .to (some [98])⟩ ∧ Op.start ∈ ops := by decide +kernel

end Verif.Router
