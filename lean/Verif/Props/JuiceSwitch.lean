import Verif.Lemmas.JuiceSwitch
/-!
# C83: a protocol switch hands the connection over

Full claim: once both peers have switched, each inner protocol receives exactly the bytes written by the other one, in order,
nothing of the inner traffic is taken for juice, and nothing of the juice traffic reaches an inner protocol; and a switch
that was asked for ends in a switched peer or in a `clientConnectionFailed`.
-/
namespace Verif.JuiceSwitch
open Verif.Py

theorem filter_inner (l : List Item) : l.filter Item.isInner = (underway l).map .inner := by
  induction l with
  | nil => rfl
  | cons it l ih =>
    rw [List.filter_cons, ih]
    cases it <;> rfl

/-- As long as no peer uses juice after it has switched, the streams of the inner protocols arrive intact.  Missing: nothing in
`Juice` keeps a peer that has switched from using juice (`server_pending_fails`). -/
theorem handover_partial (ops : List Op) (ho : OrderlyRun World.new ops) (s : Bool) :
    let w := run World.new ops
    (w.side (!s)).garbled = [] ∧ (w.side (!s)).got ++ (underway (w.chan s)).map .inner = (w.side s).wrote.map .inner := by
  have h := inv_run ops inv_new ho s
  refine ⟨h.ungarbled, ?_⟩
  rw [← filter_inner]; exact h.stream

/-- A complete exchange; the client's inner protocol writes at once, the server's before the client knows. -/
def exchange : List Op :=
  [.command false true, .deliver true, .respond true 0 .ok, .switch false, .deliver true, .respond true 0 .ok, .write true 7,
   .deliver false, .deliver false, .write false 8, .deliver false, .deliver true, .write true 9]

example : OrderlyRun World.new exchange := by
  simp [OrderlyRun, exchange, Orderly, step, command, switchDo, deliver, respond, innerWrite, receive, switchNow, World.new,
    Side.new, World.setSide, World.setChan, Dict.get?, Dict.set, Dict.erase]

example : let w := run World.new exchange
    (w.side true).inner = true ∧ (w.side false).inner = true ∧ (w.side true).got = [.inner 8] ∧ (w.side false).got = [.inner 7] ∧
      w.chan true = [.inner 9] ∧ (w.side true).wrote = [7, 9] := by decide

/-- A peer switches only once: the answer to a second switch is sent, but switching then fails, and the connection is dropped. -/
theorem switch_twice (w : World) (s : Bool) (i t : Nat) (h : (w.side s).pending[i]? = some (some t, true))
    (hi : (w.side s).inner = true) (hl : (w.side s).locked = false) (hu : (w.side s).outstanding ≠ none) :
    let w' := step w (.respond s i .ok)
    (w'.side s).raised = (w.side s).raised ++ [.assertionError] ∧ (w'.side s).dropped = true ∧ (w'.side s).inner = true ∧
      w'.chan s = w.chan s ++ [.answer t true] := by
  obtain ⟨d, hd⟩ := Option.ne_none_iff_exists'.1 hu
  simp [step, respond, h, hi, hl, hd, World.setSide, World.setChan]

/-- A connection that is lost while a switch is waiting: the switch has failed, and the connection is dropped; otherwise neither
changes. -/
theorem lost_switch (w : World) (s : Bool) (d : Dict Nat Bool) (h : (w.side s).outstanding = some d) :
    let p := (step w (.lose s)).side s
    ((∃ t, (t, true) ∈ d) → p.dropped = true ∧ (w.side s).failed < p.failed) ∧
    ((∀ t, (t, true) ∉ d) → p.dropped = (w.side s).dropped ∧ p.failed = (w.side s).failed) := by
  simp only [step, lose, h, World.setSide, if_true]
  refine ⟨?_, ?_⟩
  · rintro ⟨t, ht⟩
    have h1 : d.any (·.2) = true := List.any_eq_true.2 ⟨_, ht, rfl⟩
    have h2 : 0 < (d.filter (·.2)).length := List.length_pos_iff.2 (List.ne_nil_of_mem (List.mem_filter.2 ⟨ht, rfl⟩))
    exact ⟨by simp [h1], by omega⟩
  · intro hn
    have h1 : ∀ p ∈ d, p.2 = false := by
      intro p hp
      cases hb : p.2 with
      | false => rfl
      | true => exact absurd (by rw [← hb]; exact hp) (hn p.1)
    have h2 : d.filter (·.2) = [] := List.filter_eq_nil_iff.2 fun p hp => by simp [h1 p hp]
    have h3 : d.any (·.2) = false := List.any_eq_false.2 fun p hp => by simp [h1 p hp]
    exact ⟨by simp [h3], by simp [h2]⟩

/-- A slow command, then a switch: the client sends both, and the server's handler for the first ends after the switch. -/
def slowServer : List Op :=
  [.command false true, .switch false, .deliver true, .deliver true, .respond true 1 .ok, .respond true 0 .ok, .deliver false,
   .deliver false]

/-- The late answer of a server goes to the client's inner protocol, although the server's inner protocol wrote nothing. -/
theorem server_pending_fails :
    ∃ ops, let w := run World.new ops
      (w.side false).inner = true ∧ (w.side true).inner = true ∧ (w.side true).wrote = [] ∧
        (w.side false).got = [.answer 1 false] ∧ (w.side true).raised = [] :=
  ⟨slowServer, by decide⟩

/-- The late answer of a client costs the connection after a successful switch. -/
theorem client_pending_fails :
    ∃ ops, OrderlyRun World.new ops ∧ let w := run World.new ops
      (w.side false).inner = true ∧ (w.side true).inner = true ∧ (w.side false).dropped = false ∧
        let w' := step w (.respond false 0 .ok)
        (w'.side false).raised = [.assertionError] ∧ (w'.side false).dropped = true := by
  refine ⟨[.command true true, .deliver false, .switch false, .deliver true, .respond true 0 .ok, .deliver false], ?_, by decide⟩
  simp [OrderlyRun, Orderly, step, command, switchDo, deliver, respond, receive, World.new, Side.new, World.setSide, World.setChan,
    Dict.get?, Dict.set]

/-- Nothing is under way, nobody can send. -/
def Stuck (w : World) : Prop :=
  ∀ s, (w.side s).locked = true ∧ (w.side s).inner = false ∧ (w.side s).pending = [] ∧ w.chan s = []

theorem stuck_step {w : World} (h : Stuck w) (op : Op) : Stuck (step w op) := by
  have key : ∀ (s : Bool) (p : Side), p.locked = true → p.inner = false → p.pending = [] → Stuck (w.setSide s p) := by
    intro s p h1 h2 h3 b
    by_cases hb : b = s
    · subst hb; simp [h1, h2, h3, (h b).2.2.2]
    · have : b = !s := by cases b <;> cases s <;> simp_all
      subst this; simpa using h (!s)
  cases op with
  | command s a =>
    obtain ⟨h1, h2, h3, h4⟩ := h s
    simp only [step, command]
    split
    · exact h
    · cases a <;> simp only [if_true, Bool.false_eq_true, if_false, h1] <;> exact key s _ rfl h2 h3
  | switch s =>
    obtain ⟨h1, h2, h3, h4⟩ := h s
    simp only [step, switchDo]
    split
    · exact key s _ rfl h2 h3
    · simp only [h1, if_true]; exact key s _ rfl h2 h3
  | deliver s =>
    have : w.chan (!s) = [] := (h (!s)).2.2.2
    simp only [step, deliver, this]
    split
    · rename_i hc; cases hc
    · exact h
  | respond s i r =>
    simp only [step, respond, (h s).2.2.1]
    simpa using h
  | write s b =>
    simp only [step, innerWrite, (h s).2.1]
    simpa using h
  | lose s =>
    obtain ⟨h1, h2, h3, h4⟩ := h s
    simp only [step, lose]
    split
    · exact h
    · exact key s _ h1 h2 h3

theorem stuck_run (ops : List Op) {w : World} (h : Stuck w) : Stuck (run w ops) := by
  induction ops generalizing w with
  | nil => exact h
  | cons op ops ih => exact ih (stuck_step h op)

/-- When both peers ask for a switch at the same time, each ignores the other's request, and neither ever switches. -/
theorem simultaneous_switch_fails :
    ∃ ops, OrderlyRun World.new ops ∧ ∀ more, let w := run (run World.new ops) more
      (w.side false).inner = false ∧ (w.side true).inner = false := by
  refine ⟨[.switch false, .switch true, .deliver true, .deliver false], ?_, ?_⟩
  · simp [OrderlyRun, Orderly, step, switchDo, deliver, receive, World.new, Side.new, World.setSide, World.setChan]
  · intro more
    have h : Stuck (run World.new [.switch false, .switch true, .deliver true, .deliver false]) := by
      intro s; cases s <;> decide
    have := stuck_run more h
    exact ⟨(this false).2.1, (this true).2.1⟩

/-- Every switch a peer starts ends in exactly one of three ways: it is still waiting, its factory has been told that it failed,
or the peer has switched. -/
theorem started_settled (ops : List Op) (ho : OrderlyRun World.new ops) (s : Bool) :
    let p := (run World.new ops).side s
    started s World.new ops = waiting p + p.failed + (if p.locked = true ∧ p.inner = true then 1 else 0) := by
  have := ledger_run s ops inv_new ho
  simpa [ledger, waiting, World.new, Side.new] using this

/-- A peer switches at most once, and a peer that has switched on its own request is told of no failure: with one started
switch, the three ways exclude each other. -/
theorem switched_not_failed (ops : List Op) (ho : OrderlyRun World.new ops) (s : Bool) (h1 : started s World.new ops = 1) :
    let p := (run World.new ops).side s
    p.locked = true → p.inner = true → p.failed = 0 ∧ waiting p = 0 := by
  intro p hl hi
  have h : started s World.new ops = waiting p + p.failed + (if p.locked = true ∧ p.inner = true then 1 else 0) :=
    started_settled ops ho s
  rw [h1, if_pos ⟨hl, hi⟩] at h
  omega

example : started false World.new exchange = 1 ∧ ((run World.new exchange).side false).failed = 0 := by decide

/-- A refused switch. -/
example : let w := run World.new [.switch false, .deliver true, .respond true 0 .error, .deliver false]
    started false World.new [.switch false, .deliver true, .respond true 0 .error, .deliver false] = 1 ∧
      (w.side false).failed = 1 ∧ (w.side false).dropped = true ∧ waiting (w.side false) = 0 := by decide

/-- A request for a switch that is under way to a peer that has not asked for one itself makes both peers switch, once what is
under way has arrived and the responder agrees. -/
theorem switch_completes (ops : List Op) (ho : OrderlyRun World.new ops) (s : Bool) (t : Nat)
    (hc : .ask t true ∈ (run World.new ops).chan s) (hu : ((run World.new ops).side (!s)).locked = false)
    (ha : ∀ b, ((run World.new ops).side b).outstanding ≠ none) :
    ∃ n i m, let more := List.replicate n (.deliver (!s)) ++ .respond (!s) i .ok :: List.replicate m (.deliver s)
      let w := run (run World.new ops) more
      OrderlyRun (run World.new ops) more ∧ (w.side s).inner = true ∧ (w.side (!s)).inner = true :=
  completes (inv_run ops inv_new ho) s t hc hu ha

example : let w := run World.new [.command false true, .command true false, .switch false]
    OrderlyRun World.new [.command false true, .command true false, .switch false] ∧ .ask 2 true ∈ w.chan false ∧ (w.side true).locked = false := by
  refine ⟨?_, by decide, by decide⟩
  simp [OrderlyRun, Orderly, step, command, World.new, Side.new, World.setSide, World.setChan, Dict.set]

end Verif.JuiceSwitch
