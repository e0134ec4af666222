import Verif.Model.React
/-!
# C60: `react`
-/
namespace Verif.React
open Verif.Py

/-- What holds in every state, the queue included. -/
structure Inv (st : St) : Prop where
  /-- before the start nothing has been stopped -/
  created : st.phase = .created → st.stops = [] ∧ st.stopping = false
  /-- the queue is empty after the start -/
  started : st.phase ≠ .created → st.queue.filter (· = .reactStop) = []
  /-- `react` asks for one stop, when the Deferred has fired and the reactor is not shutting down -/
  asked : st.stops.length + (st.queue.filter (· = .reactStop)).length ≤ if st.fired.isSome then 1 else 0
  /-- while the Deferred has fired and the reactor is not stopping, a stop is in the queue -/
  pending : st.fired.isSome → st.phase = .created → (st.queue.filter (· = .reactStop)).length = 1
  /-- it then does not go on running -/
  stopped : st.fired.isSome → st.phase ≠ .running
  /-- the flag says that shutdown has begun -/
  flag : st.stopping = true ↔ st.phase = .shuttingDown ∨ st.phase = .done
  /-- `stop` has been called in two phases only -/
  phases : ∀ p ∈ st.stops, p = .running ∨ p = .stopRequested
  logged : st.logged = if st.fired = some false then 1 else 0

/-- The invariant while the queue `q` is being worked off after the start. -/
structure Mid (st : St) (q : List Queued) : Prop where
  phase : st.phase = .running ∨ st.phase = .stopRequested
  queue : st.queue = []
  stopping : st.stopping = false
  asked : st.stops.length + (q.filter (· = .reactStop)).length ≤ if st.fired.isSome then 1 else 0
  stopped : st.fired.isSome → st.phase = .running → (q.filter (· = .reactStop)).length = 1
  phases : ∀ p ∈ st.stops, p = .running ∨ p = .stopRequested
  logged : st.logged = if st.fired = some false then 1 else 0

theorem filter_cons (x : Queued) (q : List Queued) : ((x :: q).filter (· = .reactStop)).length =
    (if x = .reactStop then 1 else 0) + (q.filter (· = .reactStop)).length := by
  rw [List.filter_cons]
  cases x <;> simp [Nat.add_comm]

theorem mid_reactStop {st : St} {q : List Queued} (h : Mid st (.reactStop :: q)) : Mid (reactStop st) q := by
  obtain ⟨h1, h2, h3, h4, h5, h6, h7⟩ := h
  rw [filter_cons] at h4 h5
  refine ⟨?_, h2, h3, ?_, ?_, ?_, h7⟩
  · unfold reactStop; rcases h1 with e | e <;> simp [e]
  · simp only [reactStop, List.length_append, List.length_singleton]
    simp only [if_true] at h4
    refine Nat.le_trans ?_ h4
    omega
  · intro _ e
    exfalso
    unfold reactStop at e
    rcases h1 with e' | e' <;> simp [e'] at e
  · intro p hp
    unfold reactStop at hp
    rcases List.mem_append.1 hp with hp | hp
    · exact h6 p hp
    · simp only [List.mem_singleton] at hp; subst hp; exact h1

theorem mid_appStop {st : St} {q : List Queued} (h : Mid st q) : Mid (appStop st) q := by
  obtain ⟨h1, h2, h3, h4, h5, h6, h7⟩ := h
  unfold appStop
  rcases h1 with e | e
  · rw [if_pos e]
    exact ⟨Or.inr rfl, h2, h3, h4, fun _ e => (by cases e), h6, h7⟩
  · rw [if_neg (by rw [e]; decide)]
    exact ⟨Or.inr e, h2, h3, h4, h5, h6, h7⟩

theorem mid_fire {st : St} {q : List Queued} (ok : Bool) (h : Mid st q) : Mid (fireD ok st) q := by
  obtain ⟨h1, h2, h3, h4, h5, h6, h7⟩ := h
  unfold fireD
  cases hf : st.fired with
  | some b =>
    simp only [Option.isSome_some, if_true]
    exact ⟨h1, h2, h3, h4, h5, h6, h7⟩
  | none =>
    rw [hf] at h4 h7
    simp only [Option.isSome_none, Bool.false_eq_true, if_false] at h4 ⊢
    rw [if_neg (by rw [h3]; decide)]
    unfold callStopWhenRunning
    have hc : st.phase ≠ .created := by rcases h1 with e | e <;> rw [e] <;> decide
    rw [if_neg hc]
    unfold reactStop
    refine ⟨?_, h2, h3, ?_, ?_, ?_, ?_⟩
    · rcases h1 with e | e <;> simp [e]
    · simp only [List.length_append, List.length_singleton, Option.isSome_some, if_true]; omega
    · intro _ e
      exfalso
      rcases h1 with e' | e' <;> simp [e'] at e
    · intro p hp
      rcases List.mem_append.1 hp with hp | hp
      · exact h6 p hp
      · simp only [List.mem_singleton] at hp; subst hp; exact h1
    · simp only [reduceCtorEq, if_false] at h7
      simp only [h7]
      cases ok <;> simp

theorem mid_run {st : St} (q : List Queued) (h : Mid st q) : Mid (q.foldl (fun st q => runQueued q st) st) [] := by
  induction q generalizing st with
  | nil => exact h
  | cons x q ih =>
    rw [List.foldl_cons]
    apply ih
    cases x with
    | reactStop => exact mid_reactStop h
    | appStop =>
      apply mid_appStop
      obtain ⟨h1, h2, h3, h4, h5, h6, h7⟩ := h
      rw [filter_cons] at h4 h5
      simp only [reduceCtorEq, if_false, Nat.zero_add] at h4 h5
      exact ⟨h1, h2, h3, h4, h5, h6, h7⟩
    | appFire ok =>
      apply mid_fire
      obtain ⟨h1, h2, h3, h4, h5, h6, h7⟩ := h
      rw [filter_cons] at h4 h5
      simp only [reduceCtorEq, if_false, Nat.zero_add] at h4 h5
      exact ⟨h1, h2, h3, h4, h5, h6, h7⟩

theorem fire_inv {st : St} (h : Inv st) (ok : Bool) : Inv (fireD ok st) := by
  obtain ⟨h1, h2, h3, h4, h5, h6, h7, h8⟩ := h
  unfold fireD
  cases hf : st.fired with
  | some b =>
    simp only [Option.isSome_some, if_true]
    exact ⟨h1, h2, h3, h4, h5, h6, h7, h8⟩
  | none =>
    rw [hf] at h3 h8
    simp only [Option.isSome_none, Bool.false_eq_true, if_false, reduceCtorEq] at h3 h8 ⊢
    have hl : (if ok = true then st.logged else st.logged + 1) = if some ok = some false then 1 else 0 := by
      rw [h8]; cases ok <;> simp
    by_cases hs : st.stopping = true
    · rw [if_pos hs]
      have hp := h6.1 hs
      refine ⟨h1, h2, by simp; omega, fun _ e => ?_, fun _ => ?_, h6, h7, hl⟩
      · exfalso; rcases hp with e' | e' <;> rw [e'] at e <;> cases e
      · rcases hp with e' | e' <;> rw [e'] <;> decide
    · rw [if_neg hs]
      unfold callStopWhenRunning
      by_cases hc : st.phase = .created
      · rw [if_pos hc]
        refine ⟨h1, fun e => absurd hc e, ?_, ?_, fun _ => ?_, h6, h7, hl⟩
        · have : (st.queue.filter (· = .reactStop)).length = 0 := by omega
          simp only [List.filter_append, List.length_append, this, Option.isSome_some, if_true]
          have h0 : st.stops.length = 0 := by omega
          simp [h0]
        · intro _ _
          have : (st.queue.filter (· = .reactStop)).length = 0 := by omega
          simp only [List.filter_append, List.length_append, this]
          simp
        · simp only; rw [hc]; decide
      · rw [if_neg hc]
        have hp : st.phase = .running ∨ st.phase = .stopRequested := by
          cases hq : st.phase with
          | created => exact absurd hq hc
          | running => exact Or.inl rfl
          | stopRequested => exact Or.inr rfl
          | shuttingDown => exact absurd (h6.2 (Or.inl hq)) hs
          | done => exact absurd (h6.2 (Or.inr hq)) hs
        unfold reactStop
        refine ⟨fun e => ?_, fun _ => h2 hc, ?_, fun _ e => ?_, fun _ => ?_, ?_, ?_, hl⟩
        · exfalso
          simp only at e
          rcases hp with e' | e' <;> simp [e'] at e
        · simp only [List.length_append, List.length_singleton, Option.isSome_some, if_true]
          omega
        · exfalso
          simp only at e
          rcases hp with e' | e' <;> simp [e'] at e
        · simp only
          rcases hp with e' | e' <;> simp [e']
        · simp only
          have hs' : st.stopping = false := by simpa using hs
          rw [hs']
          rcases hp with e' | e' <;> simp [e']
        · intro p hq
          rcases List.mem_append.1 hq with hq | hq
          · exact h7 p hq
          · simp only [List.mem_singleton] at hq; subst hq; exact hp

theorem appStop_inv {st : St} (h : Inv st) : Inv (appStop st) := by
  unfold appStop
  by_cases hc : st.phase = .running
  · rw [if_pos hc]
    obtain ⟨h1, h2, h3, h4, h5, h6, h7, h8⟩ := h
    refine ⟨fun e => (by cases e), fun _ => h2 (by rw [hc]; decide), h3, fun _ e => (by cases e), fun _ => (by simp), ?_, h7, h8⟩
    have : st.stopping ≠ true := fun e => by
      rcases h6.1 e with e' | e' <;> rw [e'] at hc <;> cases hc
    simp [this]
  · rw [if_neg hc]; exact h

theorem step_inv {st : St} (h : Inv st) (e : Ev) : Inv (step st e) := by
  cases e with
  | appStop => exact appStop_inv h
  | appFire ok => exact fire_inv h ok
  | appWhenRunning q =>
    unfold step
    by_cases hq : q = .reactStop
    · simp only [if_pos hq]; exact h
    · simp only [if_neg hq]
      by_cases hc : st.phase = .created
      · rw [if_pos hc]
        have hf : (st.queue ++ [q]).filter (· = .reactStop) = st.queue.filter (· = .reactStop) := by
          rw [List.filter_append]; simp [hq]
        obtain ⟨h1, h2, h3, h4, h5, h6, h7, h8⟩ := h
        refine ⟨h1, fun e => absurd hc e, ?_, ?_, h5, h6, h7, h8⟩
        · simp only [hf]; exact h3
        · simp only [hf]; exact h4
      · rw [if_neg hc]
        cases q with
        | reactStop => exact absurd rfl hq
        | appStop => exact appStop_inv h
        | appFire ok => exact fire_inv h ok
  | start =>
    unfold step
    simp only
    by_cases hc : st.phase = .created
    · rw [if_pos hc]
      obtain ⟨h1, h2, h3, h4, h5, h6, h7, h8⟩ := h
      have hm := mid_run (st := { st with phase := .running, queue := [] }) st.queue
        ⟨Or.inl rfl, rfl, (h1 hc).2, h3, fun e _ => h4 e hc, h7, h8⟩
      obtain ⟨m1, m2, m3, m4, m5, m6, m7⟩ := hm
      generalize st.queue.foldl (fun st q => runQueued q st) { st with phase := .running, queue := [] } = st1 at *
      refine ⟨fun e => ?_, fun _ => by rw [m2]; rfl, by rw [m2]; exact m4, fun _ e => ?_, fun hf e => ?_, ?_, m6, m7⟩
      · exfalso; rcases m1 with e' | e' <;> rw [e'] at e <;> cases e
      · exfalso; rcases m1 with e' | e' <;> rw [e'] at e <;> cases e
      · have := m5 hf e; simp at this
      · rw [m3]
        rcases m1 with e' | e' <;> simp [e']
    · rw [if_neg hc]; exact h
  | beginShutdown =>
    unfold step
    simp only
    by_cases hc : st.phase = .stopRequested
    · rw [if_pos hc]
      obtain ⟨h1, h2, h3, h4, h5, h6, h7, h8⟩ := h
      exact ⟨fun e => (by cases e), fun _ => h2 (by rw [hc]; decide), h3, fun _ e => (by cases e), fun _ => (by simp), by simp, h7, h8⟩
    · rw [if_neg hc]; exact h
  | finish =>
    unfold step
    simp only
    by_cases hc : st.phase = .shuttingDown
    · rw [if_pos hc]
      obtain ⟨h1, h2, h3, h4, h5, h6, h7, h8⟩ := h
      refine ⟨fun e => (by cases e), fun _ => h2 (by rw [hc]; decide), h3, fun _ e => (by cases e), fun _ => (by simp), ?_, h7, h8⟩
      have := h6.2 (Or.inl hc)
      simp [this]
    · rw [if_neg hc]; exact h

theorem run_inv (es : List Ev) : Inv (run es) := by
  have gen : ∀ (es : List Ev) (st : St), Inv st → Inv (es.foldl step st) := by
    intro es
    induction es with
    | nil => intro st h; exact h
    | cons e es ih => intro st h; exact ih _ (step_inv h e)
  exact gen es begin ⟨by simp [begin], by simp [begin], by simp [begin], by simp [begin], by simp [begin], by simp [begin],
    by simp [begin], by simp [begin]⟩

/-- **C60, partial**: in every order of events `react` calls `reactor.stop` at most once, not before `main`'s Deferred
has fired, and never when its `before shutdown` trigger has run.  Missing: between a `stop()` by the application and
that trigger, `react` does call `stop` again (`react_window_fails`). -/
theorem react_stops_partial (es : List Ev) :
    (run es).stops.length ≤ 1 ∧ ((run es).fired = none → (run es).stops = []) ∧
    ∀ p ∈ (run es).stops, p = .running ∨ p = .stopRequested := by
  have h := run_inv es
  have ha := h.asked
  refine ⟨?_, fun hf => ?_, h.phases⟩
  · have : (if (run es).fired.isSome = true then 1 else 0) ≤ 1 := by split <;> omega
    omega
  · rw [hf] at ha
    simp at ha
    exact ha.1

/-- **C60**: the reactor runs until `main`'s Deferred fires: when it has fired the reactor does not go on running (it is
stopping or stopped, or will be stopped as soon as it has started). -/
theorem react_stops_when_fired (es : List Ev) (h : (run es).fired.isSome) : (run es).phase ≠ .running ∧
    ((run es).phase = .created → ∀ es', .start ∈ es' → (run (es ++ es')).phase ≠ .running ∧
      (run (es ++ es')).phase ≠ .created) := by
  refine ⟨(run_inv es).stopped h, fun _ es' hs => ?_⟩
  have hf : ∀ (es : List Ev) (st : St), st.fired.isSome → (es.foldl step st).fired.isSome := by
    have f1 : ∀ ok (st : St), st.fired.isSome → (fireD ok st).fired.isSome := by
      intro ok st hf
      unfold fireD; rw [if_pos hf]; exact hf
    have f2 : ∀ (st : St), st.fired.isSome → (appStop st).fired.isSome := by
      intro st hf; unfold appStop; split <;> exact hf
    have f3 : ∀ q (st : St), st.fired.isSome → (runQueued q st).fired.isSome := by
      intro q st hf
      cases q with
      | reactStop => exact hf
      | appStop => exact f2 st hf
      | appFire ok => exact f1 ok st hf
    have f4 : ∀ (q : List Queued) (st : St), st.fired.isSome → (q.foldl (fun st q => runQueued q st) st).fired.isSome := by
      intro q
      induction q with
      | nil => intro st hf; exact hf
      | cons x q ih => intro st hf; exact ih _ (f3 x st hf)
    intro es
    induction es with
    | nil => intro st hf; exact hf
    | cons e es ih =>
      intro st hf
      refine ih _ ?_
      cases e with
      | appStop => exact f2 st hf
      | appFire ok => exact f1 ok st hf
      | appWhenRunning q =>
        unfold step
        simp only
        split
        · exact hf
        · split
          · exact hf
          · exact f3 q st hf
      | start =>
        unfold step
        simp only
        split
        · exact f4 _ _ hf
        · exact hf
      | beginShutdown => unfold step; simp only; split <;> exact hf
      | finish => unfold step; simp only; split <;> exact hf
  have hc1 : ∀ (st : St) (e : Ev), st.phase ≠ .created → (step st e).phase ≠ .created := by
    have c1 : ∀ (st : St), st.phase ≠ .created → (reactStop st).phase ≠ .created := by
      intro st hc; unfold reactStop; simp only; split
      · decide
      · exact hc
    have c2 : ∀ (st : St), st.phase ≠ .created → (appStop st).phase ≠ .created := by
      intro st hc; unfold appStop; split
      · simp
      · exact hc
    have c3 : ∀ ok (st : St), st.phase ≠ .created → (fireD ok st).phase ≠ .created := by
      intro ok st hc
      unfold fireD
      split
      · exact hc
      · simp only
        split
        · exact hc
        · unfold callStopWhenRunning
          simp only [if_neg hc]
          exact c1 _ hc
    intro st e hc
    cases e with
    | appStop => exact c2 st hc
    | appFire ok => exact c3 ok st hc
    | appWhenRunning q =>
      unfold step
      simp only
      split
      · exact hc
      · try rw [if_neg hc]
        cases q with
        | reactStop => exact c1 st hc
        | appStop => exact c2 st hc
        | appFire ok => exact c3 ok st hc
    | start => unfold step; simp only; rw [if_neg hc]; exact hc
    | beginShutdown =>
      unfold step; simp only; split
      · simp
      · exact hc
    | finish =>
      unfold step; simp only; split
      · simp
      · exact hc
  have hc2 : ∀ (es : List Ev) (st : St), st.phase ≠ .created → (es.foldl step st).phase ≠ .created := by
    intro es
    induction es with
    | nil => intro st hc; exact hc
    | cons e es ih => intro st hc; exact ih _ (hc1 st e hc)
  obtain ⟨a, b, rfl⟩ := List.append_of_mem hs
  have e1 : run (es ++ (a ++ .start :: b)) = (b.foldl step (step (run (es ++ a)) .start)) := by
    unfold run; simp [List.foldl_append]
  refine ⟨?_, ?_⟩
  · refine (run_inv _).stopped ?_
    have : run (es ++ (a ++ .start :: b)) = (a ++ .start :: b).foldl step (run es) := by
      unfold run; rw [List.foldl_append]
    rw [this]
    exact hf _ _ h
  · rw [e1]
    apply hc2
    by_cases hc : (run (es ++ a)).phase = .created
    · have hi := run_inv (es ++ a)
      obtain ⟨h1, h2, h3, h4, h5, h6, h7, h8⟩ := hi
      have hm := mid_run (st := { run (es ++ a) with phase := .running, queue := [] }) (run (es ++ a)).queue
        ⟨Or.inl rfl, rfl, (h1 hc).2, h3, fun e _ => h4 e hc, h7, h8⟩
      unfold step
      simp only [if_pos hc]
      rcases hm.phase with e' | e' <;> rw [e'] <;> decide
    · exact hc1 _ _ hc

/-- **C60**: a failure of `main` is logged once, a success not at all. -/
theorem react_logs (es : List Ev) : (run es).logged = if (run es).fired = some false then 1 else 0 := (run_inv es).logged

/-- Before the Deferred fires `react` does nothing to the reactor: it runs as it would under the application alone. -/
theorem react_idle (es : List Ev) (h : (run es).fired = none) :
    (run es).stops = [] ∧ (run es).logged = 0 ∧ (run es).queue.filter (· = .reactStop) = [] := by
  have hi := run_inv es
  have ha := hi.asked
  rw [h] at ha
  simp at ha
  refine ⟨ha.1, by rw [hi.logged, h]; simp, ?_⟩
  rw [List.filter_eq_nil_iff]
  simpa using ha.2

/-- The application stops the reactor and fires the Deferred in the same turn: `react` calls `stop` although the reactor
is already stopping, which raises `ReactorNotRunning`. -/
theorem react_window_fails : (run [.start, .appStop, .appFire true]).stops = [.stopRequested] := by decide

example : run [.appFire false, .start, .beginShutdown, .finish] =
    ⟨.done, [], true, some false, 1, [.running]⟩ := by decide
example : run [.appWhenRunning .appStop, .start, .beginShutdown, .appFire true, .finish] =
    ⟨.done, [], true, some true, 0, []⟩ := by decide

end Verif.React
