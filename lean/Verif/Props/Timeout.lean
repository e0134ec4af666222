import Verif.Model.Timeout
import Mathlib.Data.List.Induction
/-!
# C70: `TimeoutMixin` keeps at most one timer and fires it after exactly one quiet period

The specification reads the log of completed operations: the timer is armed with period `p` since time `a` when the last
`setTimeout` in the log was `setTimeout(p)`, only `resetTimeout`s follow it, and `a` is the time of the last of these.
-/
namespace Verif.Timeout
open Verif.Py

/-- The time of the last entry, or `t` if there is none. -/
def lastTime (t : Int) (l : List (Int × Ev)) : Int :=
  match l.getLast? with
  | none => t
  | some e => e.1

/-- The log says: a period of `p` has been running since `a`. -/
def Armed (log : List (Int × Ev)) (a p : Int) : Prop :=
  ∃ l₁ l₂ t, log = l₁ ++ (t, .set (some p)) :: l₂ ∧ (∀ e ∈ l₂, e.2 = .reset) ∧ a = lastTime t l₂

/-- A time-out is due at `now`. -/
def Due (log : List (Int × Ev)) (now : Int) : Prop := ∃ a p, Armed log a p ∧ a + p ≤ now

theorem armed_nil (a p : Int) : ¬ Armed [] a p := by
  rintro ⟨l₁, l₂, t, h, _⟩; simp at h

/-- How the last entry of the log decides. -/
theorem armed_snoc (log : List (Int × Ev)) (x : Int × Ev) (a p : Int) :
    Armed (log ++ [x]) a p ↔
      (x = (a, .set (some p))) ∨ (x = (a, .reset) ∧ ∃ a', Armed log a' p) := by
  constructor
  · rintro ⟨l₁, l₂, t, h, hr, ha⟩
    rcases List.eq_nil_or_concat l₂ with rfl | ⟨l₂', y, rfl⟩
    · rw [List.append_inj_left' h rfl, List.append_cancel_left_eq] at h
      simp only [lastTime, List.getLast?_nil] at ha
      left
      simp only [List.cons.injEq, and_true] at h
      rw [h, ha]
    · rw [List.concat_eq_append] at h hr ha
      rw [← List.cons_append, ← List.append_assoc] at h
      obtain ⟨h1, h2⟩ := List.append_inj' h rfl
      simp only [List.cons.injEq, and_true] at h2
      subst h2
      simp only [lastTime, List.getLast?_concat] at ha
      right
      refine ⟨?_, lastTime t l₂', l₁, l₂', t, h1, fun e he => hr e (by simp [he]), rfl⟩
      have := hr x (by simp)
      obtain ⟨x1, x2⟩ := x
      simp only at this ha
      rw [this, ha]
  · rintro (rfl | ⟨rfl, a', l₁, l₂, t, h, hr, ha⟩)
    · exact ⟨log, [], a, rfl, by simp, rfl⟩
    · refine ⟨l₁, l₂ ++ [(a, .reset)], t, by rw [h]; simp, ?_, by simp [lastTime]⟩
      intro e he
      rcases List.mem_append.mp he with he | he
      · exact hr e he
      · rw [List.mem_singleton] at he; subst he; rfl

/-- The log determines the period and its beginning. -/
theorem armed_unique (log : List (Int × Ev)) (a p a' p' : Int) (h : Armed log a p) (h' : Armed log a' p') :
    a = a' ∧ p = p' := by
  induction log using List.reverseRecOn generalizing a p a' p' with
  | nil => exact absurd h (armed_nil a p)
  | append_singleton log x ih =>
    rw [armed_snoc] at h h'
    rcases h with rfl | ⟨rfl, b, h⟩ <;> rcases h' with e | ⟨e, b', h'⟩
    · cases e; exact ⟨rfl, rfl⟩
    · cases e
    · cases e
    · cases e; exact ⟨rfl, (ih _ _ _ _ h h').2⟩

/-- The state agrees with the log. -/
structure Inv (st : St) : Prop where
  lt : ∀ c ∈ st.calls, c.1 < st.made
  idle : st.call = none → st.calls = [] ∧ ∀ a p, ¬ Armed st.log a p
  armed : ∀ id, st.call = some id → ∃ a p, st.calls = [(id, a + p)] ∧ st.timeOut = some p ∧ Armed st.log a p

theorem inv_new (now : Int) : Inv (St.new now) :=
  ⟨by simp [St.new], fun _ => ⟨rfl, armed_nil⟩, by simp [St.new]⟩

/-- What `setTimeout` does in a state that agrees with the log. -/
theorem setTimeout_inv (st : St) (h : Inv st) (p : Option Int) :
    (∃ st', setTimeout st p = (.ok st.timeOut, st') ∧ st'.now = st.now ∧ st'.log = st.log ∧ st'.timeOut = p ∧
      (∀ c ∈ st'.calls, c.1 < st'.made) ∧
      match p with
      | none => st'.call = none ∧ st'.calls = []
      | some q => ∃ id, st'.call = some id ∧ st'.calls = [(id, st.now + q)]) ∨
    (setTimeout st p = (.error .assertionError, { st with timeOut := p }) ∧ st.call = none ∧ ∃ q, p = some q ∧ q < 0) := by
  cases hc : st.call with
  | some id =>
    left
    obtain ⟨a, q, h1, h2, h3⟩ := h.armed id hc
    have hlt := h.lt (id, a + q) (by simp [h1])
    cases p with
    | none =>
      refine ⟨{ st with timeOut := none, calls := [], call := none }, ?_, rfl, rfl, rfl, by simp, rfl, rfl⟩
      simp [setTimeout, hc, cancelCall, h1]
    | some p =>
      refine ⟨{ st with timeOut := some p, calls := [(id, st.now + p)] }, ?_, rfl, rfl, rfl, by simpa using hlt, id, hc, rfl⟩
      simp [setTimeout, hc, resetCall, h1]
  | none =>
    obtain ⟨h1, h2⟩ := h.idle hc
    cases p with
    | none =>
      left
      refine ⟨{ st with timeOut := none }, by simp [setTimeout, hc], rfl, rfl, rfl, h.lt, hc, h1⟩
    | some p =>
      by_cases hp : p < 0
      · right
        refine ⟨by simp [setTimeout, hc, callLater, hp], rfl, p, rfl, hp⟩
      · left
        refine ⟨{ st with timeOut := some p, calls := [(st.made, st.now + p)], made := st.made + 1, call := some st.made },
          by simp [setTimeout, hc, callLater, hp, h1], rfl, rfl, rfl, by simp, st.made, rfl, rfl⟩

theorem resetTimeout_inv (st : St) (h : Inv st) :
    (st.call = none ∧ resetTimeout st = .ok st) ∨
    ∃ id a p, st.call = some id ∧ st.timeOut = some p ∧ Armed st.log a p ∧ id < st.made ∧
      resetTimeout st = .ok { st with calls := [(id, st.now + p)] } := by
  cases hc : st.call with
  | none => left; exact ⟨rfl, by rw [resetTimeout, hc]⟩
  | some id =>
    right
    obtain ⟨a, p, h1, h2, h3⟩ := h.armed id hc
    refine ⟨id, a, p, rfl, h2, h3, h.lt (id, a + p) (by simp [h1]), ?_⟩
    simp [resetTimeout, hc, h2, resetCall, h1]

theorem runOp_inv (st : St) (h : Inv st) (o : Op) :
    Inv (runOp st o) ∧ (runOp st o).now = st.now ∧
      ((runOp st o).log = st.log ∨ (runOp st o).log = st.log ++ [(st.now, match o with | .set p => .set p | .reset => .reset)]) := by
  cases o with
  | set p =>
    rcases setTimeout_inv st h p with ⟨st', h1, hn, hl, ht, hlt, h2⟩ | ⟨h1, hc, q, rfl, hq⟩
    · refine ⟨?_, by simp [runOp, h1, hn], Or.inr (by simp [runOp, h1, hn, hl])⟩
      rw [runOp, h1]
      cases p with
      | none =>
        simp only at h2
        refine ⟨hlt, fun _ => ⟨h2.2, fun a p ha => ?_⟩, fun id hid => ?_⟩
        · simp only [hl, armed_snoc] at ha
          rcases ha with e | ⟨e, _⟩ <;> cases e
        · simp only [h2.1] at hid; cases hid
      | some q =>
        simp only at h2
        obtain ⟨id, hid, hcs⟩ := h2
        refine ⟨hlt, fun hc => by simp [hid] at hc, fun id' hid' => ?_⟩
        simp only [hid, Option.some.injEq] at hid'
        subst hid'
        exact ⟨st.now, q, hcs, ht, (armed_snoc _ _ _ _).mpr (Or.inl (by rw [hn]))⟩
    · refine ⟨?_, by simp [runOp, h1], Or.inl (by simp [runOp, h1])⟩
      rw [runOp, h1]
      exact ⟨h.lt, fun _ => h.idle hc, fun id hid => by simp [hc] at hid⟩
  | reset =>
    rcases resetTimeout_inv st h with ⟨hc, h1⟩ | ⟨id, a, p, hc, ht, ha, hlt, h1⟩
    · refine ⟨?_, by simp [runOp, h1], Or.inr (by simp [runOp, h1])⟩
      rw [runOp, h1]
      refine ⟨h.lt, fun _ => ⟨(h.idle hc).1, fun a p ha => ?_⟩, fun id hid => by simp [hc] at hid⟩
      rw [armed_snoc] at ha
      rcases ha with e | ⟨_, a', ha⟩
      · cases e
      · exact (h.idle hc).2 a' p ha
    · refine ⟨?_, by simp [runOp, h1], Or.inr (by simp [runOp, h1])⟩
      rw [runOp, h1]
      refine ⟨by simpa using hlt, fun e => by simp [hc] at e, fun id' hid' => ?_⟩
      simp only [hc, Option.some.injEq] at hid'
      subst hid'
      exact ⟨st.now, p, rfl, ht, (armed_snoc _ _ _ _).mpr (Or.inr ⟨rfl, a, ha⟩)⟩

theorem runOps_inv (os : List Op) (st : St) (h : Inv st) :
    Inv (os.foldl runOp st) ∧ (os.foldl runOp st).now = st.now ∧
      ∃ l, (os.foldl runOp st).log = st.log ++ l ∧ ∀ e ∈ l, e.2 ≠ .timeout := by
  induction os generalizing st with
  | nil => exact ⟨h, rfl, [], by simp, by simp⟩
  | cons o os ih =>
    obtain ⟨h1, h2, h3⟩ := runOp_inv st h o
    obtain ⟨h4, h5, l, h6, h7⟩ := ih _ h1
    refine ⟨h4, by rw [List.foldl_cons, h5, h2], ?_⟩
    rcases h3 with h3 | h3
    · exact ⟨l, by rw [List.foldl_cons, h6, h3], h7⟩
    · refine ⟨_ :: l, by rw [List.foldl_cons, h6, h3, List.append_assoc, List.singleton_append], ?_⟩
      intro e he
      rcases List.mem_cons.mp he with rfl | he
      · cases o <;> simp
      · exact h7 e he

/-- What a turn does in a state that agrees with the log. -/
theorem turn_inv (script : Nat → List Op) (st : St) (h : Inv st) :
    Inv (turn script st) ∧ (turn script st).now = st.now ∧
    ((¬ Due st.log st.now ∧ turn script st = st) ∨
     (Due st.log st.now ∧ ∃ l, (turn script st).log = st.log ++ (st.now, .timeout) :: l ∧ ∀ e ∈ l, e.2 ≠ .timeout)) := by
  cases hc : st.call with
  | none =>
    obtain ⟨h1, h2⟩ := h.idle hc
    have ht : turn script st = st := by rw [turn, h1]; rfl
    rw [ht]
    exact ⟨h, rfl, Or.inl ⟨fun ⟨a, p, ha, _⟩ => h2 a p ha, rfl⟩⟩
  | some id =>
    obtain ⟨a, p, h1, h2, h3⟩ := h.armed id hc
    by_cases hd : a + p ≤ st.now
    · have ht : turn script st = (script id).foldl runOp
          { st with calls := [], call := none, log := st.log ++ [(st.now, .timeout)] } := by
        simp [turn, h1, hd, runDue, timedOut]
      have hi : Inv { st with calls := [], call := none, log := st.log ++ [(st.now, .timeout)] } := by
        refine ⟨by simp, fun _ => ⟨rfl, fun a p ha => ?_⟩, by simp⟩
        rw [armed_snoc] at ha
        rcases ha with e | ⟨e, _⟩ <;> cases e
      obtain ⟨h4, h5, l, h6, h7⟩ := runOps_inv (script id) _ hi
      rw [ht]
      refine ⟨h4, h5, Or.inr ⟨⟨a, p, h3, hd⟩, l, ?_, h7⟩⟩
      rw [h6, List.append_assoc, List.singleton_append]
    · have ht : turn script st = st := by
        simp [turn, h1, hd, runDue]
      rw [ht]
      refine ⟨h, rfl, Or.inl ⟨?_, rfl⟩⟩
      rintro ⟨a', p', ha, hd'⟩
      obtain ⟨rfl, rfl⟩ := armed_unique _ _ _ _ _ h3 ha
      exact hd hd'

theorem step_inv (script : Nat → List Op) (st : St) (h : Inv st) (s : Step) : Inv (step script st s) := by
  cases s with
  | wait dt => exact ⟨h.lt, h.idle, h.armed⟩
  | turn => exact (turn_inv script st h).1
  | op o => exact (runOp_inv st h o).1

theorem run_inv (script : Nat → List Op) (steps : List Step) (st : St) (h : Inv st) : Inv (run script steps st) := by
  induction steps generalizing st with
  | nil => exact h
  | cons s steps ih => exact ih _ (step_inv script st h s)

/-- **C70**: at most one call is pending, and one is exactly while a period is running; it is scheduled for its end. -/
theorem timeout_one_timer (script : Nat → List Op) (steps : List Step) (t₀ : Int) :
    let st := run script steps (St.new t₀)
    st.calls.length ≤ 1 ∧ ∀ t, (∃ id, (id, t) ∈ st.calls) ↔ ∃ a p, Armed st.log a p ∧ t = a + p := by
  intro st
  have h : Inv st := run_inv script steps _ (inv_new t₀)
  cases hc : st.call with
  | none =>
    obtain ⟨h1, h2⟩ := h.idle hc
    rw [h1]
    exact ⟨by simp, fun t => ⟨fun ⟨id, hm⟩ => by simp at hm, fun ⟨a, p, ha, _⟩ => absurd ha (h2 a p)⟩⟩
  | some id =>
    obtain ⟨a, p, h1, h2, h3⟩ := h.armed id hc
    rw [h1]
    refine ⟨by simp, fun t => ⟨fun ⟨id', hm⟩ => ?_, fun ⟨a', p', ha, ht⟩ => ?_⟩⟩
    · simp only [List.mem_singleton, Prod.mk.injEq] at hm
      exact ⟨a, p, h3, hm.2⟩
    · obtain ⟨rfl, rfl⟩ := armed_unique _ _ _ _ _ h3 ha
      exact ⟨id, by simp [ht]⟩

/-- **C70**: a turn of the reactor times the connection out, once, exactly when the configured period has passed since the
last `setTimeout` or `resetTimeout`; otherwise it does nothing. -/
theorem timeout_exactly_when_due (script : Nat → List Op) (steps : List Step) (t₀ : Int) :
    let st := run script steps (St.new t₀)
    (Due st.log st.now →
      ∃ l, (turn script st).log = st.log ++ (st.now, .timeout) :: l ∧ ∀ e ∈ l, e.2 ≠ .timeout) ∧
    (¬ Due st.log st.now → turn script st = st) := by
  intro st
  have h : Inv st := run_inv script steps _ (inv_new t₀)
  rcases (turn_inv script st h).2.2 with ⟨h1, h2⟩ | ⟨h1, h2⟩
  · exact ⟨fun hd => absurd hd h1, fun _ => h2⟩
  · exact ⟨fun _ => h2, fun hd => absurd h1 hd⟩

/-- **C70**: nothing but a turn times out: an operation adds at most its own entry to the log, waiting adds none. -/
theorem timeout_only_in_turns (script : Nat → List Op) (steps : List Step) (t₀ : Int) (o : Op) (dt : Nat) :
    let st := run script steps (St.new t₀)
    ((runOp st o).log = st.log ∨
      (runOp st o).log = st.log ++ [(st.now, match o with | .set p => .set p | .reset => .reset)]) ∧
    (step script st (.wait dt)).log = st.log := by
  intro st
  exact ⟨(runOp_inv st (run_inv script steps _ (inv_new t₀)) o).2.2, rfl⟩

/-- The operations raise only when a negative period is set while none is running; they give back the previous period. -/
theorem timeout_ops (script : Nat → List Op) (steps : List Step) (t₀ : Int) (p : Option Int) :
    let st := run script steps (St.new t₀)
    (∃ st', resetTimeout st = .ok st') ∧
    ((∃ st', setTimeout st p = (.ok st.timeOut, st')) ∨
     (setTimeout st p).1 = .error .assertionError ∧ (∃ q, p = some q ∧ q < 0) ∧ ∀ a q, ¬ Armed st.log a q) := by
  intro st
  have h : Inv st := run_inv script steps _ (inv_new t₀)
  constructor
  · rcases resetTimeout_inv st h with ⟨_, h1⟩ | ⟨_, _, _, _, _, _, _, h1⟩ <;> exact ⟨_, h1⟩
  · rcases setTimeout_inv st h p with ⟨st', h1, _⟩ | ⟨h1, hc, hq⟩
    · exact Or.inl ⟨st', h1⟩
    · exact Or.inr ⟨by rw [h1], hq, (h.idle hc).2⟩

/-- A step that does not set a period. -/
def Step.Quiet : Step → Prop
  | .op (.set (some _)) => False
  | _ => True

theorem quiet_run (script : Nat → List Op) (steps : List Step) (hq : ∀ s ∈ steps, s.Quiet) (st : St) (h : Inv st)
    (hn : ∀ a p, ¬ Armed st.log a p) :
    ∃ l, (run script steps st).log = st.log ++ l ∧ ∀ e ∈ l, e.2 ≠ .timeout := by
  induction steps generalizing st with
  | nil => exact ⟨[], by simp [run], by simp⟩
  | cons s steps ih =>
    have hs := hq s (by simp)
    have ih := fun st h hn => ih (fun x hx => hq x (List.mem_cons_of_mem _ hx)) st h hn
    cases s with
    | wait dt => exact ih _ (step_inv script st h (.wait dt)) hn
    | turn =>
      rcases (turn_inv script st h).2.2 with ⟨_, h2⟩ | ⟨⟨a, p, ha, _⟩, _⟩
      · have := ih _ (step_inv script st h .turn) (by rw [step, h2]; exact hn)
        rw [run, List.foldl_cons, ← run]
        simp only [step, h2] at this ⊢
        exact this
      · exact absurd ha (hn a p)
    | op o =>
      obtain ⟨h1, _, h3⟩ := runOp_inv st h o
      have hx : ∀ a p, ¬ Armed (runOp st o).log a p := by
        intro a p ha
        rcases h3 with h3 | h3
        · rw [h3] at ha; exact hn a p ha
        · rw [h3, armed_snoc] at ha
          rcases ha with e | ⟨_, a', ha⟩
          · cases o with
            | reset => cases e
            | set q => cases q with
              | none => cases e
              | some q => exact hs
          · exact hn a' p ha
      obtain ⟨l, h4, h5⟩ := ih _ h1 hx
      rcases h3 with h3 | h3
      · exact ⟨l, by rw [run, List.foldl_cons, ← run, step, h4, h3], h5⟩
      · refine ⟨_ :: l, by rw [run, List.foldl_cons, ← run, step, h4, h3, List.append_assoc, List.singleton_append], ?_⟩
        intro e he
        rcases List.mem_cons.mp he with rfl | he
        · cases o <;> simp
        · exact h5 e he

/-- **C70**: after `setTimeout(None)` there is no time-out until a period is set again. -/
theorem timeout_never_after_none (script : Nat → List Op) (steps more : List Step) (t₀ : Int) (hq : ∀ s ∈ more, s.Quiet) :
    let st := run script (steps ++ [.op (.set none)]) (St.new t₀)
    ∃ l, (run script more st).log = st.log ++ l ∧ ∀ e ∈ l, e.2 ≠ .timeout := by
  intro st
  have h : Inv st := run_inv script _ _ (inv_new t₀)
  apply quiet_run script more hq st h
  have h0 : Inv (run script steps (St.new t₀)) := run_inv script steps _ (inv_new t₀)
  have hst : st = runOp (run script steps (St.new t₀)) (.set none) := by
    simp [st, run, step]
  rcases setTimeout_inv _ h0 none with ⟨st', h1, hn, hl, _⟩ | ⟨_, _, q, e, _⟩
  · intro a p ha
    rw [hst, runOp, h1] at ha
    simp only [armed_snoc] at ha
    rcases ha with e | ⟨e, _⟩ <;> cases e
  · cases e

/-- A period of 10, reset at 6, ends at 16: the turn at 12 does nothing, the turn at 20 times out. -/
example : (run (fun _ => []) [.op (.set (some 10)), .wait 6, .op .reset, .wait 6, .turn, .wait 8, .turn, .turn]
    (St.new 0)).log = [(0, .set (some 10)), (6, .reset), (20, .timeout)] := by decide

/-- Setting a period again while timing out starts a new one. -/
example : (run (fun _ => [.set (some 5)]) [.op (.set (some 10)), .wait 10, .turn, .wait 5, .turn] (St.new 0)).log =
    [(0, .set (some 10)), (10, .timeout), (10, .set (some 5)), (15, .timeout), (15, .set (some 5))] := by decide

end Verif.Timeout
