import Verif.Model.DelayedCallOwner
/-!
# C138 — delayed calls whose owner reacts
-/
namespace Verif.DelayedCallOwner
open Verif.Py Verif.DelayedCall

/-! ## Lemmas -/

/-- What the steps of a script do, and what any number of them do. -/
theorem exec_rel (R : St → St → Prop) (refl : ∀ st, R st st) (trans : ∀ {a b c}, R a b → R b c → R a c)
    (hcancel : ∀ st, R st ⟨{ st.call with cancelled := true }, false⟩)
    (hgone : ∀ st, st.func = false → R st { st with call := { st.call with cancelled := true } })
    (htime : ∀ st t d, R st { st with call := { st.call with time := t, delayed := d } })
    (hmade : ∀ st, R st { st with call := { st.call with called := true } }) :
    ∀ s st, R st (exec s st).1 := by
  have hstep : ∀ (tell : St → Result), (∀ st, R st (tell st).1) → ∀ st o, R st (stepWith tell st o).1 := by
    intro tell ht st o
    cases o with
    | cancel =>
      simp only [stepWith]
      cases refused st.call with
      | some e => exact refl st
      | none =>
        dsimp only
        have h := ht st
        generalize tell st = r at h ⊢
        rcases r with ⟨st1, log, _ | e⟩
        · dsimp only at h ⊢
          split
          · exact trans h (hcancel st1)
          · exact trans h (hgone st1 (by cases hf : st1.func <;> simp_all))
        · exact h
    | reset base own s =>
      simp only [stepWith]
      cases refused st.call with
      | some e => exact refl st
      | none =>
        dsimp only
        split
        · exact trans (htime st _ 0) (ht _)
        · exact htime st st.call.time _
    | delay s =>
      simp only [stepWith]
      cases refused st.call with
      | some e => exact refl st
      | none =>
        dsimp only
        split
        · exact trans (htime st _ 0) (ht _)
        · exact htime st st.call.time _
    | activate => exact htime st _ 0
    | made => exact hmade st
  intro s
  induction s with
  | done => exact refl
  | raise e => exact refl
  | act o caught inner rest ih1 ih2 =>
    intro st
    have h1 := hstep (exec inner) ih1 st o
    simp only [exec]
    generalize stepWith (exec inner) st o = r at h1 ⊢
    rcases r with ⟨st1, log, _ | e⟩
    · exact trans h1 (ih2 st1)
    · dsimp only at h1 ⊢
      split
      · exact trans h1 (ih2 st1)
      · exact h1

/-! ## C138 -/

/-- **A call has its function exactly until it is cancelled**, at every moment, whatever is done to it from wherever. -/
theorem function_until_cancelled (s : Script) (time : Int) (own : Bool) :
    (exec s (new time own)).1.func = !(exec s (new time own)).1.call.cancelled := by
  refine exec_rel (fun a b => a.func = (!a.call.cancelled) → b.func = (!b.call.cancelled)) (fun _ h => h) (fun f g h => g (f h))
    ?_ ?_ ?_ ?_ s (new time own) rfl
  · intro st _; rfl
  · intro st h _; simp [h]
  · intro st t d h; exact h
  · intro st h; exact h

/-- **Cancelled stays cancelled and made stays made**; then no operation but `activate_delay` does anything. -/
theorem final (s : Script) (st : St) :
    (st.call.cancelled = true → (exec s st).1.call.cancelled = true) ∧ (st.call.called = true → (exec s st).1.call.called = true) ∧
    (exec s st).1.call.own = st.call.own := by
  refine exec_rel (fun a b => (a.call.cancelled = true → b.call.cancelled = true) ∧ (a.call.called = true → b.call.called = true) ∧
    b.call.own = a.call.own) (fun _ => ⟨id, id, rfl⟩)
    (fun f g => ⟨fun h => g.1 (f.1 h), fun h => g.2.1 (f.2.1 h), g.2.2.trans f.2.2⟩) ?_ ?_ ?_ ?_ s st
  · intro st; exact ⟨fun _ => rfl, id, rfl⟩
  · intro st _; exact ⟨fun _ => rfl, id, rfl⟩
  · intro st t d; exact ⟨id, id, rfl⟩
  · intro st; exact ⟨id, fun _ => rfl, rfl⟩

theorem refuses (tell : St → Result) (st : St) :
    (st.call.cancelled = true → ∀ o, o = .cancel ∨ (∃ b w s, o = .reset b w s) ∨ (∃ s, o = .delay s) →
      stepWith tell st o = (st, [], some (.other "AlreadyCancelled"))) ∧
    (st.call.cancelled = false → st.call.called = true → ∀ o, o = .cancel ∨ (∃ b w s, o = .reset b w s) ∨ (∃ s, o = .delay s) →
      stepWith tell st o = (st, [], some (.other "AlreadyCalled"))) := by
  constructor
  · rintro h o (rfl | ⟨b, w, s, rfl⟩ | ⟨s, rfl⟩) <;> simp [stepWith, refused, h]
  · rintro h h' o (rfl | ⟨b, w, s, rfl⟩ | ⟨s, rfl⟩) <;> simp [stepWith, refused, h, h']

/-- **What `cancel` of a waiting call leads to.**  The owner is told first, of the call as it is.  If the owner raises, that comes
out and the call is as the owner left it.  Otherwise the call is cancelled; and `AttributeError` is raised exactly if the owner
had cancelled it already. -/
theorem cancel_outcome (inner : Script) (st : St) (hf : st.func = !st.call.cancelled) (hr : refused st.call = none) :
    (∀ e, (exec inner st).2.2 = some e → stepWith (exec inner) st .cancel = ((exec inner st).1, .canceller :: (exec inner st).2.1, some e)) ∧
    ((exec inner st).2.2 = none →
      (stepWith (exec inner) st .cancel).1 = ⟨{ (exec inner st).1.call with cancelled := true }, false⟩ ∧
      (stepWith (exec inner) st .cancel).2.1 = .canceller :: (exec inner st).2.1 ∧
      (stepWith (exec inner) st .cancel).2.2 = if (exec inner st).1.call.cancelled then some .attributeError else none) := by
  have hi : (exec inner st).1.func = !(exec inner st).1.call.cancelled :=
    exec_rel (fun a b => a.func = (!a.call.cancelled) → b.func = (!b.call.cancelled)) (fun _ h => h) (fun f g h => g (f h))
      (fun _ _ => rfl) (fun st h _ => by simp [h]) (fun _ _ _ h => h) (fun _ h => h) inner st hf
  simp only [stepWith, hr]
  generalize exec inner st = r at hi ⊢
  rcases r with ⟨⟨c, f⟩, log, _ | e⟩
  · refine ⟨fun e h => (by cases h), fun _ => ?_⟩
    dsimp only at hi ⊢
    cases hc : c.cancelled <;> simp [hi, hc]
  · exact ⟨fun e' h => (by cases h; rfl), fun h => (by cases h)⟩

/-- **`reset` of a waiting call**: to an earlier time than it is scheduled for, the owner is told of the call with its new time, and
what the owner does, or raises, is the outcome; otherwise nobody is told. -/
theorem reset_outcome (tell : St → Result) (st : St) (base own s : Int) (hr : refused st.call = none) :
    ((if st.call.own then own else base) + s < st.call.time →
      stepWith tell st (.reset base own s) =
        ((tell ⟨{ st.call with time := (if st.call.own then own else base) + s, delayed := 0 }, st.func⟩).1,
          .resetter :: (tell ⟨{ st.call with time := (if st.call.own then own else base) + s, delayed := 0 }, st.func⟩).2.1,
          (tell ⟨{ st.call with time := (if st.call.own then own else base) + s, delayed := 0 }, st.func⟩).2.2)) ∧
    (st.call.time ≤ (if st.call.own then own else base) + s →
      stepWith tell st (.reset base own s) =
        (⟨{ st.call with delayed := (if st.call.own then own else base) + s - st.call.time }, st.func⟩, [], none)) := by
  have hn : newTime st.call base own s = (if st.call.own then own else base) + s := by
    unfold newTime; split <;> rfl
  simp only [stepWith, hr, hn]
  constructor
  · intro h; rw [if_pos h]
  · intro h; rw [if_neg (by omega)]

/-- **`delay` of a waiting call**: if it is now due before the time it is scheduled for, the owner is told of the call scheduled
for then; otherwise nobody is told. -/
theorem delay_outcome (tell : St → Result) (st : St) (s : Int) (hr : refused st.call = none) :
    (st.call.delayed + s < 0 →
      stepWith tell st (.delay s) =
        ((tell ⟨{ st.call with time := st.call.time + (st.call.delayed + s), delayed := 0 }, st.func⟩).1,
          .resetter :: (tell ⟨{ st.call with time := st.call.time + (st.call.delayed + s), delayed := 0 }, st.func⟩).2.1,
          (tell ⟨{ st.call with time := st.call.time + (st.call.delayed + s), delayed := 0 }, st.func⟩).2.2)) ∧
    (0 ≤ st.call.delayed + s →
      stepWith tell st (.delay s) = (⟨{ st.call with delayed := st.call.delayed + s }, st.func⟩, [], none)) := by
  simp only [stepWith, hr]
  constructor
  · intro h; rw [if_pos h]; rfl
  · intro h; rw [if_neg (by omega)]

/-- **With an owner that only listens** this is `Model/DelayedCall`. -/
theorem listening_owner (st : St) (o : Op) (hf : st.func = !st.call.cancelled) :
    (stepWith (exec .done) st o).1.call = (step st.call o).1 ∧ (stepWith (exec .done) st o).2 = (step st.call o).2 := by
  cases o with
  | cancel =>
    simp only [stepWith, step]
    cases hr : refused st.call with
    | some e => exact ⟨rfl, rfl⟩
    | none =>
      have hc : st.call.cancelled = false := by
        unfold refused at hr
        cases h : st.call.cancelled
        · rfl
        · simp [h] at hr
      simp [exec, hf, hc]
  | reset base own s =>
    simp only [stepWith, step]
    cases refused st.call with
    | some e => exact ⟨rfl, rfl⟩
    | none => dsimp only; split <;> exact ⟨rfl, rfl⟩
  | delay s =>
    simp only [stepWith, step]
    cases refused st.call with
    | some e => exact ⟨rfl, rfl⟩
    | none => dsimp only; split <;> exact ⟨rfl, rfl⟩
  | activate => exact ⟨rfl, rfl⟩
  | made => exact ⟨rfl, rfl⟩

/-- No `activate_delay` in a script: that is the owner's own way to change the time. -/
def Script.noActivate : Script → Prop
  | .done => True
  | .raise _ => True
  | .act o _ inner rest => o ≠ .activate ∧ inner.noActivate ∧ rest.noActivate

/-- **The owner is told whenever the scheduled time changes**: if a script ends with another time than it began with, its owner was
told of a reset. -/
theorem told (s : Script) (hs : s.noActivate) : ∀ st, (exec s st).1.call.time ≠ st.call.time → .resetter ∈ (exec s st).2.1 := by
  have hstep : ∀ (tell : St → Result), (∀ st, (tell st).1.call.time ≠ st.call.time → .resetter ∈ (tell st).2.1) → ∀ st o,
      o ≠ .activate → (stepWith tell st o).1.call.time ≠ st.call.time → .resetter ∈ (stepWith tell st o).2.1 := by
    intro tell ht st o ho
    cases o with
    | cancel =>
      simp only [stepWith]
      cases refused st.call with
      | some e => intro h; exact absurd rfl h
      | none =>
        dsimp only
        have h := ht st
        generalize tell st = r at h ⊢
        rcases r with ⟨st1, log, _ | e⟩
        · dsimp only at h ⊢
          split
          · intro h'; exact List.mem_cons_of_mem _ (h h')
          · intro h'; exact List.mem_cons_of_mem _ (h h')
        · intro h'; exact List.mem_cons_of_mem _ (h h')
    | reset base own s =>
      simp only [stepWith]
      cases refused st.call with
      | some e => intro h; exact absurd rfl h
      | none =>
        dsimp only
        split
        · intro _; exact List.mem_cons_self
        · intro h; exact absurd rfl h
    | delay s =>
      simp only [stepWith]
      cases refused st.call with
      | some e => intro h; exact absurd rfl h
      | none =>
        dsimp only
        split
        · intro _; exact List.mem_cons_self
        · intro h; exact absurd rfl h
    | activate => exact absurd rfl ho
    | made => intro h; exact absurd rfl h
  induction s with
  | done => intro st h; exact absurd rfl h
  | raise e => intro st h; exact absurd rfl h
  | act o caught inner rest ih1 ih2 =>
    obtain ⟨ho, hi, hr⟩ := hs
    intro st
    have h1 := hstep (exec inner) (ih1 hi) st o ho
    simp only [exec]
    generalize stepWith (exec inner) st o = r at h1 ⊢
    rcases r with ⟨st1, log, _ | e⟩
    · dsimp only at h1 ⊢
      intro h
      rw [List.mem_append]
      by_cases hc : st1.call.time = st.call.time
      · exact .inr (ih2 hr st1 (by rw [hc]; exact h))
      · exact .inl (h1 hc)
    · dsimp only at h1 ⊢
      split
      · intro h
        rw [List.mem_append]
        by_cases hc : st1.call.time = st.call.time
        · exact .inr (ih2 hr st1 (by rw [hc]; exact h))
        · exact .inl (h1 hc)
      · exact h1

/-- **Not everything that raises leaves the call alone**: when the owner raises while told of a reset, the new time stands. -/
theorem raise_changes_fails :
    exec (.act (.reset 0 0 3) false (.raise .runtimeError) .done) (new 5 false) =
      (⟨⟨3, 0, false, false, false⟩, true⟩, [.resetter], some .runtimeError) := by decide

/-- **Not every `cancel` that raises leaves the call waiting**, and not every cancellation of a waiting call is quiet: if the owner,
told of the cancellation, cancels the call itself, the outer `cancel` raises `AttributeError`, and the call is cancelled. -/
theorem cancel_twice_fails :
    exec (.act .cancel false (.act .cancel false .done .done) .done) (new 5 false) =
      (⟨⟨5, 0, true, false, false⟩, false⟩, [.canceller, .canceller], some .attributeError) := by decide

/-- **A call can be made and cancelled both**: if the owner makes it when told of its cancellation. -/
theorem made_and_cancelled_fails :
    exec (.act .cancel false (.act .made false .done .done) .done) (new 5 false) =
      (⟨⟨5, 0, true, true, false⟩, false⟩, [.canceller], none) := by decide

/-- An owner that refuses the cancellation keeps the call waiting; it can be cancelled later. -/
example : exec (.act .cancel true (.raise .runtimeError) (.act .cancel false .done .done)) (new 5 false) =
    (⟨⟨5, 0, true, false, false⟩, false⟩, [.canceller, .canceller], none) := by decide
/-- Non-vacuity of `told`: an owner that answers a reset to 3 by one to 1. -/
example : (exec (.act (.reset 0 0 3) false (.act (.reset 0 0 1) false .done .done) .done) (new 5 false)).1.call.time = 1 ∧
    (Script.act (.reset 0 0 3) false (.act (.reset 0 0 1) false .done .done) .done).noActivate := by
  refine ⟨by decide, ?_⟩
  simp [Script.noActivate]

end Verif.DelayedCallOwner
