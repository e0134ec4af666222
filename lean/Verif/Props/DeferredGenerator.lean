import Verif.Model.DeferredGenerator
/-!
# C74: `deferredGenerator`
-/
namespace Verif.DeferredGenerator
open Verif.Py

/-! ## Specification -/

/-- The eventual results of all Deferreds. -/
abbrev Oracle := Nat → Res

/-- Once awaited, the result of a Deferred is `None`. -/
def Oracle.taken (o : Oracle) (d : Nat) : Oracle := fun x => if x = d then .value none else o x

/-- What running the generator straight through comes to, if every awaited result is there already: the last value that it
yielded, unless it has waited since, or what it raised. -/
def meaning : Oracle → Val → Gen → Option Res
  | _, last, .stop => some (.value last)
  | _, _, .raises e => some (.failure e)
  | o, _, .yields v rest => meaning o v rest
  | _, _, .yieldsDeferred _ => none
  | o, _, .waits d rest =>
    meaning (o.taken d) none (rest (match o d with | .value v => .ok v | .failure e => .error e))

/-- The Deferreds fire in the order of the list. -/
def fires (o : Oracle) (s : State) (ds : List Nat) : State := ds.foldl (fun s d => fire s d (o d)) s

/-- Deferreds that have fired before the start. -/
def before (o : Oracle) (ds : List Nat) : Env := fun d => if d ∈ ds then some (o d) else none

theorem getResult_spec (r : Res) : getResult r = match r with | .value v => .ok v | .failure e => .error e := by
  cases r <;> rfl

/-! ## Invariant -/

/-- The results known so far are those of `o`, and `o` differs from the original oracle `o₀` only at Deferreds that fired. -/
structure Agrees (o₀ o : Oracle) (env : Env) : Prop where
  known : ∀ d r, env d = some r → r = o d
  fresh : ∀ d, env d = none → o d = o₀ d

theorem Agrees.taken {o₀ o : Oracle} {env : Env} (h : Agrees o₀ o env) (d : Nat) :
    Agrees o₀ (o.taken d) (env.set d (.value none)) := by
  constructor
  · intro x r hx
    unfold Env.set at hx
    unfold Oracle.taken
    split at hx
    · rename_i hxd; cases hx; rw [if_pos hxd]
    · rename_i hxd; rw [if_neg hxd]; exact h.known x r hx
  · intro x hx
    unfold Env.set at hx
    unfold Oracle.taken
    split at hx
    · cases hx
    · rename_i hxd; rw [if_neg hxd]; exact h.fresh x hx

theorem Agrees.fire {o₀ o : Oracle} {env : Env} (h : Agrees o₀ o env) (d : Nat) (hd : env d = none) :
    Agrees o₀ o (env.set d (o₀ d)) := by
  constructor
  · intro x r hx
    unfold Env.set at hx
    split at hx
    · rename_i hxd; subst hxd; cases hx; exact (h.fresh x hd).symm
    · exact h.known x r hx
  · intro x hx
    unfold Env.set at hx
    split at hx
    · cases hx
    · exact h.fresh x hx

/-- What the loop comes to. -/
theorem loop_meaning (depth : Nat) (o₀ : Oracle) (g : Gen) : ∀ (o : Oracle) (env : Env) (last : Val), Agrees o₀ o env →
    (∀ d, env d ≠ none → (loop depth env last g).1 d ≠ none) ∧ (loop depth env last g).2.2 ≤ depth + 2 ∧
    ∃ o', Agrees o₀ o' (loop depth env last g).1 ∧
    match (loop depth env last g).2.1 with
    | .callback v => meaning o last g = some (.value v)
    | .errback e => meaning o last g = some (.failure e)
    | .other => meaning o last g = none
    | .waiting d rest => (loop depth env last g).1 d = none ∧
        meaning o last g = meaning (o'.taken d) none (rest (getResult (o' d))) := by
  induction g with
  | stop => intro o env last h; exact ⟨fun _ h => h, by simp [loop], o, h, rfl⟩
  | raises e => intro o env last h; exact ⟨fun _ h => h, by simp [loop], o, h, rfl⟩
  | yields v rest ih => intro o env last h; exact ih o env v h
  | yieldsDeferred rest ih => intro o env last h; exact ⟨fun _ h => h, by simp [loop], o, h, rfl⟩
  | waits d rest ih =>
    intro o env last h
    cases he : env d with
    | none =>
      simp only [loop, he, meaning]
      exact ⟨fun _ h => h, by omega, o, h, trivial, by rw [getResult_spec]⟩
    | some r =>
      simp only [loop, he, meaning]
      have hr := h.known d r he
      obtain ⟨h1, h2, o', h3, h4⟩ := ih (getResult r) (o.taken d) (env.set d (.value none)) none (h.taken d)
      refine ⟨fun x hx => h1 x ?_, by omega, o', h3, ?_⟩
      · unfold Env.set
        split
        · simp
        · exact hx
      · rw [← hr, ← getResult_spec]
        exact h4

/-- The states that are reached, for the Deferreds `ds` having fired. -/
def Reached (o₀ : Oracle) (target : Option Res) (ds : List Nat) (s : State) : Prop :=
  (∀ d ∈ ds, s.env d ≠ none) ∧ s.depth ≤ 5 ∧ ∃ o, Agrees o₀ o s.env ∧
  match s.phase with
  | .waiting d rest => s.env d = none ∧ s.fired = [] ∧ meaning (o.taken d) none (rest (getResult (o d))) = target
  | .finished => s.fired = target.toList

theorem leave_reached (o₀ o : Oracle) (env : Env) (ha : Agrees o₀ o env) (first : Bool) (n depth : Nat) (hn : n ≤ 5)
    (hdep : depth ≤ 3) (ds : List Nat) (hds : ∀ d ∈ ds, env d ≠ none) (last : Val) (g : Gen) :
    Reached o₀ (meaning o last g) ds (leave first [] n (loop depth env last g)) := by
  obtain ⟨h1, h2, o', h3, h4⟩ := loop_meaning depth o₀ g o env last ha
  unfold leave Reached
  cases hl : (loop depth env last g).2.1 with
  | callback v =>
    rw [hl] at h4
    exact ⟨fun d hd => h1 d (hds d hd), by simp only; omega, o', h3, by simp only [h4]; rfl⟩
  | errback e =>
    rw [hl] at h4
    exact ⟨fun d hd => h1 d (hds d hd), by simp only; omega, o', h3, by simp only [h4]; rfl⟩
  | other =>
    rw [hl] at h4
    exact ⟨fun d hd => h1 d (hds d hd), by simp only; omega, o', h3, by simp only [h4]; rfl⟩
  | waiting d rest =>
    rw [hl] at h4
    exact ⟨fun d hd => h1 d (hds d hd), by simp only; omega, o', h3, h4.1, rfl, h4.2.symm⟩

theorem fire_reached (o₀ : Oracle) (target : Option Res) (ds : List Nat) (s : State) (h : Reached o₀ target ds s) (d : Nat) :
    Reached o₀ target (ds ++ [d]) (fire s d (o₀ d)) := by
  obtain ⟨hds, hdep, o, ha, hp⟩ := h
  unfold fire
  cases he : s.env d with
  | some r =>
    refine ⟨fun x hx => ?_, hdep, o, ha, hp⟩
    rcases List.mem_append.mp hx with hx | hx
    · exact hds x hx
    · rw [List.mem_singleton.mp hx, he]; simp
  | none =>
    have hset : ∀ r, ∀ x ∈ ds ++ [d], (s.env.set d r) x ≠ none := by
      intro r x hx
      unfold Env.set
      split
      · simp
      · rename_i hxd
        rcases List.mem_append.mp hx with hx | hx
        · exact hds x hx
        · exact absurd (List.mem_singleton.mp hx) hxd
    cases hph : s.phase with
    | finished =>
      rw [hph] at hp
      simp only
      exact ⟨hset _, hdep, o, ha.fire d he, hp⟩
    | waiting d' rest =>
      rw [hph] at hp
      obtain ⟨h1, h2, h3⟩ := hp
      simp only
      split
      · rename_i hdd
        subst hdd
        rw [h2, ← ha.fresh d he, ← h3]
        exact leave_reached o₀ _ _ (ha.taken d) false _ 3 hdep (by omega) _ (hset _) none _
      · rename_i hdd
        refine ⟨hset _, hdep, o, ha.fire d he, ?_⟩
        refine ⟨?_, h2, h3⟩
        show (s.env.set d (o₀ d)) d' = none
        unfold Env.set
        rw [if_neg (Ne.symm hdd), h1]

theorem run_reached (o : Oracle) (early late : List Nat) (g : Gen) :
    Reached o (meaning o none g) (early ++ late) (fires o (start (before o early) g) late) := by
  have h0 : Reached o (meaning o none g) early (start (before o early) g) := by
    refine leave_reached o o _ ⟨?_, fun _ _ => rfl⟩ true 0 1 (by omega) (by omega) early (fun d hd => by simp [before, hd]) none g
    intro d r h
    unfold before at h
    split at h
    · cases h; rfl
    · cases h
  revert h0
  generalize start (before o early) g = s
  intro h0
  induction late generalizing early s with
  | nil => rw [List.append_nil]; exact h0
  | cons d late ih =>
    have := ih (early ++ [d]) _ (fire_reached o _ early s h0 d)
    rwa [List.append_assoc] at this

/-! ## The property -/

/-- **C74**: a generator that yields no Deferred itself, whichever Deferreds fire before the start (`early`) and afterwards
(`late`), in whatever order.  Its Deferred has been fired at most once.  It has been fired once, with what the generator
comes to when run straight through (so that each `getResult` gave what was awaited), unless the generator is waiting for
a Deferred that has not fired.  At no time were there more than five frames on the stack, counted from the caller.

Missing: yielding a Deferred (`yield_deferred_fails`), awaiting a Deferred a second time (`wait_twice_fails`), Python 3
(`deferGenerator_python3_fails`). -/
theorem deferGenerator_partial (o : Oracle) (early late : List Nat) (g : Gen) (r : Res) (hg : meaning o none g = some r) :
    let s := fires o (start (before o early) g) late
    s.depth ≤ 5 ∧ ((∃ d rest, s.phase = .waiting d rest ∧ d ∉ early ++ late ∧ s.fired = []) ∨
      (s.phase = .finished ∧ s.fired = [r])) := by
  intro s
  obtain ⟨hds, hdep, o', _, hp⟩ := run_reached o early late g
  refine ⟨hdep, ?_⟩
  change (match s.phase with
    | .waiting d rest => s.env d = none ∧ s.fired = [] ∧ meaning (o'.taken d) none (rest (getResult (o' d))) = meaning o none g
    | .finished => s.fired = (meaning o none g).toList) at hp
  cases hph : s.phase with
  | waiting d rest =>
    rw [hph] at hp
    exact Or.inl ⟨d, rest, rfl, fun hd => hds d hd hp.1, hp.2.1⟩
  | finished =>
    rw [hph, hg] at hp
    exact Or.inr ⟨rfl, hp⟩

/-- When and in which order the Deferreds fire does not matter: two runs that end have the same result. -/
theorem deferGenerator_order (o : Oracle) (early late early' late' : List Nat) (g : Gen) (r : Res)
    (hg : meaning o none g = some r)
    (hf : (fires o (start (before o early) g) late).phase = .finished)
    (hf' : (fires o (start (before o early') g) late').phase = .finished) :
    (fires o (start (before o early) g) late).fired = (fires o (start (before o early') g) late').fired := by
  obtain ⟨_, h1⟩ := deferGenerator_partial o early late g r hg
  obtain ⟨_, h2⟩ := deferGenerator_partial o early' late' g r hg
  rcases h1 with ⟨d, rest, e, _⟩ | ⟨_, e1⟩
  · rw [hf] at e; cases e
  · rcases h2 with ⟨d, rest, e, _⟩ | ⟨_, e2⟩
    · rw [hf'] at e; cases e
    · rw [e1, e2]

/-- Whatever the generator does, its Deferred is fired at most once. -/
theorem deferGenerator_once (o : Oracle) (early late : List Nat) (g : Gen) :
    (fires o (start (before o early) g) late).fired.length ≤ 1 := by
  obtain ⟨_, _, o', _, hp⟩ := run_reached o early late g
  revert hp
  generalize fires o (start (before o early) g) late = s
  intro hp
  cases hph : s.phase with
  | waiting d rest => rw [hph] at hp; rw [hp.2.1]; simp
  | finished =>
    rw [hph] at hp
    simp only at hp
    rw [hp]
    cases meaning o none g <;> simp

theorem fire_replaced (s : State) (d : Nat) (r : Res) : (fire s d r).replaced = s.replaced := by
  unfold fire
  split
  · rfl
  · split
    · split <;> rfl
    · rfl

/-- The caller is given the generator's own Deferred, unless the generator yields a Deferred itself. -/
theorem own_deferred (o : Oracle) (early late : List Nat) (g : Gen) (r : Res) (hg : meaning o none g = some r) :
    (fires o (start (before o early) g) late).replaced = false := by
  have h0 : (start (before o early) g).replaced = false := by
    have ha : Agrees o o (before o early) := by
      refine ⟨fun d r h => ?_, fun _ _ => rfl⟩
      unfold before at h
      split at h
      · cases h; rfl
      · cases h
    obtain ⟨-, -, o', -, h4⟩ := loop_meaning 1 o g o _ none ha
    unfold start leave
    cases hl : (loop 1 (before o early) none g).2.1 with
    | other => rw [hl] at h4; simp only at h4; rw [hg] at h4; cases h4
    | callback v => rfl
    | errback e => rfl
    | waiting d rest => rfl
  revert h0
  generalize start (before o early) g = s
  intro h0
  induction late generalizing s with
  | nil => exact h0
  | cons d late ih => exact ih _ (by rw [fire_replaced]; exact h0)

/-- A generator that yields a Deferred after having waited: the Deferred that the caller holds never fires. -/
theorem yield_deferred_fails (o : Oracle) (rest : Gen) :
    let s := fires o (start (before o []) (.waits 0 fun _ => .yieldsDeferred rest)) [0]
    s.phase = .finished ∧ s.fired = [] ∧ s.replaced = false := ⟨rfl, rfl, rfl⟩

/-- If it does so at once, the caller is given a Deferred that has failed. -/
theorem yield_deferred_first (env : Env) (rest : Gen) :
    (start env (.yieldsDeferred rest)).replaced = true ∧ (start env (.yieldsDeferred rest)).fired = [] := ⟨rfl, rfl⟩

/-- Awaiting the same Deferred again gives `None`: here 7 was awaited, twice, and the second result is yielded. -/
theorem wait_twice_fails :
    (fires (fun _ => .value (some 7)) (start (before (fun _ => .value (some 7)) [])
      (.waits 0 fun _ => .waits 0 fun r => match r with | .ok v => .yields v .stop | .error e => .raises e)) [0]).fired =
    [.value none] := rfl

/-- Under Python 3 the generator is never run: whatever it is, the Deferred fails with `AttributeError`. -/
theorem deferGenerator_python3_fails (env : Env) (g : Gen) : (start3 env g).fired = [.failure .attributeError] := rfl

/-- Two results are awaited, the first one failing; the handler yields the second. -/
def sample : Gen :=
  .waits 0 fun r => match r with
    | .ok _ => .stop
    | .error _ => .waits 1 fun r => match r with
      | .ok v => .yields v .stop
      | .error e => .raises e

def sampleOracle : Oracle := fun d => if d = 0 then .failure .valueError else .value (some 7)

example : meaning sampleOracle none sample = some (.value (some 7)) := rfl
example : (fires sampleOracle (start (before sampleOracle [1]) sample) [0]).fired = [.value (some 7)] := rfl

/-- A thousand Deferreds that have all fired. -/
def many : Nat → Gen
  | 0 => .stop
  | n + 1 => .waits n fun _ => many n

/-- However many Deferreds have fired already, there is no recursion. -/
theorem many_flat (o : Oracle) (n : Nat) : (start (before o (List.range n)) (many n)).depth ≤ 3 := by
  have h0 : Agrees o o (before o (List.range n)) := by
    refine ⟨fun d r h => ?_, fun _ _ => rfl⟩
    unfold before at h
    split at h
    · cases h; rfl
    · cases h
  obtain ⟨_, h, _⟩ := loop_meaning 1 o (many n) o _ none h0
  unfold start leave
  split <;> simp only <;> omega

end Verif.DeferredGenerator
