import Verif.Model.Spewer
/-!
# C68: `SignalService` restores signal handlers; C77: the tracer
-/
namespace Verif.Spewer
open Verif.Py

theorem val_handler (h : Handler) (hf : h ≠ .foreign) : h.val.handler = some h := by
  cases h <;> first | rfl | exact absurd rfl hf

/-- The table with the entries of a list of (signal, handler) put in. -/
theorem startLoop_spec (refuse : Nat → Option PyErr) (t0 : Table) (m : List (Nat × Val)) :
    ∀ (t : Table) (o : Dict Nat Val), Dict.WF o → (m.map Prod.fst).Nodup → (∀ k ∈ m.map Prod.fst, k ∉ Dict.keys o) →
      (∀ k ∈ Dict.keys o, refuse k = none) →
      (∀ k, k ∉ Dict.keys o → t k = t0 k) → (∀ k v, o.get? k = some v → v = (t0 k).val) →
      ∀ t' o' e, startLoop refuse m t o = (t', o', e) →
        Dict.WF o' ∧ (∀ k ∈ Dict.keys o', k ∈ Dict.keys o ∨ k ∈ m.map Prod.fst) ∧ (∀ k ∈ Dict.keys o', refuse k = none) ∧
        (∀ k, k ∉ Dict.keys o' → t' k = t0 k) ∧ (∀ k v, o'.get? k = some v → v = (t0 k).val) ∧
        (∀ k, k ∉ m.map Prod.fst → t' k = t k) ∧
        (e = none → ∀ k v, (k, v) ∈ m → v.handler = some (t' k)) := by
  induction m with
  | nil =>
    intro t o hw _ _ hr ht hv t' o' e h
    simp only [startLoop, Prod.mk.injEq] at h
    obtain ⟨rfl, rfl, rfl⟩ := h
    exact ⟨hw, fun k hk => Or.inl hk, hr, ht, hv, fun _ _ => rfl, by simp⟩
  | cons x m ih =>
    obtain ⟨sig, v⟩ := x
    intro t o hw hnd hdis hr ht hv t' o' e h
    rw [List.map_cons, List.nodup_cons] at hnd
    have hsig : sig ∉ Dict.keys o := hdis sig (by simp)
    rw [startLoop] at h
    cases hs : signal refuse t sig v with
    | error err =>
      rw [hs] at h
      simp only [Prod.mk.injEq] at h
      obtain ⟨rfl, rfl, rfl⟩ := h
      exact ⟨hw, fun k hk => Or.inl hk, hr, ht, hv, fun _ _ => rfl, by simp⟩
    | ok tw =>
      obtain ⟨t1, w⟩ := tw
      rw [hs] at h
      unfold signal at hs
      cases href : refuse sig with
      | some e => rw [href] at hs; cases hs
      | none =>
        rw [href] at hs
        cases hh : v.handler with
        | none => rw [hh] at hs; cases hs
        | some hd =>
          rw [hh] at hs
          simp only [Except.ok.injEq, Prod.mk.injEq] at hs
          obtain ⟨rfl, rfl⟩ := hs
          have hset : o.set sig (t sig).val = o ++ [(sig, (t sig).val)] := Dict.set_of_not_mem _ hsig
          have hkeys : ∀ k, k ∈ Dict.keys (o.set sig (t sig).val) ↔ k ∈ Dict.keys o ∨ k = sig := by
            intro k; rw [hset]; simp [Dict.keys]
          have := ih (fun s => if s = sig then hd else t s) (o.set sig (t sig).val) (hw.set _ _) hnd.2
            (by
              intro k hk hk2
              rcases (hkeys k).mp hk2 with h2 | h2
              · exact hdis k (by simp [List.mem_map.mp hk]) h2
              · subst h2; exact hnd.1 hk)
            (by
              intro k hk
              rcases (hkeys k).mp hk with h2 | h2
              · exact hr k h2
              · exact h2 ▸ href)
            (by
              intro k hk
              rw [hkeys, not_or] at hk
              simp only [if_neg hk.2]
              exact ht k hk.1)
            (by
              intro k w hk
              rw [Dict.get?_set] at hk
              by_cases hks : sig = k
              · subst hks
                rw [if_pos rfl] at hk
                cases hk
                rw [ht sig hsig]
              · rw [if_neg hks] at hk
                exact hv k w hk)
            t' o' e h
          obtain ⟨h1, h2, h3, h4, h5, h6, h7⟩ := this
          refine ⟨h1, ?_, h3, h4, h5, ?_, ?_⟩
          · intro k hk
            rcases h2 k hk with h | h
            · rcases (hkeys k).mp h with h | h
              · exact Or.inl h
              · subst h; exact Or.inr (by simp)
            · exact Or.inr (List.mem_cons_of_mem _ h)
          · intro k hk
            simp only [List.map_cons, List.mem_cons, not_or] at hk
            rw [h6 k hk.2]
            simp only [if_neg hk.1]
          · intro he k w hm
            rcases List.mem_cons.mp hm with hm | hm
            · cases hm
              rw [h6 sig hnd.1]
              simpa using hh
            · exact h7 he k w hm

theorem stopLoop_spec (refuse : Nat → Option PyErr) (t0 : Table) (o : List (Nat × Val)) :
    ∀ t : Table, (∀ k v, (k, v) ∈ o → refuse k = none ∧ v.handler = some (t0 k)) →
      ∃ t', stopLoop refuse o t = (t', none) ∧ ∀ k, t' k = if k ∈ o.map Prod.fst then t0 k else t k := by
  induction o with
  | nil => intro t _; exact ⟨t, rfl, by simp⟩
  | cons x o ih =>
    obtain ⟨sig, v⟩ := x
    intro t h
    obtain ⟨h1, h2⟩ := h sig v (by simp)
    obtain ⟨t', h3, h4⟩ := ih (fun s => if s = sig then t0 sig else t s) fun k w hm => h k w (List.mem_cons_of_mem _ hm)
    refine ⟨t', ?_, fun k => ?_⟩
    · rw [stopLoop]
      simp only [signal, h1, h2]
      exact h3
    · rw [h4 k]
      by_cases hk : k ∈ o.map Prod.fst
      · simp [hk]
      · by_cases hks : k = sig
        · subst hks; simp [hk]
        · simp only [List.map_cons, List.mem_cons, hk, hks, or_self, if_false]

/-- While the service runs, the signals of the map have the given handlers and the others the ones they had. -/
theorem signals_between (refuse : Nat → Option PyErr) (s s' : State) (hm : Dict.WF s.sigmap)
    (h : startService refuse s = (s', none)) :
    (∀ k v, (k, v) ∈ s.sigmap → v.handler = some (s'.table k)) ∧
    (∀ k, k ∉ Dict.keys s.sigmap → s'.table k = s.table k) ∧ s'.running = true := by
  unfold startService at h
  cases hl : startLoop refuse s.sigmap s.table [] with
  | mk t oe =>
    obtain ⟨o, e⟩ := oe
    rw [hl] at h
    simp only [Prod.mk.injEq] at h
    obtain ⟨rfl, rfl⟩ := h
    obtain ⟨_, _, _, _, _, h6, h7⟩ := startLoop_spec refuse s.table s.sigmap s.table [] (by simp [Dict.WF, Dict.keys]) hm
      (by simp [Dict.keys]) (by simp [Dict.keys]) (fun _ _ => rfl) (by simp) t o none hl
    exact ⟨fun k v hkv => h7 rfl k v hkv, h6, rfl⟩

/-- A start works exactly if every signal of the map can be handled and every value is a handler. -/
theorem start_ok_iff (refuse : Nat → Option PyErr) (s : State) :
    (startService refuse s).2 = none ↔ ∀ k v, (k, v) ∈ s.sigmap → refuse k = none ∧ v ≠ .none := by
  unfold startService
  have key : ∀ (m : List (Nat × Val)) (t : Table) (o : Dict Nat Val),
      (startLoop refuse m t o).2.2 = none ↔ ∀ k v, (k, v) ∈ m → refuse k = none ∧ v ≠ .none := by
    intro m
    induction m with
    | nil => intro t o; simp [startLoop]
    | cons x m ih =>
      obtain ⟨sig, v⟩ := x
      intro t o
      rw [startLoop]
      cases href : refuse sig with
      | some e =>
        simp only [signal, href]
        constructor
        · intro h; cases h
        · intro h
          have := (h sig v (by simp)).1
          rw [href] at this; cases this
      | none =>
        cases hh : v.handler with
        | none =>
          simp only [signal, href, hh]
          constructor
          · intro h; cases h
          · intro h
            have := (h sig v (by simp)).2
            cases v <;> first | exact absurd rfl this | cases hh
        | some hd =>
          simp only [signal, href, hh]
          rw [ih]
          constructor
          · intro h k w hm
            rcases List.mem_cons.mp hm with hm | hm
            · cases hm
              exact ⟨href, by rintro rfl; cases hh⟩
            · exact h k w hm
          · exact fun h k w hm => h k w (List.mem_cons_of_mem _ hm)
  exact key s.sigmap s.table []

/-- **C68**, for tables in which the signals of the map have handlers that Python knows: a stop after a start, whether the
start worked or raised half-way, works and leaves every signal with the handler it had before.

Missing: a handler that was not installed from Python cannot be put back (`signals_foreign_fails`). -/
theorem signals_restored_partial (refuse : Nat → Option PyErr) (s s' : State) (e : Option PyErr) (hm : Dict.WF s.sigmap)
    (hf : ∀ k ∈ Dict.keys s.sigmap, s.table k ≠ .foreign) (h : startService refuse s = (s', e)) :
    ∃ s'', stopService refuse s' = (s'', none) ∧ s''.table = s.table ∧ s''.old = none ∧ s''.running = false ∧
      s''.sigmap = s.sigmap := by
  unfold startService at h
  cases hl : startLoop refuse s.sigmap s.table [] with
  | mk t oe =>
    obtain ⟨o, e'⟩ := oe
    rw [hl] at h
    simp only [Prod.mk.injEq] at h
    obtain ⟨rfl, rfl⟩ := h
    obtain ⟨h1, h2, h3, h4, h5, _, _⟩ := startLoop_spec refuse s.table s.sigmap s.table [] (by simp [Dict.WF, Dict.keys]) hm
      (by simp [Dict.keys]) (by simp [Dict.keys]) (fun _ _ => rfl) (by simp) t o e' hl
    obtain ⟨t', h6, h7⟩ := stopLoop_spec refuse s.table o t (by
      intro k v hkv
      have hk : k ∈ Dict.keys o := List.mem_map.mpr ⟨_, hkv, rfl⟩
      refine ⟨h3 k hk, ?_⟩
      rw [h5 k v (Dict.get?_of_mem h1 hkv)]
      apply val_handler
      rcases h2 k hk with h | h
      · simp [Dict.keys] at h
      · exact hf k h)
    refine ⟨⟨t', s.sigmap, none, false⟩, by simp only [stopService, h6], ?_, rfl, rfl, rfl⟩
    funext k
    simp only
    rw [h7 k]
    split
    · rfl
    · rename_i hk; exact h4 k hk

/-- A handler that was installed by something other than Python is reported as `None`, which cannot be put back: the stop
raises and the given handler stays. -/
theorem signals_foreign_fails : ∃ s s' s'', startService (fun _ => none) s = (s', none) ∧
    stopService (fun _ => none) s' = (s'', some .typeError) ∧ s.table 2 = .foreign ∧ s''.table 2 = .fn 7 :=
  ⟨⟨fun _ => .foreign, [(2, .fn 7)], none, false⟩, _, _, rfl, rfl, rfl, rfl⟩

/-- Beside the property: a second start forgets the original handlers. -/
theorem signals_twice_fails : ∃ s s' s'' s''', startService (fun _ => none) s = (s', none) ∧
    startService (fun _ => none) s' = (s'', none) ∧ stopService (fun _ => none) s'' = (s''', none) ∧
    s.table 2 = .dfl ∧ s'''.table 2 = .fn 7 :=
  ⟨⟨fun _ => .dfl, [(2, .fn 7)], none, false⟩, _, _, _, rfl, rfl, rfl, rfl, rfl⟩

/-- A stop without a start raises. -/
theorem stop_unstarted (refuse : Nat → Option PyErr) (s : State) (h : s.old = none) :
    stopService refuse s = (s, some .attributeError) := by
  unfold stopService; rw [h]

/-- The second signal (9) cannot be handled: the start raises, the stop puts the first one back. -/
example : (startService (fun k => if k = 9 then some (.other "OSError") else none)
    ⟨fun _ => .dfl, [(2, .fn 7), (9, .ign)], none, false⟩).2 = some (.other "OSError") := rfl

/-! ## C77 -/

/-- What toggling the given number of times, ignoring exceptions, leads to. -/
def toggles : Nat → Tracing → Tracing
  | 0, t => t
  | n + 1, t => toggles n (toggle t).1

/-- **C77**, as far as `sys` goes: after any number of toggles from the uninstalled state, the tracer is installed in `sys`
exactly if the number is odd, `installed` says so, and `trace` passes on what its methods return.

Missing: `threading` keeps the tracer after the first toggle, and every second toggle raises (`toggle_fails`). -/
theorem toggle_partial (n : Nat) (thr : Bool) :
    (toggles n ⟨false, false, thr⟩).installed = decide (n % 2 = 1) ∧ (toggles n ⟨false, false, thr⟩).sys = decide (n % 2 = 1) := by
  induction n using Nat.strongRecOn generalizing thr with
  | ind n ih =>
    match n with
    | 0 => exact ⟨rfl, rfl⟩
    | 1 => exact ⟨rfl, rfl⟩
    | n + 2 =>
      have := ih n (by omega) true
      rw [show toggles (n + 2) ⟨false, false, thr⟩ = toggles n ⟨false, false, true⟩ from rfl,
        show (n + 2) % 2 = n % 2 by omega]
      exact this

/-- `threading.setttrace` does not exist. -/
theorem toggle_fails (n : Nat) (h : 0 < n) (thr : Bool) :
    (toggles n ⟨false, false, thr⟩).threading = true ∧
    (n % 2 = 1 → (toggle (toggles n ⟨false, false, thr⟩)).2 = some .attributeError) := by
  induction n using Nat.strongRecOn generalizing thr with
  | ind n ih =>
    match n with
    | 1 => exact ⟨rfl, fun _ => rfl⟩
    | 2 => exact ⟨rfl, by simp⟩
    | n + 3 =>
      have := ih (n + 1) (by omega) (by omega) true
      rw [show toggles (n + 3) ⟨false, false, thr⟩ = toggles (n + 1) ⟨false, false, true⟩ from rfl,
        show (n + 3) % 2 = (n + 1) % 2 by omega]
      exact this

/-- A method that skips ends the tracing of the frame; one that returns nothing keeps it; anything else is passed on. -/
theorem trace_returns (r : Ret) (n : Nat) :
    (trace r = .none ↔ r = .skip) ∧ (trace r = .self ↔ r = .none) ∧ (trace r = .other n ↔ r = .other n) := by
  cases r <;> simp [trace]

/-- The frames that are open after the events: a call opens one, a return closes one. -/
inductive Nested : List Event → Nat → Prop
  | start : Nested [] 0
  | call {es : List Event} {n : Nat} : Nested es n → Nested (es ++ [.call]) (n + 1)
  | line {es : List Event} {n : Nat} : Nested es n → Nested (es ++ [.line]) n
  | ret {es : List Event} {n : Nat} : Nested es (n + 1) → Nested (es ++ [.ret]) n

/-- Without exceptions the depth is the number of open calls, and a return is indented like its call. -/
theorem depth_nested {es : List Event} {n : Nat} (h : Nested es n) : es.foldl depth 0 = n := by
  induction h with
  | start => rfl
  | call _ ih => rw [List.foldl_append, ih]; simp [depth]
  | line _ ih => rw [List.foldl_append, ih]; simp [depth]
  | ret _ ih =>
    rw [List.foldl_append, ih]
    simp only [List.foldl_cons, List.foldl_nil, depth]
    omega

/-- A call and its return, or the exception that ends it, are printed with the same indentation, that of the number of open
calls. -/
theorem indent_matches {es inner : List Event} {n : Nat} (h : Nested es n) (h2 : Nested (es ++ .call :: inner) (n + 1)) :
    indent (es.foldl depth 0) .call = some ((n : Int) + 1) ∧
    indent ((es ++ .call :: inner).foldl depth 0) .ret = some ((n : Int) + 1) ∧
    indent ((es ++ .call :: inner).foldl depth 0) .exc = some ((n : Int) + 1) := by
  rw [depth_nested h, depth_nested h2]
  simp [indent]

/-- The depth is never negative, whatever the events. -/
theorem depth_nonneg (es : List Event) (d : Int) (h : 0 ≤ d) : 0 ≤ es.foldl depth d := by
  induction es generalizing d with
  | nil => exact h
  | cons e es ih =>
    apply ih
    cases e <;> simp only [depth] <;> omega

/-- An exception that leaves a frame is counted twice, by its own event and by the return event that follows: after
`call call exc ret` one call is open, but the depth is 0. -/
theorem depth_exception_fails : [Event.call, .call, .exc, .ret].foldl depth 0 = 0 := rfl

example : Nested [.call, .line, .call, .ret] 1 := .ret (.call (.line (.call .start)))

end Verif.Spewer
