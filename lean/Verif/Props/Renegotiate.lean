import Verif.Model.Renegotiate
import Mathlib.Tactic.Common
import Mathlib.Tactic.IntervalCases
/-!
# Version negotiation between two peers: C96
-/
namespace Verif.Renegotiate
open Verif.Py Verif.JuiceArgs Verif.JuiceDispatch

variable (V : Bool → List Int)

theorem loop_one (L : List Int) (v : Int) : negotiateLoop L [.int v] = if v ∈ L then some (.int v) else none := by
  simp [negotiateLoop]

theorem run_snoc (ops : List Op) (op : Op) : run V (ops ++ [op]) = step V (run V ops) op := by simp [run]

/-- What happens as seen from `s`: its own state and messages, the peer's state and messages. -/
inductive Tr (s : Bool) : Side → List Msg → Side → List Msg → Side → List Msg → Side → List Msg → Prop
  | ask {p o q i v} : v ∈ V s → Tr s p o q i { p with count := p.count + 1, asked := p.asked ++ [(p.count, v)] }
      (o ++ [.request p.count v]) q i
  | refuse {p o q i k} : Tr s p o q i { p with refused := k } o q i
  | accept {p o q i n v} : v ∈ V s → Tr s p o q (.request n v :: i) { p with version := v } (o ++ [.answer n v]) q i
  | reject {p o q i n v} : v ∉ V s → Tr s p o q (.request n v :: i) p (o ++ [.error n]) q i
  | done {p o q i n v} : Tr s p o q (.answer n v :: i)
      { p with version := v, fired := p.fired ++ [(n, some v)] } o q i
  | failed {p o q i n} : Tr s p o q (.error n :: i) { p with fired := p.fired ++ [(n, none)] } o q i

/-- Either end may act, or nothing happens. -/
theorem step_tr (w : World) (op : Op) (s : Bool) :
    ((step V w op).side s = w.side s ∧ (step V w op).chan s = w.chan s ∧
      (step V w op).side (!s) = w.side (!s) ∧ (step V w op).chan (!s) = w.chan (!s)) ∨
    Tr V s (w.side s) (w.chan s) (w.side (!s)) (w.chan (!s)) ((step V w op).side s) ((step V w op).chan s)
      ((step V w op).side (!s)) ((step V w op).chan (!s)) ∨
    Tr V (!s) (w.side (!s)) (w.chan (!s)) (w.side s) (w.chan s) ((step V w op).side (!s)) ((step V w op).chan (!s))
      ((step V w op).side s) ((step V w op).chan s) := by
  have key : ∀ a, (op = .deliver a ∨ ∃ v, op = .renegotiate a v) →
      ((step V w op).side a = w.side a ∧ (step V w op).chan a = w.chan a ∧
        (step V w op).side (!a) = w.side (!a) ∧ (step V w op).chan (!a) = w.chan (!a)) ∨
      Tr V a (w.side a) (w.chan a) (w.side (!a)) (w.chan (!a)) ((step V w op).side a) ((step V w op).chan a)
        ((step V w op).side (!a)) ((step V w op).chan (!a)) := by
    rintro a (rfl | ⟨v, rfl⟩)
    · simp only [step, deliver]
      cases hc : w.chan (!a) with
      | nil => simp [hc]
      | cons m rest =>
        right
        cases m with
        | request n v =>
          by_cases h : v ∈ V a
          · simp only [received, loop_one, h, if_true, World.put]
            simpa using Tr.accept h
          · simp only [received, loop_one, h, if_false, World.put]
            simpa using Tr.reject h
        | answer n v => simp only [received, World.put]; simpa using Tr.done
        | error n => simp only [received, World.put]; simpa using Tr.failed
    · right
      simp only [step, renegotiate]
      by_cases h : v ∈ V a
      · simp only [h, if_true, World.put]; simpa using Tr.ask h
      · simp only [h, if_false, World.put]; simpa using Tr.refuse
  have hop : ∃ a, op = .deliver a ∨ ∃ v, op = .renegotiate a v := by
    cases op with
    | renegotiate a v => exact ⟨a, .inr ⟨v, rfl⟩⟩
    | deliver a => exact ⟨a, .inl rfl⟩
  obtain ⟨a, ha⟩ := hop
  have hs : s = a ∨ s = !a := by cases s <;> cases a <;> simp
  rcases hs with rfl | rfl
  · rcases key s ha with h | h
    · exact .inl h
    · exact .inr (.inl h)
  · rw [Bool.not_not]
    rcases key a ha with ⟨h1, h2, h3, h4⟩ | h
    · exact .inl ⟨h3, h4, h1, h2⟩
    · exact .inr (.inr h)

/-- To prove something of all histories, for both ends. -/
theorem run_induct {Q : Bool → Side → List Msg → Side → List Msg → Prop}
    (start : ∀ s, Q s ⟨0, 0, [], [], 0⟩ [] ⟨0, 0, [], [], 0⟩ [])
    (self : ∀ s p o q i p' o' q' i', Q s p o q i → Tr V s p o q i p' o' q' i' → Q s p' o' q' i')
    (other : ∀ s p o q i p' o' q' i', Q s p o q i → Tr V (!s) q i p o q' i' p' o' → Q s p' o' q' i')
    (ops : List Op) (s : Bool) :
    Q s ((run V ops).side s) ((run V ops).chan s) ((run V ops).side (!s)) ((run V ops).chan (!s)) := by
  induction ops using List.reverseRecOn with
  | nil => exact start s
  | append_singleton ops op ih =>
    rw [run_snoc]
    rcases step_tr V (run V ops) op s with ⟨h1, h2, h3, h4⟩ | h | h
    · rw [h1, h2, h3, h4]; exact ih
    · exact self _ _ _ _ _ _ _ _ _ ih h
    · exact other _ _ _ _ _ _ _ _ _ ih h

/-- Requests made by `s` and answers on their way to `s`. -/
structure Inv (s : Bool) (p : Side) (o : List Msg) (q : Side) (i : List Msg) : Prop where
  request : ∀ n v, .request n v ∈ o → v ∈ V s ∧ (n, v) ∈ p.asked
  answer : ∀ n v, .answer n v ∈ i → v ∈ V s ∧ v ∈ V (!s) ∧ (n, v) ∈ p.asked
  fired : ∀ n v, (n, some v) ∈ p.fired → v ∈ V s ∧ v ∈ V (!s) ∧ (n, v) ∈ p.asked

theorem inv (ops : List Op) (s : Bool) :
    Inv V s ((run V ops).side s) ((run V ops).chan s) ((run V ops).side (!s)) ((run V ops).chan (!s)) := by
  apply run_induct V (Q := Inv V)
  · exact fun s => ⟨by simp, by simp, by simp⟩
  · rintro s p o q i p' o' q' i' ⟨h1, h2, h3⟩ t
    cases t <;> refine ⟨?_, ?_, ?_⟩ <;> simp_all
    all_goals grind
  · rintro s p o q i p' o' q' i' ⟨h1, h2, h3⟩ t
    cases t <;> refine ⟨?_, ?_, ?_⟩ <;> simp_all
    all_goals grind

/-- C96: the version in use is zero or one that both ends have. -/
theorem version_common (ops : List Op) (s : Bool) : ((run V ops).side s).version = 0 ∨
    ((run V ops).side s).version ∈ V true ∧ ((run V ops).side s).version ∈ V false := by
  have hb : ∀ (s : Bool) (v : Int), v ∈ V s → v ∈ V (!s) → v ∈ V true ∧ v ∈ V false := by
    intro s v h1 h2; cases s <;> exact ⟨by assumption, by assumption⟩
  refine (run_induct V (Q := fun s p o q i =>
    ((∀ n v, Msg.request n v ∈ o → v ∈ V s) ∧ (∀ n v, Msg.request n v ∈ i → v ∈ V (!s)) ∧
      (∀ n v, Msg.answer n v ∈ o → v ∈ V s ∧ v ∈ V (!s)) ∧ (∀ n v, Msg.answer n v ∈ i → v ∈ V s ∧ v ∈ V (!s))) ∧
    (p.version = 0 ∨ p.version ∈ V true ∧ p.version ∈ V false)) ?_ ?_ ?_ ops s).2
  · simp
  · rintro s p o q i p' o' q' i' ⟨⟨h1, h2, h3, h4⟩, h5⟩ t
    have := hb s
    cases t <;> grind
  · rintro s p o q i p' o' q' i' ⟨⟨h1, h2, h3, h4⟩, h5⟩ t
    cases t <;> grind

/-- C96: a renegotiation succeeds only with the version it asked for, which both ends have. -/
theorem gets_what_it_asked (ops : List Op) (s : Bool) (n : Nat) (v : Int)
    (h : (n, some v) ∈ ((run V ops).side s).fired) :
    v ∈ V s ∧ v ∈ V (!s) ∧ (n, v) ∈ ((run V ops).side s).asked := (inv V ops s).fired n v h

/-- The numbers of the requests in flight. -/
def Msg.req : Msg → Option Nat
  | .request n _ => some n
  | _ => none
/-- The numbers of the answers in flight. -/
def Msg.ans : Msg → Option Nat
  | .answer n _ => some n
  | .error n => some n
  | _ => none

/-- Every request is, in order, done, being answered or on its way. -/
def Queue (p : Side) (o : List Msg) (i : List Msg) : Prop :=
  p.asked.map Prod.fst = List.range p.count ∧
  p.fired.map Prod.fst ++ i.filterMap Msg.ans ++ o.filterMap Msg.req = List.range p.count

theorem queue (ops : List Op) (s : Bool) :
    Queue ((run V ops).side s) ((run V ops).chan s) ((run V ops).chan (!s)) := by
  apply run_induct V (Q := fun s p o q i => Queue p o i)
  · exact fun s => ⟨rfl, rfl⟩
  · rintro s p o q i p' o' q' i' ⟨h1, h2⟩ t
    cases t <;> refine ⟨?_, ?_⟩ <;> simp_all [Msg.req, Msg.ans, List.range_succ, List.filterMap_cons]
    all_goals simp [← h2]
  · rintro s p o q i p' o' q' i' ⟨h1, h2⟩ t
    cases t <;> refine ⟨?_, ?_⟩ <;> simp_all [Msg.req, Msg.ans, List.range_succ, List.filterMap_cons]

/-- C96: the renegotiations of one end finish in the order they were begun, each once, and all of them when nothing is in
flight. -/
theorem finish_in_order (ops : List Op) (s : Bool) :
    ((run V ops).side s).fired.map Prod.fst <+: ((run V ops).side s).asked.map Prod.fst ∧
    (((run V ops).side s).asked.map Prod.fst).Nodup ∧
    ((∀ b, (run V ops).chan b = []) →
      ((run V ops).side s).fired.map Prod.fst = ((run V ops).side s).asked.map Prod.fst) := by
  obtain ⟨h1, h2⟩ := queue V ops s
  rw [h1]
  refine ⟨?_, List.nodup_range, fun h => ?_⟩
  · rw [← h2, List.append_assoc]; exact List.prefix_append _ _
  · rw [h, h] at h2; simpa using h2

/-! ## Agreement -/

/-- The version carried by an answer. -/
def Msg.ver : Msg → Option Int
  | .answer _ v => some v
  | _ => none

/-- The version `p` will have once the answers on their way to it have arrived. -/
def coming (p : Side) (i : List Msg) : Int := (i.filterMap Msg.ver).getLast?.getD p.version

/-- No renegotiation begun by `s` is going on: its requests have arrived and so have the answers to them. -/
def Still (w : World) (s : Bool) : Prop :=
  (∀ n v, .request n v ∉ w.chan s) ∧ (∀ n v, .answer n v ∉ w.chan (!s)) ∧ (∀ n, .error n ∉ w.chan (!s))

/-- Specification: each renegotiation is begun while none begun by the other end is going on. -/
def TakingTurns (ops : List Op) : Prop :=
  ∀ pre s v post, ops = pre ++ .renegotiate s v :: post → Still (run V pre) (!s)

/-- Specification: one end has begun no renegotiation that is going on, and the other will have its version. -/
def Agreeing (w : World) : Prop :=
  ∃ s, Still w (!s) ∧ coming (w.side s) (w.chan (!s)) = (w.side (!s)).version

theorem agreeing_turns (ops : List Op) (h : TakingTurns V ops) : Agreeing (run V ops) := by
  induction ops using List.reverseRecOn with
  | nil => exact ⟨true, by simp [Still, run, World.new], rfl⟩
  | append_singleton ops op ih =>
    have h' : TakingTurns V ops := fun pre s v post e => h pre s v (post ++ [op]) (by simp [e])
    obtain ⟨a, hs, ha⟩ := ih h'
    rw [run_snoc]
    generalize hw : run V ops = w at hs ha
    have hturn : ∀ b v, op = .renegotiate b v → Still w (!b) := by
      rintro b v rfl; rw [← hw]; exact h ops b v [] rfl
    cases op with
    | renegotiate b v =>
      have hb : b = a ∨ b = !a := by cases b <;> cases a <;> simp
      by_cases hv : v ∈ V b
      · refine ⟨b, ?_, ?_⟩
        · have := hturn b v rfl
          simp only [Still, step, renegotiate, hv, if_true, World.put] at *
          simpa using this
        · have h2 := hturn b v rfl
          simp only [step, renegotiate, hv, if_true, World.put]
          rcases hb with rfl | rfl
          · simpa [coming] using ha
          · simp only [Still, Bool.not_not] at h2 hs
            have e1 : w.chan a = [] := List.eq_nil_iff_forall_not_mem.2 fun m => by
              cases m <;> simp [h2, hs]
            have e2 : w.chan (!a) = [] := List.eq_nil_iff_forall_not_mem.2 fun m => by
              cases m <;> simp [h2, hs]
            simp [coming, e1, e2] at ha ⊢
            exact ha.symm
      · refine ⟨a, ?_, ?_⟩
        · simpa [Still, step, renegotiate, hv, World.put] using hs
        · rcases hb with rfl | rfl <;> simpa [coming, step, renegotiate, hv, World.put] using ha
    | deliver b =>
      have hb : b = a ∨ b = !a := by cases b <;> cases a <;> simp
      refine ⟨a, ?_⟩
      simp only [step, deliver]
      rcases hb with rfl | rfl
      · cases hc : w.chan (!b) with
        | nil => exact ⟨hs, ha⟩
        | cons m rest =>
          simp only [Still, hc, Bool.not_not, coming] at hs ha
          cases m with
          | request n v => exact absurd (List.mem_cons_self) (hs.1 n v)
          | answer n v =>
            simp only [received, World.put, Still, coming, Bool.not_not]
            rw [List.filterMap_cons_some (f := Msg.ver) (b := v) rfl, List.getLast?_cons] at ha
            simp at hs ha ⊢
            exact ⟨hs, ha⟩
          | error n =>
            simp only [received, World.put, Still, coming, Bool.not_not]
            rw [List.filterMap_cons_none (f := Msg.ver) rfl] at ha
            simp at hs ha ⊢
            exact ⟨hs, ha⟩
      · rw [Bool.not_not]
        cases hc : w.chan a with
        | nil => exact ⟨hs, ha⟩
        | cons m rest =>
          simp only [Still, hc, Bool.not_not, coming] at hs ha
          cases m with
          | request n v =>
            by_cases hv : v ∈ V (!a)
            · simp only [received, loop_one, hv, if_true, World.put, Still, coming, Bool.not_not]
              simp [Msg.ver, List.filterMap_cons] at hs ha ⊢
              exact hs
            · simp only [received, loop_one, hv, if_false, World.put, Still, coming, Bool.not_not]
              simp [Msg.ver, List.filterMap_cons] at hs ha ⊢
              exact ⟨hs, ha⟩
          | answer n v => exact absurd (List.mem_cons_self) (hs.2.1 n v)
          | error n => exact absurd (List.mem_cons_self) (hs.2.2 n)

/-- C96: when the ends take turns to renegotiate, they use the same version whenever nothing is in flight. -/
theorem turns_agree (ops : List Op) (h : TakingTurns V ops) (hq : ∀ b, (run V ops).chan b = []) :
    ((run V ops).side true).version = ((run V ops).side false).version := by
  obtain ⟨a, -, ha⟩ := agreeing_turns V ops h
  cases a <;> simp_all [coming]

/-- The calls of `renegotiateVersion` at one end with a version it does not know. -/
def unknown (s : Bool) (ops : List Op) : Nat :=
  ops.countP fun op => match op with
    | .renegotiate a v => decide (a = s ∧ v ∉ V s)
    | .deliver _ => false

/-- C96: exactly the calls with a version that this end does not know raise. -/
theorem refused_exact (ops : List Op) (s : Bool) : ((run V ops).side s).refused = unknown V s ops := by
  induction ops using List.reverseRecOn with
  | nil => rfl
  | append_singleton ops op ih =>
    have hrun : run V (ops ++ [op]) = step V (run V ops) op := by simp [run, List.foldl_append]
    have hu : unknown V s (ops ++ [op]) = unknown V s ops + unknown V s [op] := by simp [unknown, List.countP_append]
    rw [hrun, hu, ← ih]
    cases op with
    | renegotiate a v =>
      simp only [step, renegotiate, unknown, List.countP_cons, List.countP_nil]
      by_cases hv : v ∈ V a
      · rw [if_pos hv]
        by_cases ha : a = s
        · subst ha; simp [World.put, hv]
        · simp [World.put, ha, Ne.symm ha]
      · rw [if_neg hv]
        by_cases ha : a = s
        · subst ha; simp [World.put, hv]
        · simp [World.put, ha, Ne.symm ha]
    | deliver a =>
      simp only [step, deliver, unknown, List.countP_cons, List.countP_nil]
      split
      · rfl
      · rename_i m rest hc
        by_cases ha : s = a
        · subst ha
          cases m with
          | request n v =>
            simp only [received]
            split <;> simp [World.put]
          | answer n u => simp [received, World.put]
          | error n => simp [received, World.put]
        · cases m with
          | request n v =>
            simp only [received]
            split <;> simp [World.put, ha]
          | answer n u => simp [received, World.put, ha]
          | error n => simp [received, World.put, ha]

/-- C96: with a single version in common — `VERSIONS` is `[1]` in the module — the ends agree whenever nothing is in flight,
even when negotiations cross. -/
theorem single_agrees (k : Int) (hk : ∀ v, v ∈ V true → v ∈ V false → v = k) (ops : List Op)
    (hq : ∀ b, (run V ops).chan b = []) :
    ((run V ops).side true).version = ((run V ops).side false).version := by
  have hb : ∀ (s : Bool) (v : Int), v ∈ V s → v ∈ V (!s) → v = k := by
    intro s v h1 h2; cases s <;> exact hk v (by assumption) (by assumption)
  have := run_induct V (Q := fun s p o q i =>
    ((∀ n v, Msg.request n v ∈ o → v ∈ V s) ∧ (∀ n v, Msg.request n v ∈ i → v ∈ V (!s))) ∧
    ((∀ n v, Msg.answer n v ∈ o → v = k) ∧ (∀ n v, Msg.answer n v ∈ i → v = k)) ∧
    (((∃ n v, Msg.answer n v ∈ o) → p.version = k) ∧ ((∃ n v, Msg.answer n v ∈ i) → q.version = k)) ∧
    ((p.version = 0 ∨ p.version = k) ∧ (q.version = 0 ∨ q.version = k)) ∧
    ((q.version = k → p.version = k ∨ ∃ n v, Msg.answer n v ∈ i) ∧
      (p.version = k → q.version = k ∨ ∃ n v, Msg.answer n v ∈ o))) ?_ ?_ ?_ ops true
  · obtain ⟨-, -, -, ⟨h1, h2⟩, h3, h4⟩ := this
    simp only [hq, Bool.not_true, List.not_mem_nil, exists_false, or_false] at h1 h2 h3 h4
    rcases h1 with h1 | h1
    · rcases h2 with h2 | h2
      · rw [h1, h2]
      · rw [h3 h2, h2]
    · rw [h4 h1, h1]
  · simp
  · rintro s p o q i p' o' q' i' ⟨⟨h1, h2⟩, ⟨h3, h4⟩, ⟨h5, h6⟩, ⟨h7, h8⟩, h9, h10⟩ t
    have := hb s
    cases t <;> first | grind | (simp only [List.mem_append, List.mem_cons, reduceCtorEq, false_or, or_false, List.not_mem_nil] at *; grind)
  · rintro s p o q i p' o' q' i' ⟨⟨h1, h2⟩, ⟨h3, h4⟩, ⟨h5, h6⟩, ⟨h7, h8⟩, h9, h10⟩ t
    have := hb s
    cases t <;> first | grind | (simp only [List.mem_append, List.mem_cons, reduceCtorEq, false_or, or_false, List.not_mem_nil] at *; grind)

/-- C96 fails without these conditions: both ends have the versions 1 and 2, one asks for 1 while the other asks for 2, and
when every message has arrived and both requests have succeeded each end is left with the version it asked for itself. -/
theorem crossing_fails : ∃ ops, (∀ b, (run (fun _ => [1, 2]) ops).chan b = []) ∧
    ((run (fun _ => [1, 2]) ops).side true).fired = [(0, some 1)] ∧
    ((run (fun _ => [1, 2]) ops).side false).fired = [(0, some 2)] ∧
    ((run (fun _ => [1, 2]) ops).side true).version = 1 ∧
    ((run (fun _ => [1, 2]) ops).side false).version = 2 :=
  ⟨[.renegotiate true 1, .renegotiate false 2, .deliver true, .deliver false, .deliver true, .deliver false],
    by decide, by decide, by decide, by decide, by decide⟩

/-- Taking turns: one end asks for 2 and then the other for 3, which its peer does not have, and for 1. -/
def turns : List Op := [.renegotiate true 2, .deliver false, .deliver true, .renegotiate false 3, .renegotiate false 1,
  .deliver true, .deliver true, .deliver false, .deliver false]

/-- What the two peers of the example have. -/
def some3 : Bool → List Int := fun b => if b then [1, 2] else [1, 2, 3]

example : TakingTurns some3 turns := by
  intro pre s v post e
  have hl := congrArg List.length e
  simp [turns] at hl
  have hp : pre = turns.take pre.length := by rw [e]; simp
  have hn : pre.length ≤ 8 := by omega
  generalize pre.length = m at hp hn
  subst hp
  interval_cases m <;> simp [turns] at e <;> obtain ⟨⟨rfl, rfl⟩, rfl⟩ := e <;>
    simp [Still, turns, run, step, renegotiate, deliver, received, World.put, World.new, some3, loop_one]

example : (∀ b, (run some3 turns).chan b = []) ∧ ((run some3 turns).side true).version = 1 ∧
    ((run some3 turns).side false).version = 1 ∧ ((run some3 turns).side true).fired = [(0, some 2)] ∧
    ((run some3 turns).side false).fired = [(0, none), (1, some 1)] := by decide

/-- Crossing negotiations with the module's one version. -/
example : ((run (fun _ => [1]) [.renegotiate true 1, .renegotiate false 1, .deliver true, .deliver false, .deliver true,
    .deliver false]).side true).version = 1 := by decide

end Verif.Renegotiate
