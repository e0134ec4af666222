import Verif.Model.BenchmarkSync
/-!
# C92: a benchmark is measured between its `start()` and its `stop()`
-/
namespace Verif.Benchmark
open Verif.Py

/-- How a script and its measurements ought to go: each measurement between the call that asks for it and the return of that
call. -/
def Op.expected : Op → List Ev
  | .start => [.call 0, .measure 0, .ret 0]
  | .stop => [.call 1, .measure 1, .ret 1]
  | .work n => [.work n]

def expected (prog : List Op) : List Ev := prog.flatMap Op.expected

/-- What is left of the call that is waiting, with the contents of the pipes. -/
def Pend (s : Sync) (rest : List Ev) : Prop :=
  match s.waiting with
  | none => s.up = [] ∧ s.down = [] ∧ rest = []
  | some b => (b = 0 ∨ b = 1) ∧
      (s.up = [b] ∧ s.down = [] ∧ rest = [.measure b, .ret b] ∨ s.up = [] ∧ s.down = [b] ∧ rest = [.ret b])

structure Inv (prog : List Op) (s : Sync) : Prop where
  live : s.failed = none → ∃ rest, Pend s rest ∧ s.trace ++ rest ++ expected s.prog = expected prog
  pre : s.trace <+: expected prog
  down : s.failed ≠ none → s.parentUp = false

theorem Inv.init (prog : List Op) : Inv prog (Sync.init prog) :=
  ⟨fun _ => ⟨[], ⟨rfl, rfl, rfl⟩, rfl⟩, List.nil_prefix, fun h => absurd rfl h⟩

theorem prefix_of {a b c : List Ev} (h : a ++ b = c) : a <+: c := ⟨b, h⟩

theorem prefix_of3 {a b c d : List Ev} (h : a ++ b ++ c = d) : a <+: d := ⟨b ++ c, by rw [← List.append_assoc]; exact h⟩

theorem backchannel_byte (b : Nat) (h : b = 0 ∨ b = 1) (s : Sync) :
    (backchannel false [b]).foldl answer s = { s with trace := s.trace ++ [.measure b], down := s.down ++ [b] } := by
  rcases h with rfl | rfl <;> rfl

/-- What a child step is, unfolded. -/
theorem Inv.child {prog : List Op} {s s' : Sync} (h : Inv prog s) (hs : s.step false .child = some s') :
    Inv prog s' ∧ (s'.failed = none → s'.trace.length = s.trace.length + 1) := by
  obtain ⟨pr, waiting, failed, up, down, parentUp, trace⟩ := s
  cases failed with
  | some e => cases hs
  | none =>
    obtain ⟨rest, hp, ht⟩ := h.live rfl
    cases waiting with
    | some b =>
      obtain ⟨hb, hp⟩ := hp
      simp only at hp
      rcases hp with ⟨rfl, rfl, rfl⟩ | ⟨rfl, rfl, rfl⟩
      · cases parentUp with
        | true => cases hs
        | false =>
          cases hs
          exact ⟨⟨(fun e => by cases e), h.pre, fun _ => rfl⟩, fun e => by cases e⟩
      · simp only [Sync.step, if_true, Option.some.injEq] at hs
        subst hs
        refine ⟨⟨fun _ => ⟨[], ⟨rfl, rfl, rfl⟩, ?_⟩, ?_, fun e => absurd rfl e⟩, fun _ => by simp⟩
        · simpa using ht
        · exact prefix_of (b := expected pr) (by simpa using ht)
    | none =>
      obtain ⟨rfl, rfl, rfl⟩ := hp
      cases pr with
      | nil => cases hs
      | cons op pr =>
        have hcall : ∀ b, (b = 0 ∨ b = 1) → op.expected = [.call b, .measure b, .ret b] →
            ∀ t : Sync, t = ⟨pr, some b, none, [b], [], true, trace ++ [.call b]⟩ → Inv prog t := by
          intro b hb he t htt
          subst htt
          have e : trace ++ [Ev.call b] ++ [.measure b, .ret b] ++ expected pr = expected prog := by
            rw [← ht, expected, expected, List.flatMap_cons, he]; simp
          refine ⟨fun _ => ⟨[.measure b, .ret b], ⟨hb, Or.inl ⟨rfl, rfl, rfl⟩⟩, e⟩, ?_, fun e => absurd rfl e⟩
          exact prefix_of3 e
        cases op with
        | work n =>
          cases hs
          have e : trace ++ [Ev.work n] ++ [] ++ expected pr = expected prog := by
            rw [← ht, expected, expected, List.flatMap_cons]; simp [Op.expected]
          refine ⟨⟨fun _ => ⟨[], ⟨rfl, rfl, rfl⟩, e⟩, ?_, h.down⟩, fun _ => by simp⟩
          exact prefix_of3 e
        | start =>
          cases parentUp with
          | true => cases hs; exact ⟨hcall 0 (Or.inl rfl) rfl _ rfl, fun _ => by simp⟩
          | false => cases hs; exact ⟨⟨(fun e => by cases e), h.pre, fun _ => rfl⟩, fun e => by cases e⟩
        | stop =>
          cases parentUp with
          | true => cases hs; exact ⟨hcall 1 (Or.inr rfl) rfl _ rfl, fun _ => by simp⟩
          | false => cases hs; exact ⟨⟨(fun e => by cases e), h.pre, fun _ => rfl⟩, fun e => by cases e⟩

theorem Inv.parent {prog : List Op} {s s' : Sync} (h : Inv prog s) (n : Nat) (hs : s.step false (.parent n) = some s') :
    Inv prog s' ∧ s'.trace.length = s.trace.length + 1 := by
  obtain ⟨pr, waiting, failed, up, down, parentUp, trace⟩ := s
  simp only [Sync.step] at hs
  split at hs
  · rename_i hc
    obtain ⟨rfl, hn, hl⟩ := hc
    cases failed with
    | some e => exact absurd (h.down (by simp)) (by simp)
    | none =>
      obtain ⟨rest, hp, ht⟩ := h.live rfl
      cases waiting with
      | none => obtain ⟨rfl, rfl, rfl⟩ := hp; simp at hl; omega
      | some b =>
        obtain ⟨hb, hp⟩ := hp
        simp only at hp
        rcases hp with ⟨rfl, rfl, rfl⟩ | ⟨rfl, rfl, rfl⟩
        · obtain rfl : n = 1 := by simp at hl; omega
          rw [show List.take 1 [b] = [b] from rfl, backchannel_byte b hb] at hs
          cases hs
          have e : trace ++ [Ev.measure b] ++ [.ret b] ++ expected pr = expected prog := by rw [← ht]; simp
          refine ⟨⟨fun _ => ⟨[.ret b], ⟨hb, Or.inr ⟨rfl, rfl, rfl⟩⟩, e⟩, ?_, fun e => absurd rfl e⟩, by simp⟩
          exact prefix_of3 e
        · simp at hl; omega
  · cases hs

theorem Inv.step {prog : List Op} {s s' : Sync} (h : Inv prog s) (l : Label) (hs : s.step false l = some s') : Inv prog s' := by
  cases l with
  | child => exact (h.child hs).1
  | parent n => exact (h.parent n hs).1
  | interrupt =>
    simp only [Sync.step] at hs
    split at hs
    · cases hs; exact h
    · cases hs
  | parentExit =>
    simp only [Sync.step] at hs
    split at hs
    · cases hs; exact ⟨h.live, h.pre, fun _ => rfl⟩
    · cases hs

theorem Inv.reach {prog : List Op} {s : Sync} (h : s.Reach false prog) : Inv prog s := by
  induction h with
  | init => exact Inv.init prog
  | step l _ hs ih => exact ih.step l hs

/-- **C92** on Python 2: however script and parent are interleaved, and whenever reads are interrupted or the parent ends, the
history so far is a beginning of the expected one; so every measurement is between the call and the return of the `start` or
`stop` that asked for it, all are in order, none is missing and SIGQUIT is never sent.  An error can only arise when the parent
has ended.  Missing: Python 3 (`sync_fails`). -/
theorem sync_partial {prog : List Op} {s : Sync} (h : s.Reach false prog) :
    s.trace <+: expected prog ∧ (s.failed ≠ none → s.parentUp = false) := ⟨(Inv.reach h).pre, (Inv.reach h).down⟩

/-- **C92**, and nothing waits for ever: while the parent runs, one of the two can go on, until the script is done and all is as
expected. -/
theorem sync_progress {prog : List Op} {s : Sync} (h : s.Reach false prog) (hp : s.parentUp = true) :
    s.trace = expected prog ∨ (∃ s', s.step false .child = some s') ∨ ∃ s', s.step false (.parent 1) = some s' := by
  have hi := Inv.reach h
  obtain ⟨pr, waiting, failed, up, down, parentUp, trace⟩ := s
  cases hp
  cases failed with
  | some e => exact absurd (hi.down (by simp)) (by simp)
  | none =>
    obtain ⟨rest, hp, ht⟩ := hi.live rfl
    cases waiting with
    | none =>
      obtain ⟨rfl, rfl, rfl⟩ := hp
      cases pr with
      | nil => left; simpa [expected] using ht
      | cons op pr => right; left; cases op <;> exact ⟨_, rfl⟩
    | some b =>
      obtain ⟨hb, hp⟩ := hp
      simp only at hp
      rcases hp with ⟨rfl, rfl, rfl⟩ | ⟨rfl, rfl, rfl⟩
      · right; right; exact ⟨_, rfl⟩
      · right; left
        exact ⟨_, by simp only [Sync.step, if_true]; rfl⟩

/-- **C92**, and it comes to an end: each step of the script or of the parent that does not raise adds to the history, which is
never longer than expected. -/
theorem sync_advance {prog : List Op} {s s' : Sync} (h : s.Reach false prog) (l : Label)
    (hl : l = .child ∨ ∃ n, l = .parent n) (hs : s.step false l = some s') (hf : s'.failed = none) :
    s'.trace.length = s.trace.length + 1 ∧ s'.trace.length ≤ (expected prog).length := by
  have hi := Inv.reach h
  refine ⟨?_, ((hi.step l hs).pre).length_le⟩
  rcases hl with rfl | ⟨n, rfl⟩
  · exact (hi.child hs).2 hf
  · exact (hi.parent n hs).2

/-- On Python 3 nothing is ever measured: the first `start` or `stop` raises `TypeError`. -/
theorem sync_fails {prog : List Op} {s : Sync} (h : s.Reach true prog) :
    (∀ b, Ev.measure b ∉ s.trace) ∧ (∀ b, Ev.call b ∉ s.trace) ∧
    ((∃ op ∈ prog, op = .start ∨ op = .stop) → s.step true .child = none → s.failed = some .typeError) := by
  have key : s.up = [] ∧ s.down = [] ∧ s.waiting = none ∧ (s.failed = none ∨ s.failed = some .typeError) ∧
      (∀ b, Ev.measure b ∉ s.trace) ∧ (∀ b, Ev.call b ∉ s.trace) ∧
      (s.failed = none → (∃ op ∈ prog, op = .start ∨ op = .stop) → ∃ op ∈ s.prog, op = .start ∨ op = .stop) := by
    induction h with
    | init => exact ⟨rfl, rfl, rfl, Or.inl rfl, by simp [Sync.init], by simp [Sync.init], fun _ h => h⟩
    | @step s s' l _ hs ih =>
      obtain ⟨pr, waiting, failed, up, down, parentUp, trace⟩ := s
      obtain ⟨rfl, rfl, rfl, hf, hm, hc, hq⟩ := ih
      cases l with
      | child =>
        rcases hf with rfl | rfl
        · cases pr with
          | nil => cases hs
          | cons op pr =>
            cases op with
            | work n =>
              cases hs
              refine ⟨rfl, rfl, rfl, Or.inl rfl, by simpa using hm, by simpa using hc, fun _ h => ?_⟩
              obtain ⟨op, h1, h2⟩ := hq rfl h
              rcases List.mem_cons.mp h1 with rfl | h1
              · simp at h2
              · exact ⟨op, h1, h2⟩
            | start => cases hs; exact ⟨rfl, rfl, rfl, Or.inr rfl, hm, hc, fun h => by cases h⟩
            | stop => cases hs; exact ⟨rfl, rfl, rfl, Or.inr rfl, hm, hc, fun h => by cases h⟩
        · cases hs
      | parent n =>
        simp only [Sync.step, List.length_nil] at hs
        rw [if_neg (by omega)] at hs
        cases hs
      | interrupt => cases hs
      | parentExit =>
        simp only [Sync.step] at hs
        split at hs
        · cases hs; exact ⟨rfl, rfl, rfl, hf, hm, hc, hq⟩
        · cases hs
  obtain ⟨h1, h2, h3, h4, h5, h6, h7⟩ := key
  refine ⟨h5, h6, fun hop hstep => ?_⟩
  rcases h4 with h4 | h4
  · obtain ⟨op, hm, -⟩ := h7 h4 hop
    obtain ⟨pr, waiting, failed, up, down, parentUp, trace⟩ := s
    cases h3; cases h4
    cases pr with
    | nil => cases hm
    | cons op pr => cases op <;> cases hstep
  · exact h4

/-- A script that starts, works and stops, with an interruption, measured. -/
example : ((((((((Sync.init [.start, .work 5, .stop]).step false .child).bind (·.step false .interrupt)).bind
    (·.step false (.parent 1))).bind (·.step false .child)).bind (·.step false .child)).bind (·.step false .child)).bind
    (·.step false (.parent 1))).map Sync.trace =
    some [.call 0, .measure 0, .ret 0, .work 5, .call 1, .measure 1] := rfl
/-- The parent ends before it answers. -/
example : (((Sync.init [.start]).step false .child).bind (·.step false .parentExit)).bind (·.step false .child) =
    some ⟨[], some 0, some .runtimeError, [0], [], false, [.call 0]⟩ := rfl

end Verif.Benchmark
