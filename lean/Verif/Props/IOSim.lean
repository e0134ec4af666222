import Verif.Model.IOSim
/-!
# C103: the simulated network carries the bytes

For all protocols: anything may be done to the transports at any moment.
-/
namespace Verif.IOSim
open Verif.Py

/-! ## What the log says -/

def Ev.writes (x : Side) : Ev → Bytes
  | .wrote y d => if y = x then d else []
  | _ => []

def Ev.receives (x : Side) : Ev → Bytes
  | .received y d => if y = x then d else []
  | _ => []

/-- All that a side has written. -/
def written (x : Side) (log : List Ev) : Bytes := log.flatMap (Ev.writes x)

/-- All that a side has been given. -/
def received (x : Side) (log : List Ev) : Bytes := log.flatMap (Ev.receives x)

/-! ## Bytes -/

/-- What `pump` has read and not yet delivered to a side. -/
def inHand (x : Side) : Pc → Bytes
  | .clientProducer s c | .serverProducer s c | .toServer s c => if x then c else s
  | .toClient s _ => if x then [] else s
  | _ => []

/-- All that was ever on the way to a side, as far as it was not lost. -/
def total (s : St) (x : Side) : Bytes := received x s.log ++ inHand x s.pc ++ (s.tr (!x)).file

theorem written_append (x : Side) (l : List Ev) (e : Ev) : written x (l ++ [e]) = written x l ++ e.writes x := by
  simp [written, List.flatMap_append]

theorem received_append (x : Side) (l : List Ev) (e : Ev) : received x (l ++ [e]) = received x l ++ e.receives x := by
  simp [received, List.flatMap_append]

theorem total_start (s : St) (x : Side) (h : inHand x s.pc = []) : total (start s) x = total s x := by
  unfold total
  rw [h]
  cases x <;> simp [start, St.say, St.tr, inHand, received_append, Ev.receives]

theorem log_start (s : St) : (start s).log = s.log ++ [.pumping] := rfl

theorem total_finish (s : St) (m : Bool) (x : Side) (h : inHand x s.pc = []) : total (finish s m) x = total s x := by
  have h0 : ∀ f, total (St.say { s with pc := .idle, flush := f } (.pumped m)) x = total s x := by
    intro f
    unfold total
    rw [h]
    cases x <;> simp [St.say, St.tr, inHand, received_append, Ev.receives]
  have h1 : ∀ (t : St) e, e.receives x = [] → total (t.say e) x = total t x := by
    intro t e he
    simp [total, St.say, St.tr, received_append, he]
  unfold finish
  dsimp only
  split
  · exact h0 s.flush
  · split
    · split
      · rw [h1 _ _ rfl]; exact h0 none
      · rw [total_start _ _ rfl]; exact h0 (some _)
    · rw [h1 _ _ rfl]; exact h0 none

theorem written_finish (s : St) (m : Bool) (x : Side) : written x (finish s m).log = written x s.log := by
  unfold finish
  dsimp only
  split
  · simp only [St.say, written_append, Ev.writes, List.append_nil]
  · split
    · split <;> simp only [St.say, start, written_append, Ev.writes, List.append_nil]
    · simp only [St.say, written_append, Ev.writes, List.append_nil]

/-- The step loses what `pump` has in hand. -/
def drops (s : St) : Input → Bool
  | .raise _ => s.pc ≠ .idle
  | .go => s.debug
  | _ => false

theorem total_abort (s : St) (e : PyErr) (x : Side) : total (abort s e) x = received x s.log ++ (s.tr (!x)).file := by
  simp [total, abort, St.say, St.tr, received_append, Ev.receives, inHand]

theorem step_total (s : St) (i : Input) (x : Side) :
    ∃ new, written (!x) (step s i).log = written (!x) s.log ++ new ∧
      (total (step s i) x = total s x ++ new ∨ drops s i = true ∧ (total (step s i) x).Sublist (total s x ++ new)) := by
  have same : ∀ t : St, written (!x) t.log = written (!x) s.log → total t x = total s x →
      ∃ new, written (!x) t.log = written (!x) s.log ++ new ∧
        (total t x = total s x ++ new ∨ drops s i = true ∧ (total t x).Sublist (total s x ++ new)) :=
    fun t h1 h2 => ⟨[], by rw [h1, List.append_nil], .inl (by rw [h2, List.append_nil])⟩
  have habort : ∀ e, drops s i = true → ∃ new, written (!x) (abort s e).log = written (!x) s.log ++ new ∧
        (total (abort s e) x = total s x ++ new ∨ drops s i = true ∧ (total (abort s e) x).Sublist (total s x ++ new)) := by
    intro e hd
    refine ⟨[], by simp [abort, St.say, written_append, Ev.writes], .inr ⟨hd, ?_⟩⟩
    rw [total_abort, List.append_nil]
    unfold total
    exact List.Sublist.append_right (List.sublist_append_left _ _) _
  cases i with
  | act y a =>
    cases a with
    | write d =>
      refine ⟨if y = !x then d else [], ?_, .inl ?_⟩
      · simp [step, act, St.say, written_append, Ev.writes, St.setTr]
        cases y <;> simp
      · cases x <;> cases y <;> simp [step, act, total, St.say, St.setTr, St.tr, received_append, Ev.receives]
    | writeSequence l =>
      apply same
      · simp only [step, act]; split <;> simp [St.say, written_append, Ev.writes]
      · simp only [step, act]; split <;> simp [total, St.say, St.tr, received_append, Ev.receives]
    | loseConnection =>
      apply same
      · cases y <;> simp [step, act, St.say, St.setTr, written_append, Ev.writes]
      · cases x <;> cases y <;> simp [step, act, total, St.say, St.setTr, St.tr, received_append, Ev.receives]
    | registerProducer b =>
      apply same
      · cases y <;> cases b <;> simp [step, act, St.say, St.setTr, written_append, Ev.writes]
      · cases x <;> cases y <;> cases b <;> simp [step, act, total, St.say, St.setTr, St.tr, received_append, Ev.receives]
    | unregisterProducer =>
      apply same
      · cases y <;> simp [step, act, St.setTr]
      · cases x <;> cases y <;> simp [step, act, total, St.setTr, St.tr]
    | stopConsuming =>
      apply same
      · cases y <;> simp [step, act, St.say, St.setTr, written_append, Ev.writes]
      · cases x <;> cases y <;> simp [step, act, total, St.say, St.setTr, St.tr, received_append, Ev.receives]
  | pump =>
    unfold step
    dsimp only
    split
    · next h => exact same _ (by simp [log_start, written_append, Ev.writes]) (total_start s x (by rw [h]; rfl))
    · exact same s rfl rfl
  | flush =>
    unfold step
    dsimp only
    split
    · next h =>
      refine same _ (by simp [log_start, written_append, Ev.writes]) ?_
      rw [total_start _ x (by show inHand x s.pc = []; rw [h]; rfl)]; rfl
    · exact same s rfl rfl
  | raise e =>
    unfold step
    dsimp only
    split
    · exact same s rfl rfl
    · next h => exact habort e (by simp [drops, h])
  | go =>
    unfold step go
    dsimp only
    have hcheck : ∀ (t : St) y, written (!x) (checkProducer t y).log = written (!x) t.log ∧ total (checkProducer t y) x = total t x := by
      intro t y
      unfold checkProducer
      split <;> simp [total, St.say, St.tr, written_append, received_append, Ev.writes, Ev.receives]
    split
    · exact same s rfl rfl
    · next sd cd h =>
      obtain ⟨h1, h2⟩ := hcheck { s with pc := .serverProducer sd cd } false
      exact same _ h1 (h2.trans (by unfold total; rw [h]; rfl))
    · next sd cd h =>
      obtain ⟨h1, h2⟩ := hcheck { s with pc := .toServer sd cd } true
      exact same _ h1 (h2.trans (by unfold total; rw [h]; rfl))
    · next sd cd h =>
      split
      · next hd => exact habort _ (by simp only [Bool.and_eq_true] at hd; exact hd.1)
      · apply same
        · split <;> simp [St.say, written_append, Ev.writes]
        · unfold total
          rw [h]
          cases x <;> split <;> simp_all [St.say, St.tr, received_append, Ev.receives, inHand]
    · next sd cd h =>
      apply same
      · split <;> simp [St.say, written_append, Ev.writes]
      · unfold total
        rw [h]
        cases x <;> split <;> simp_all [St.say, St.tr, received_append, Ev.receives, inHand]
    · next sd cd h =>
      have hh : inHand x s.pc = [] := by rw [h]; rfl
      have hdis : ∀ y, written (!x) (disconnect s y).log = written (!x) s.log ∧ total (disconnect s y) x = total s x := by
        intro y
        refine ⟨?_, ?_⟩
        · cases y <;> simp [disconnect, St.say, St.setTr, written_append, Ev.writes]
        · unfold total
          rw [h]
          cases y <;> cases x <;> simp [disconnect, St.say, St.setTr, St.tr, received_append, Ev.receives, inHand]
      split
      · exact same _ (written_finish ..) (total_finish _ _ _ hh)
      · split
        · exact same _ (hdis _).1 (hdis _).2
        · split
          · exact same _ (hdis _).1 (hdis _).2
          · exact same _ (written_finish ..) (total_finish _ _ _ hh)
    · next h => exact same _ (written_finish ..) (total_finish _ _ _ (by rw [h]; rfl))

/-- C103: in every execution, also if protocols raise, each side is given bytes that the other has written, each at most once and
in the order in which they were written. -/
theorem nothing_invented (is : List Input) (x : Side) :
    (received x (exec {} is).log).Sublist (written (!x) (exec {} is).log) := by
  suffices ∀ s : St, (total s x).Sublist (written (!x) s.log) → (total (exec s is) x).Sublist (written (!x) (exec s is).log) by
    refine List.Sublist.trans ?_ (this {} (by cases x <;> exact List.Sublist.refl _))
    unfold total
    rw [List.append_assoc]
    exact List.sublist_append_left _ _
  induction is with
  | nil => exact fun s h => h
  | cons i is ih =>
    intro s h
    refine ih (step s i) ?_
    obtain ⟨new, h1, h2⟩ := step_total s i x
    rw [h1]
    rcases h2 with h2 | ⟨_, h2⟩
    · rw [h2]; exact h.append_right _
    · exact h2.trans (h.append_right _)

/-- Nobody raises. -/
def Calm (is : List Input) : Prop := ∀ e, .raise e ∉ is

theorem debug_step (s : St) (i : Input) : (step s i).debug = s.debug := by
  have hset : ∀ (s : St) x t, (s.setTr x t).debug = s.debug := fun s x t => by unfold St.setTr; split <;> rfl
  have hfin : ∀ (s : St) m, (finish s m).debug = s.debug := by
    intro s m
    unfold finish
    dsimp only
    split
    · rfl
    · split
      · split <;> rfl
      · rfl
  have hdis : ∀ (s : St) x, (disconnect s x).debug = s.debug := fun s x => by
    unfold disconnect
    simp [St.say, hset]
  cases i with
  | act y a => cases a <;> simp only [step, act, St.say] <;> (try split) <;> simp [hset]
  | pump => simp only [step]; split <;> rfl
  | flush => simp only [step]; split <;> rfl
  | raise e => simp only [step]; split <;> rfl
  | go =>
    simp only [step]
    unfold go checkProducer
    split
    · rfl
    · split <;> rfl
    · split <;> rfl
    · split
      · rfl
      · dsimp only; split <;> rfl
    · dsimp only; split <;> rfl
    · split
      · exact hfin _ _
      · split
        · exact hdis _ _
        · split
          · exact hdis _ _
          · exact hfin _ _
    · exact hfin _ _

theorem total_calm (is : List Input) (hc : Calm is) (x : Side) (s : St) (hd : s.debug = false) (h : total s x = written (!x) s.log) :
    total (exec s is) x = written (!x) (exec s is).log := by
  induction is generalizing s with
  | nil => exact h
  | cons i is ih =>
    refine ih (fun e he => hc e (List.mem_cons_of_mem _ he)) (step s i) (by rw [debug_step, hd]) ?_
    obtain ⟨new, h1, h2⟩ := step_total s i x
    rw [h1]
    rcases h2 with h2 | ⟨h2, _⟩
    · rw [h2, h]
    · cases i with
      | raise e => exact absurd List.mem_cons_self (hc e)
      | go => rw [show drops s .go = s.debug from rfl, hd] at h2; cases h2
      | _ => cases h2

/-- C103: as long as nobody raises and `debug` is off, nothing is lost: what one side has written is what the other has been given,
what is in hand and what is in the file, in this order. -/
theorem nothing_lost_partial (is : List Input) (hc : Calm is) (x : Side) :
    received x (exec {} is).log ++ inHand x (exec {} is).pc ++ ((exec {} is).tr (!x)).file = written (!x) (exec {} is).log :=
  total_calm is hc x {} rfl (by cases x <;> rfl)

/-! ## Rounds -/

/-- At the end of this history everything that was written has been received. -/
def AllReceived (log : List Ev) : Prop := ∀ x, received x log = written (!x) log

/-- The events that only come when a round has found nothing to move. -/
def Ev.quiet : Ev → Prop
  | .pumped m => m = false
  | .lost _ => True
  | _ => False

/-- Such events come only if at the beginning of the round everything had been received. -/
def History (log : List Ev) : Prop :=
  ∀ pre mid e post, log = pre ++ .pumping :: mid ++ e :: post → .pumping ∉ mid → e.quiet → AllReceived pre

/-- What the round was begun with, for a side. -/
def begunWith (x : Side) : Pc → Bytes
  | .clientProducer s c | .serverProducer s c | .toServer s c | .toClient s c | .decide s c => if x then c else s
  | _ => []

def Round (s : St) : Prop :=
  s.pc = .idle ∨ ∃ pre mid, s.log = pre ++ .pumping :: mid ∧ .pumping ∉ mid ∧
    ∀ x, received x pre ++ begunWith x s.pc = written (!x) pre

theorem last_unique {p : Ev} {a b c d : List Ev} (h : a ++ p :: b = c ++ p :: d) (hb : p ∉ b) (hd : p ∉ d) : a = c := by
  rcases List.append_eq_append_iff.1 h with ⟨m, h1, h2⟩ | ⟨m, h1, h2⟩
  · cases m with
    | nil => simpa using h1.symm
    | cons q m => cases h2; exact absurd (by simp) hb
  · cases m with
    | nil => simpa using h1
    | cons q m => cases h2; exact absurd (by simp) hd

theorem History.append {l : List Ev} (h : History l) {e : Ev}
    (he : e.quiet → ∀ pre mid, l = pre ++ .pumping :: mid → .pumping ∉ mid → AllReceived pre) : History (l ++ [e]) := by
  intro pre mid e' post heq hm hq
  rcases List.eq_nil_or_concat post with rfl | ⟨post', last, rfl⟩
  · have := List.append_inj' heq rfl
    cases this.2
    exact he hq pre mid this.1 hm
  · have : l ++ [e] = (pre ++ .pumping :: mid ++ e' :: post') ++ [last] := by rw [heq]; simp
    have := List.append_inj' this rfl
    exact h pre mid e' post' this.1 hm hq

/-- Everything together, for executions in which nothing is lost. -/
structure Good (s : St) : Prop where
  total : ∀ x, total s x = written (!x) s.log
  round : Round s
  history : History s.log

theorem Good.history_say {s : St} (h : Good s) {e : Ev} (he : e.quiet → s.pc ≠ .idle ∧ ∀ x, begunWith x s.pc = []) :
    History (s.log ++ [e]) := by
  refine h.history.append fun hq pre mid heq hm => ?_
  obtain ⟨h1, h2⟩ := he hq
  rcases h.round with hi | ⟨pre', mid', hl, hm', hx⟩
  · exact absurd hi h1
  · have := last_unique (heq.symm.trans hl) hm hm'
    subst this
    intro x
    rw [← hx x, h2 x, List.append_nil]

theorem round_say {s t : St} {e : Ev} (h : Round s) (hl : t.log = s.log ++ [e]) (he : e ≠ .pumping) (hpc : s.pc = .idle → t.pc = .idle)
    (hb : t.pc ≠ .idle → ∀ x, begunWith x t.pc = begunWith x s.pc) : Round t := by
  by_cases ht : t.pc = .idle
  · exact .inl ht
  · rcases h with hi | ⟨pre, mid, h1, h2, h3⟩
    · exact absurd (hpc hi) ht
    · refine .inr ⟨pre, mid ++ [e], by rw [hl, h1]; simp, fun hm => ?_, fun x => by rw [hb ht x]; exact h3 x⟩
      rcases List.mem_append.1 hm with hm | hm
      · exact h2 hm
      · exact he (List.mem_singleton.1 hm).symm

theorem round_quiet {s t : St} (h : Round s) (hl : t.log = s.log) (hpc : s.pc = .idle → t.pc = .idle)
    (hb : t.pc ≠ .idle → ∀ x, begunWith x t.pc = begunWith x s.pc) : Round t := by
  by_cases ht : t.pc = .idle
  · exact .inl ht
  · rcases h with hi | ⟨pre, mid, h1, h2, h3⟩
    · exact absurd (hpc hi) ht
    · exact .inr ⟨pre, mid, by rw [hl, h1], h2, fun x => by rw [hb ht x]; exact h3 x⟩

theorem round_start {s : St} (hpc : s.pc = .idle) (ht : ∀ x, total s x = written (!x) s.log) : Round (start s) := by
  refine .inr ⟨s.log, [], rfl, by simp, fun x => ?_⟩
  rw [← ht x]
  unfold total
  rw [hpc]
  cases x <;> simp [start, St.say, begunWith, inHand, St.tr]

theorem Good.finish {s : St} (h : Good s) (m : Bool) (hb : m = false → s.pc ≠ .idle ∧ ∀ x, begunWith x s.pc = [])
    (hh : ∀ x, inHand x s.pc = []) : Round (finish s m) ∧ History (finish s m).log := by
  have h0 : History (s.log ++ [.pumped m]) := h.history_say fun hq => hb hq
  have h1 : ∀ e : Ev, ¬ e.quiet → History (s.log ++ [.pumped m] ++ [e]) := fun e he => h0.append fun hq => absurd hq he
  unfold IOSim.finish
  dsimp only
  split
  · exact ⟨.inl rfl, h0⟩
  · split
    · split
      · exact ⟨.inl rfl, h1 _ (fun hq => hq)⟩
      · refine ⟨round_start rfl fun x => ?_, h1 _ (fun hq => hq)⟩
        have := h.total x
        unfold IOSim.total at this ⊢
        rw [hh x, List.append_nil] at this
        simp only [St.say, St.tr, received_append, written_append, Ev.receives, Ev.writes, inHand, List.append_nil] at this ⊢
        exact this
    · exact ⟨.inl rfl, h1 _ (fun hq => hq)⟩

theorem Good.step {s : St} (h : Good s) (hd : s.debug = false) (i : Input) (hi : ∀ e, i ≠ .raise e) : Good (step s i) := by
  have htot : ∀ x, IOSim.total (IOSim.step s i) x = written (!x) (IOSim.step s i).log := by
    intro x
    obtain ⟨new, h1, h2⟩ := step_total s i x
    rw [h1, ← h.total x]
    rcases h2 with h2 | ⟨h2, _⟩
    · exact h2
    · cases i with
      | raise e => exact absurd rfl (hi e)
      | go => rw [show drops s .go = s.debug from rfl, hd] at h2; cases h2
      | _ => cases h2
  suffices Round (IOSim.step s i) ∧ History (IOSim.step s i).log from ⟨htot, this.1, this.2⟩
  clear htot
  have say : ∀ (t : St) (e : Ev), t.log = s.log ++ [e] → e ≠ .pumping → ¬ e.quiet → (s.pc = .idle → t.pc = .idle) →
      (t.pc ≠ .idle → ∀ x, begunWith x t.pc = begunWith x s.pc) → Round t ∧ History t.log := by
    intro t e h1 h2 h3 h4 h5
    refine ⟨round_say h.round h1 h2 h4 h5, ?_⟩
    rw [h1]
    exact h.history_say fun hq => absurd hq h3
  have keep : ∀ (t : St), t.log = s.log → (s.pc = .idle → t.pc = .idle) → (t.pc ≠ .idle → ∀ x, begunWith x t.pc = begunWith x s.pc) →
      Round t ∧ History t.log := by
    intro t h1 h4 h5
    exact ⟨round_quiet h.round h1 h4 h5, by rw [h1]; exact h.history⟩
  have spc : ∀ (s : St) x t, (s.setTr x t).pc = s.pc := fun s x t => by unfold St.setTr; split <;> rfl
  have slog : ∀ (s : St) x t, (s.setTr x t).log = s.log := fun s x t => by unfold St.setTr; split <;> rfl
  cases i with
  | raise e => exact absurd rfl (hi e)
  | act y a =>
    cases a with
    | write d =>
      exact say _ (.wrote y d) (by simp [IOSim.step, act, St.say, slog]) (by simp) id
        (by simp [IOSim.step, act, St.say, spc]) (by simp [IOSim.step, act, St.say, spc])
    | writeSequence l =>
      simp only [IOSim.step, act]
      split
      · exact keep _ rfl id (fun _ _ => rfl)
      · exact say _ _ rfl (by simp) id id (fun _ _ => rfl)
    | loseConnection =>
      exact say _ (.lose y) (by simp [IOSim.step, act, St.say, slog]) (by simp) id
        (by simp [IOSim.step, act, St.say, spc]) (by simp [IOSim.step, act, St.say, spc])
    | registerProducer b =>
      cases b with
      | true => exact keep _ (by simp [IOSim.step, act, slog]) (by simp [IOSim.step, act, spc]) (by simp [IOSim.step, act, spc])
      | false =>
        exact say _ (.resumed y) (by simp [IOSim.step, act, St.say, slog]) (by simp) id
          (by simp [IOSim.step, act, St.say, spc]) (by simp [IOSim.step, act, St.say, spc])
    | unregisterProducer =>
      exact keep _ (by simp [IOSim.step, act, slog]) (by simp [IOSim.step, act, spc]) (by simp [IOSim.step, act, spc])
    | stopConsuming =>
      exact say _ (.lose y) (by simp [IOSim.step, act, St.say, slog]) (by simp) id
        (by simp [IOSim.step, act, St.say, spc]) (by simp [IOSim.step, act, St.say, spc])
  | pump =>
    simp only [IOSim.step]
    split
    · next hp => exact ⟨round_start hp h.total, h.history_say (e := .pumping) fun hq => absurd hq id⟩
    · exact keep _ rfl id (fun _ _ => rfl)
  | flush =>
    simp only [IOSim.step]
    split
    · next hp =>
      exact ⟨round_start (s := { s with flush := some (999, false) }) hp h.total, h.history_say (e := .pumping) fun hq => absurd hq id⟩
    · exact keep _ rfl id (fun _ _ => rfl)
  | go =>
    simp only [IOSim.step]
    unfold go
    split
    · exact keep _ rfl id (fun _ _ => rfl)
    · next hp =>
      unfold checkProducer
      split
      · exact say _ _ rfl (by simp) id (fun e => by rw [hp] at e; cases e) (fun _ x => by rw [hp]; rfl)
      · exact keep _ rfl (fun e => by rw [hp] at e; cases e) (fun _ x => by rw [hp]; rfl)
    · next hp =>
      unfold checkProducer
      split
      · exact say _ _ rfl (by simp) id (fun e => by rw [hp] at e; cases e) (fun _ x => by rw [hp]; rfl)
      · exact keep _ rfl (fun e => by rw [hp] at e; cases e) (fun _ x => by rw [hp]; rfl)
    · next hp =>
      rw [if_neg (by rw [hd]; simp)]
      dsimp only
      split
      · exact say _ _ rfl (by simp) id (fun e => by rw [hp] at e; cases e) (fun _ x => by rw [hp]; rfl)
      · exact keep _ rfl (fun e => by rw [hp] at e; cases e) (fun _ x => by rw [hp]; rfl)
    · next hp =>
      dsimp only
      split
      · exact say _ _ rfl (by simp) id (fun e => by rw [hp] at e; cases e) (fun _ x => by rw [hp]; rfl)
      · exact keep _ rfl (fun e => by rw [hp] at e; cases e) (fun _ x => by rw [hp]; rfl)
    · next sd cd hp =>
      have hh : ∀ x, inHand x s.pc = [] := fun x => by rw [hp]; rfl
      split
      · exact h.finish true (by simp) hh
      · next hn =>
        have hb : s.pc ≠ .idle ∧ ∀ x, begunWith x s.pc = [] := by
          simp only [Bool.or_eq_true, decide_eq_true_eq, not_or, Decidable.not_not, ne_eq] at hn
          rw [hp, hn.1, hn.2]
          exact ⟨by simp, fun x => by cases x <;> rfl⟩
        have hdis : ∀ y, Round (disconnect s y) ∧ History (disconnect s y).log := by
          intro y
          have hl : (disconnect s y).log = s.log ++ [.lost (!y)] := by simp [disconnect, St.say, slog]
          have hpc : (disconnect s y).pc = .last := rfl
          refine ⟨round_say h.round hl (by simp) (fun e => absurd e hb.1) (fun _ x => by rw [hpc, hb.2 x]; rfl), ?_⟩
          rw [hl]
          exact h.history_say fun _ => hb
        split
        · exact hdis _
        · split
          · exact hdis _
          · exact h.finish false (fun _ => hb) hh
    · next hp => exact h.finish true (by simp) (fun x => by rw [hp]; rfl)

theorem Good.exec (is : List Input) (hc : Calm is) : ∀ s : St, Good s → s.debug = false → Good (exec s is) := by
  induction is with
  | nil => exact fun s h _ => h
  | cons i is ih =>
    intro s h hd
    exact ih (fun e he => hc e (List.mem_cons_of_mem _ he)) (IOSim.step s i)
      (h.step hd i fun e he => hc e (by rw [he]; exact List.mem_cons_self)) (by rw [debug_step, hd])

/-- C103: when a round reports that it moved nothing, so that `flush` returns, and when a side is told that the connection is lost,
everything that was written before the round began has been received. -/
theorem flushed_partial (is : List Input) (hc : Calm is) (pre mid post : List Ev) (e : Ev)
    (h : (exec {} is).log = pre ++ .pumping :: mid ++ e :: post) (hm : .pumping ∉ mid) (he : e = .pumped false ∨ ∃ x, e = .lost x) :
    ∀ x, received x pre = written (!x) pre := by
  have := Good.exec is hc {} ⟨fun x => by cases x <;> rfl, .inl rfl, fun pre mid e post h => by simp at h⟩ rfl
  refine this.history pre mid e post h hm ?_
  rcases he with rfl | ⟨x, rfl⟩
  · exact rfl
  · trivial

/-! ## The end of the connection -/

structure Conn (s : St) : Prop where
  lost : ∀ x, s.log.count (.lost x) = if (s.tr (!x)).disconnected then 1 else 0
  link : ∀ x, (s.tr x).disconnected = true → (s.tr x).disconnecting = true ∧ (s.tr (!x)).disconnecting = true
  asked : ∀ x, (s.tr x).disconnecting = true → ∃ y, .lose y ∈ s.log
  lose : ∀ x, .lose x ∈ s.log → (s.tr x).disconnecting = true

/-- Nothing about the end of the connection. -/
def Ev.other : Ev → Prop
  | .lost _ | .lose _ => False
  | _ => True

theorem Conn.same {s t : St} (h : Conn s) (h1 : ∀ x, (t.tr x).disconnected = (s.tr x).disconnected)
    (h2 : ∀ x, (t.tr x).disconnecting = (s.tr x).disconnecting) (l : List Ev) (hl : t.log = s.log ++ l) (ho : ∀ e ∈ l, e.other) :
    Conn t where
  lost x := by
    have : l.count (.lost x) = 0 := List.count_eq_zero.2 fun hm => absurd (ho _ hm) id
    rw [hl, List.count_append, h1, h.lost x, this, Nat.add_zero]
  link x hx := by rw [h2, h2]; exact h.link x (by rw [← h1]; exact hx)
  asked x hx := by
    obtain ⟨y, hy⟩ := h.asked x (by rw [← h2]; exact hx)
    exact ⟨y, by rw [hl]; exact List.mem_append_left _ hy⟩
  lose x hx := by
    rw [hl] at hx
    rw [h2]
    rcases List.mem_append.1 hx with hx | hx
    · exact h.lose x hx
    · exact absurd (ho _ hx) id

theorem Conn.finish {s : St} (h : Conn s) (m : Bool) : Conn (finish s m) := by
  have hst : ∀ s, Conn s → Conn (start s) := by
    intro s h
    refine h.same (fun x => ?_) (fun x => ?_) [.pumping] rfl (by simp [Ev.other]) <;> cases x <;> rfl
  have h0 : Conn (St.say { s with pc := .idle } (.pumped m)) :=
    h.same (fun x => by cases x <;> rfl) (fun x => by cases x <;> rfl) [_] rfl (by simp [Ev.other])
  unfold IOSim.finish
  dsimp only
  split
  · exact h0
  · split
    · split
      · exact h0.same (fun x => by cases x <;> rfl) (fun x => by cases x <;> rfl) [_] rfl (by simp [Ev.other])
      · refine hst _ (h0.same (fun x => by cases x <;> rfl) (fun x => by cases x <;> rfl) [] (by simp [St.say]) (by simp))
    · exact h0.same (fun x => by cases x <;> rfl) (fun x => by cases x <;> rfl) [_] rfl (by simp [Ev.other])

theorem Conn.disconnect {s : St} (h : Conn s) (y : Side) (h1 : (s.tr y).disconnecting = true) (h2 : (s.tr y).disconnected = false) :
    Conn (disconnect s y) := by
  have hl : (IOSim.disconnect s y).log = s.log ++ [.lost (!y)] := by cases y <;> rfl
  constructor
  · intro x
    rw [hl, List.count_append, h.lost x]
    cases y <;> cases x <;> simp_all [IOSim.disconnect, St.say, St.setTr, St.tr]
  · intro x
    have := h.link x
    cases y <;> cases x <;> simp_all [IOSim.disconnect, St.say, St.setTr, St.tr]
  · intro x hx
    obtain ⟨z, hz⟩ := h.asked y h1
    exact ⟨z, by rw [hl]; exact List.mem_append_left _ hz⟩
  · intro x hx
    rw [hl] at hx
    have := h.lose x (by simpa using hx)
    cases y <;> cases x <;> simp_all [IOSim.disconnect, St.say, St.setTr, St.tr]

theorem Conn.step {s : St} (h : Conn s) (i : Input) : Conn (step s i) := by
  have hst : ∀ s, Conn s → Conn (start s) := by
    intro s h
    refine h.same (fun x => ?_) (fun x => ?_) [.pumping] rfl (by simp [Ev.other]) <;> cases x <;> rfl
  have hab : ∀ e, Conn (abort s e) := fun e =>
    h.same (fun x => by cases x <;> rfl) (fun x => by cases x <;> rfl) [_] rfl (by simp [Ev.other])
  have hlose : ∀ (t : St) y, t.log = s.log ++ [.lose y] → (∀ x, (t.tr x).disconnected = (s.tr x).disconnected) →
      (∀ x, (t.tr x).disconnecting = ((s.tr x).disconnecting || decide (x = y))) → Conn t := by
    intro t y h1 h2 h3
    constructor
    · intro x; rw [h1, List.count_append, h2, h.lost x]; simp
    · intro x hx
      have := h.link x (by rw [← h2]; exact hx)
      rw [h3, h3, this.1, this.2]; simp
    · intro x _; exact ⟨y, by rw [h1]; simp⟩
    · intro x hx
      rw [h1] at hx
      rw [h3]
      rcases List.mem_append.1 hx with hx | hx
      · rw [h.lose x hx]; rfl
      · cases List.mem_singleton.1 hx; simp
  cases i with
  | act y a =>
    cases a with
    | write d =>
      refine h.same (fun x => ?_) (fun x => ?_) [.wrote y d] (by cases y <;> rfl) (by simp [Ev.other]) <;>
        cases x <;> cases y <;> rfl
    | writeSequence l =>
      simp only [IOSim.step, act]
      split
      · exact h
      · exact h.same (fun x => by cases x <;> rfl) (fun x => by cases x <;> rfl) [_] rfl (by simp [Ev.other])
    | loseConnection =>
      refine hlose _ y (by cases y <;> rfl) (fun x => by cases x <;> cases y <;> rfl) fun x => ?_
      cases x <;> cases y <;> simp [IOSim.step, act, St.setTr, St.say, St.tr]
    | registerProducer b =>
      cases b with
      | true =>
        refine h.same (fun x => ?_) (fun x => ?_) [] (by cases y <;> simp [IOSim.step, act, St.setTr]) (by simp) <;>
          cases x <;> cases y <;> rfl
      | false =>
        refine h.same (fun x => ?_) (fun x => ?_) [.resumed y] (by cases y <;> rfl) (by simp [Ev.other]) <;>
          cases x <;> cases y <;> rfl
    | unregisterProducer =>
      refine h.same (fun x => ?_) (fun x => ?_) [] (by cases y <;> simp [IOSim.step, act, St.setTr]) (by simp) <;>
        cases x <;> cases y <;> rfl
    | stopConsuming =>
      refine hlose _ y (by cases y <;> rfl) (fun x => by cases x <;> cases y <;> rfl) fun x => ?_
      cases x <;> cases y <;> simp [IOSim.step, act, St.setTr, St.say, St.tr]
  | pump =>
    simp only [IOSim.step]
    split
    · exact hst s h
    · exact h
  | flush =>
    simp only [IOSim.step]
    split
    · exact hst _ (h.same (fun x => by cases x <;> rfl) (fun x => by cases x <;> rfl) [] (by simp) (by simp))
    · exact h
  | raise e =>
    simp only [IOSim.step]
    split
    · exact h
    · exact hab e
  | go =>
    simp only [IOSim.step]
    have pc : ∀ p, Conn { s with pc := p } := fun p =>
      h.same (fun x => by cases x <;> rfl) (fun x => by cases x <;> rfl) [] (by simp) (by simp)
    have pcs : ∀ p e, e.other → Conn (St.say { s with pc := p } e) := fun p e he =>
      h.same (fun x => by cases x <;> rfl) (fun x => by cases x <;> rfl) [e] rfl (by simpa using he)
    unfold go checkProducer
    split
    · exact h
    · split
      · exact pcs _ _ trivial
      · exact pc _
    · split
      · exact pcs _ _ trivial
      · exact pc _
    · split
      · exact hab _
      · dsimp only
        split
        · exact pcs _ _ trivial
        · exact pc _
    · dsimp only
      split
      · exact pcs _ _ trivial
      · exact pc _
    · split
      · exact h.finish _
      · split
        · next hd => simp only [Bool.and_eq_true, Bool.not_eq_true'] at hd; exact h.disconnect true hd.1 hd.2
        · split
          · next hd => simp only [Bool.and_eq_true, Bool.not_eq_true'] at hd; exact h.disconnect false hd.1 hd.2
          · exact h.finish _
    · exact h.finish _

theorem Conn.exec {s : St} (h : Conn s) (is : List Input) : Conn (exec s is) := by
  induction is generalizing s with
  | nil => exact h
  | cons i is ih => exact ih (h.step i)

theorem Conn.new : Conn {} where
  lost x := by cases x <;> rfl
  link x h := by cases x <;> cases h
  asked x h := by cases x <;> cases h
  lose x h := by cases h

/-- C103: in every execution each side is told at most once that the connection is lost, and only after one of them has asked for
it. -/
theorem lost_once (is : List Input) (x : Side) :
    (exec {} is).log.count (.lost x) ≤ 1 ∧ (.lost x ∈ (exec {} is).log → ∃ y, .lose y ∈ (exec {} is).log) := by
  have h := Conn.new.exec is
  have := h.lost x
  refine ⟨by rw [this]; split <;> omega, fun hm => ?_⟩
  have hpos := List.count_pos_iff.2 hm
  have hd : ((exec {} is).tr (!x)).disconnected = true := by
    by_cases hd : ((exec {} is).tr (!x)).disconnected = true
    · exact hd
    · rw [if_neg hd] at this; omega
  exact h.asked _ (h.link _ hd).1

theorem pumped_false {s : St} {i : Input} {new : List Ev} (hn : (step s i).log = s.log ++ new) (hp : .pumped false ∈ new) :
    ∀ x, (s.tr x).disconnecting = true → (s.tr x).disconnected = true := by
  have cancel : ∀ {l : List Ev}, s.log ++ l = s.log ++ new → .pumped false ∈ l := fun h => by
    rw [List.append_cancel_left h]; exact hp
  have no : ∀ {l : List Ev} {p : Prop}, s.log ++ l = s.log ++ new → .pumped false ∉ l → p := fun h hl => absurd (cancel h) hl
  have slog : ∀ (s : St) x t, (s.setTr x t).log = s.log := fun s x t => by unfold St.setTr; split <;> rfl
  have hnil : ∀ {p : Prop}, s.log = s.log ++ new → p := fun h => no (l := []) (by rw [List.append_nil]; exact h) (by simp)
  have hfin : ∀ {p : Prop}, (finish s true).log = s.log ++ new → p := by
    intro p h
    unfold finish at h
    dsimp only at h
    split at h
    · exact no (l := [.pumped true]) h (by simp)
    · rw [if_pos rfl] at h
      split at h
      · exact no (l := [.pumped true, .raised .assertionError]) (by rw [← h]; simp [St.say]) (by simp)
      · exact no (l := [.pumped true, .pumping]) (by rw [← h]; simp [St.say, start]) (by simp)
  cases i with
  | act y a =>
    cases a with
    | write d => exact no (l := [.wrote y d]) (by rw [← hn]; simp [step, act, St.say, slog]) (by simp)
    | writeSequence l =>
      simp only [step, act] at hn
      split at hn
      · exact hnil hn
      · exact no (l := [_]) hn (by simp)
    | loseConnection => exact no (l := [.lose y]) (by rw [← hn]; simp [step, act, St.say, slog]) (by simp)
    | registerProducer b =>
      cases b
      · exact no (l := [.resumed y]) (by rw [← hn]; simp [step, act, St.say, slog]) (by simp)
      · exact hnil (by rw [← hn]; simp [step, act, slog])
    | unregisterProducer => exact hnil (by rw [← hn]; simp [step, act, slog])
    | stopConsuming => exact no (l := [.lose y]) (by rw [← hn]; simp [step, act, St.say, slog]) (by simp)
  | pump =>
    simp only [step] at hn
    split at hn
    · exact no (l := [_]) hn (by simp)
    · exact hnil hn
  | flush =>
    simp only [step] at hn
    split at hn
    · exact no (l := [_]) hn (by simp)
    · exact hnil hn
  | raise e =>
    simp only [step] at hn
    split at hn
    · exact hnil hn
    · exact no (l := [_]) hn (by simp)
  | go =>
    simp only [step] at hn
    unfold go checkProducer at hn
    split at hn
    · exact hnil hn
    · split at hn
      · exact no (l := [_]) hn (by simp)
      · exact hnil hn
    · split at hn
      · exact no (l := [_]) hn (by simp)
      · exact hnil hn
    · split at hn
      · exact no (l := [_]) hn (by simp)
      · dsimp only at hn
        split at hn
        · exact no (l := [_]) hn (by simp)
        · exact hnil hn
    · dsimp only at hn
      split at hn
      · exact no (l := [_]) hn (by simp)
      · exact hnil hn
    · split at hn
      · exact hfin hn
      · split at hn
        · exact no (l := [.lost false]) hn (by simp)
        · next h1 =>
          split at hn
          · exact no (l := [.lost true]) hn (by simp)
          · next h2 =>
            intro x hx
            cases x
            · have : s.client.disconnecting = true := hx
              simp only [this, Bool.true_and, Bool.not_eq_true', Bool.not_eq_false] at h2; exact h2
            · have : s.server.disconnecting = true := hx
              simp only [this, Bool.true_and, Bool.not_eq_true', Bool.not_eq_false] at h1; exact h1
    · exact hfin hn

/-- C103: in every execution, if one side has asked for the end of the connection, then by the time a round finds nothing more to
do, so that `flush` returns, both sides have been told. -/
theorem both_told (is : List Input) (i : Input) (new : List Ev) (hn : (step (exec {} is) i).log = (exec {} is).log ++ new)
    (hp : .pumped false ∈ new) (y : Side) (hl : .lose y ∈ (exec {} is).log) (x : Side) : .lost x ∈ (exec {} is).log := by
  have h := Conn.new.exec is
  generalize exec {} is = s at *
  have hq := pumped_false hn hp
  have h1 := hq y (h.lose y hl)
  have h2 := hq (!y) (h.link y h1).2
  have hd : (s.tr (!x)).disconnected = true := by
    cases x <;> cases y <;> assumption
  have := h.lost x
  rw [if_pos hd] at this
  exact List.count_pos_iff.1 (by omega)

/-! ## `flush` comes to an end -/

/-- The calls that remain until the round, or all the rounds of `flush`, are over. -/
def load (s : St) : Nat :=
  match s.pc with
  | .idle => 0
  | .clientProducer .. => 6 + 7 * (s.flush.elim 0 Prod.fst)
  | .serverProducer .. => 5 + 7 * (s.flush.elim 0 Prod.fst)
  | .toServer .. => 4 + 7 * (s.flush.elim 0 Prod.fst)
  | .toClient .. => 3 + 7 * (s.flush.elim 0 Prod.fst)
  | .decide .. => 2 + 7 * (s.flush.elim 0 Prod.fst)
  | .last => 1 + 7 * (s.flush.elim 0 Prod.fst)

theorem load_finish (s : St) (m : Bool) : load (finish s m) ≤ 7 * (s.flush.elim 0 Prod.fst) := by
  unfold finish
  dsimp only
  split
  · simp [load, St.say]
  · next n r hf =>
    have hf' : s.flush = some (n, r) := hf
    split
    · split
      · simp [load, St.say]
      · simp [load, St.say, start, hf']; omega
    · simp [load, St.say]

theorem load_go (s : St) (h : s.pc ≠ .idle) : load (go s) < load s := by
  unfold go checkProducer
  split
  · next hp => exact absurd hp h
  · next hp => split <;> simp [load, hp, St.say]
  · next hp => split <;> simp [load, hp, St.say]
  · next hp =>
    split
    · simp [load, hp, abort, St.say]; omega
    · dsimp only; split <;> simp [load, hp, St.say]
  · next hp => dsimp only; split <;> simp [load, hp, St.say]
  · next hp =>
    have hl : load s = 2 + 7 * (s.flush.elim 0 Prod.fst) := by unfold load; rw [hp]
    have hf : ∀ m, load (finish s m) < load s := fun m => by have := load_finish s m; omega
    have hd : ∀ y, load (disconnect s y) < load s := by
      intro y
      have : load (disconnect s y) = 1 + 7 * (s.flush.elim 0 Prod.fst) := by cases y <;> rfl
      omega
    split
    · exact hf _
    · split
      · exact hd _
      · split
        · exact hd _
        · exact hf _
  · next hp =>
    have hl : load s = 1 + 7 * (s.flush.elim 0 Prod.fst) := by unfold load; rw [hp]
    have := load_finish s true
    omega

theorem load_act (s : St) (x : Side) (a : Action) : load (act s x a) = load s := by
  cases a <;> cases x <;> (try rfl) <;> simp only [act] <;> split <;> rfl

/-- C103: whatever the protocols do in the meantime, `flush` returns or raises after at most 1000 rounds. -/
theorem flush_ends (before is : List Input) (hidle : (exec {} before).pc = .idle)
    (hi : ∀ i ∈ is, i = .go ∨ ∃ x a, i = .act x a) (hc : 7 * 1000 ≤ is.count .go) :
    ∃ pre, pre <+: is ∧ (exec (step (exec {} before) .flush) pre).pc = .idle := by
  have h0 : load (step (exec {} before) .flush) ≤ is.count .go := by
    have : step (exec {} before) .flush = start { exec {} before with flush := some (999, false) } := by
      simp only [step]; rw [if_pos hidle]
    rw [this]
    have : load (start { exec {} before with flush := some (999, false) }) = 6 + 7 * 999 := rfl
    omega
  generalize step (exec {} before) .flush = s at *
  clear hc hidle
  induction is generalizing s with
  | nil =>
    refine ⟨[], List.prefix_rfl, ?_⟩
    show s.pc = .idle
    by_cases h : s.pc = .idle
    · exact h
    · have := load_go s h
      simp at h0; omega
  | cons i is ih =>
    by_cases hs : s.pc = .idle
    · exact ⟨[], List.nil_prefix, hs⟩
    · obtain ⟨pre, h1, h2⟩ := ih (fun j hj => hi j (List.mem_cons_of_mem _ hj)) (step s i) (by
        rcases hi i List.mem_cons_self with rfl | ⟨x, a, rfl⟩
        · have := load_go s hs
          simp only [List.count_cons_self] at h0
          show load (go s) ≤ _
          omega
        · rw [List.count_cons_of_ne (by simp)] at h0
          show load (act s x a) ≤ _
          rw [load_act]; exact h0)
      exact ⟨i :: pre, List.cons_prefix_cons.2 ⟨rfl, h1⟩, h2⟩

/-- Where `flush` is: going on, having moved data or not; over; or given up. -/
def Telling (base : List Ev) (s : St) : Prop :=
  ∃ new, s.log = base ++ new ∧
    ((∃ n r, s.flush = some (n, r) ∧ (∀ r', .flushed r' ∉ new) ∧ (r = true ↔ .pumped true ∈ new)) ∨
     (∃ mid r post, new = mid ++ .flushed r :: post ∧ (∀ r', .flushed r' ∉ mid) ∧ (r = true ↔ .pumped true ∈ mid)) ∨
     (s.pc = .idle ∧ ∀ r', .flushed r' ∉ new))

theorem Telling.say {base : List Ev} {s t : St} (h : Telling base s) (ext : List Ev) (hl : t.log = s.log ++ ext)
    (hf : t.flush = s.flush) (h1 : ∀ r, .flushed r ∉ ext) (h2 : .pumped true ∉ ext) (h3 : s.pc = .idle → t.pc = .idle) :
    Telling base t := by
  obtain ⟨new, hn, h⟩ := h
  refine ⟨new ++ ext, by rw [hl, hn, List.append_assoc], ?_⟩
  rcases h with ⟨n, r, hfl, ha, hb⟩ | ⟨mid, r, post, rfl, ha, hb⟩ | ⟨hp, ha⟩
  · refine .inl ⟨n, r, by rw [hf, hfl], fun r' h' => ?_, by simp [hb, h2]⟩
    rcases List.mem_append.1 h' with h' | h'
    · exact ha r' h'
    · exact h1 r' h'
  · exact .inr (.inl ⟨mid, r, post ++ ext, by simp, ha, hb⟩)
  · refine .inr (.inr ⟨h3 hp, fun r' h' => ?_⟩)
    rcases List.mem_append.1 h' with h' | h'
    · exact ha r' h'
    · exact h1 r' h'

theorem Telling.finish {base : List Ev} {s : St} (h : Telling base s) (hp : s.pc ≠ .idle) (m : Bool) : Telling base (finish s m) := by
  obtain ⟨new, hn, h⟩ := h
  rcases h with ⟨n, r, hfl, ha, hb⟩ | ⟨mid, r, post, rfl, ha, hb⟩ | ⟨hp', ha⟩
  · unfold IOSim.finish
    simp only [St.say, hfl]
    cases m with
    | true =>
      simp only [if_true]
      cases n with
      | zero =>
        refine ⟨new ++ [.pumped true, .raised .assertionError], by simp [hn], .inr (.inr ⟨rfl, fun r' h' => ?_⟩)⟩
        simp at h'
        exact ha r' h'
      | succ n =>
        refine ⟨new ++ [.pumped true, .pumping], by simp [start, St.say, hn], .inl ⟨n, true, rfl, fun r' h' => ?_, by simp⟩⟩
        simp at h'
        exact ha r' h'
    | false =>
      refine ⟨new ++ [.pumped false, .flushed r], by simp [hn], .inr (.inl ⟨new ++ [.pumped false], r, [], by simp, fun r' h' => ?_, ?_⟩)⟩
      · simp at h'
        exact ha r' h'
      · simp [hb]
  · obtain ⟨ext, hx⟩ : ∃ ext, (IOSim.finish s m).log = s.log ++ ext := by
      unfold IOSim.finish
      simp only [St.say]
      split
      · exact ⟨[.pumped m], rfl⟩
      · split
        · split
          · exact ⟨[.pumped m, .raised .assertionError], by simp⟩
          · exact ⟨[.pumped m, .pumping], by simp [start, St.say]⟩
        · exact ⟨_, by rw [List.append_assoc]⟩
    exact ⟨mid ++ .flushed r :: (post ++ ext), by rw [hx, hn]; simp, .inr (.inl ⟨mid, r, post ++ ext, rfl, ha, hb⟩)⟩
  · exact absurd hp' hp

theorem Telling.go {base : List Ev} {s : St} (h : Telling base s) (hd : s.debug = false) : Telling base (go s) := by
  unfold IOSim.go
  have hq : ∀ (e : Ev) (pc : Pc), s.pc ≠ .idle → (∀ r, e ≠ .flushed r) → e ≠ .pumped true →
      Telling base { s with pc := pc, log := s.log ++ [e] } := fun e pc hp h1 h2 =>
    h.say [e] rfl rfl (fun r hr => h1 r (List.mem_singleton.1 hr).symm) (fun hr => h2 (List.mem_singleton.1 hr).symm)
      fun h' => absurd h' hp
  have hn : ∀ pc : Pc, s.pc ≠ .idle → Telling base { s with pc := pc } := fun pc hp =>
    h.say [] (by simp) rfl (by simp) (by simp) fun h' => absurd h' hp
  split
  · exact h
  · next hpc =>
    have hp : s.pc ≠ .idle := by rw [hpc]; simp
    unfold checkProducer
    split
    · exact hq _ _ hp (by simp) (by simp)
    · exact hn _ hp
  · next hpc =>
    have hp : s.pc ≠ .idle := by rw [hpc]; simp
    unfold checkProducer
    split
    · exact hq _ _ hp (by simp) (by simp)
    · exact hn _ hp
  · next hpc =>
    have hp : s.pc ≠ .idle := by rw [hpc]; simp
    rw [hd, Bool.false_and, if_neg (by simp)]
    dsimp only
    split
    · exact hq _ _ hp (by simp) (by simp)
    · exact hn _ hp
  · next hpc =>
    have hp : s.pc ≠ .idle := by rw [hpc]; simp
    dsimp only
    split
    · exact hq _ _ hp (by simp) (by simp)
    · exact hn _ hp
  · next hpc =>
    have hp : s.pc ≠ .idle := by rw [hpc]; simp
    have hdis : ∀ x, Telling base (disconnect s x) := fun x =>
      h.say [.lost (!x)] (by cases x <;> rfl) (by cases x <;> rfl) (by simp) (by simp) fun h' => absurd h' hp
    split
    · exact h.finish hp _
    · split
      · exact hdis _
      · split
        · exact hdis _
        · exact h.finish hp _
  · next hpc => exact h.finish (by rw [hpc]; simp) _

theorem Telling.act {base : List Ev} {s : St} (h : Telling base s) (x : Side) (a : Action) : Telling base (act s x a) := by
  have hx : ∀ (t : Tr) (ext : List Ev), (∀ r, .flushed r ∉ ext) → .pumped true ∉ ext →
      Telling base { s.setTr x t with log := s.log ++ ext } := fun t ext h1 h2 =>
    h.say ext rfl (by cases x <;> rfl) h1 h2 fun h' => by cases x <;> exact h'
  have h0 : ∀ t : Tr, Telling base (s.setTr x t) := fun t =>
    h.say [] (by cases x <;> simp [St.setTr]) (by cases x <;> rfl) (by simp) (by simp) fun h' => by cases x <;> exact h'
  have hlog : ∀ (t : Tr) (e : Ev), (s.setTr x t).say e = { s.setTr x t with log := s.log ++ [e] } := by
    intro t e; cases x <;> rfl
  cases a with
  | write d => simp only [IOSim.act, hlog]; exact hx _ _ (by simp) (by simp)
  | writeSequence l =>
    simp only [IOSim.act]
    split
    · exact h
    · exact h.say [.raised .typeError] rfl rfl (by simp) (by simp) fun h' => h'
  | loseConnection => simp only [IOSim.act, hlog]; exact hx _ _ (by simp) (by simp)
  | registerProducer streaming =>
    simp only [IOSim.act]
    split
    · exact h0 _
    · rw [hlog]; exact hx _ _ (by simp) (by simp)
  | unregisterProducer => exact h0 _
  | stopConsuming => simp only [IOSim.act, hlog]; exact hx _ _ (by simp) (by simp)

/-- C103: what `flush` returns tells whether any round moved anything. -/
theorem flush_tells (before is : List Input) (hidle : (exec {} before).pc = .idle) (hi : ∀ i ∈ is, i = .go ∨ ∃ x a, i = .act x a)
    (mid post : List Ev) (r : Bool) (hm : ∀ r', .flushed r' ∉ mid)
    (h : (exec (step (exec {} before) .flush) is).log = (exec {} before).log ++ mid ++ .flushed r :: post) :
    r = true ↔ .pumped true ∈ mid := by
  have hdb : ∀ (is : List Input) (s : St), (exec s is).debug = s.debug := by
    intro is
    induction is with
    | nil => exact fun _ => rfl
    | cons i is ih => exact fun s => (ih _).trans (debug_step s i)
  have key : ∀ (is : List Input), (∀ i ∈ is, i = .go ∨ ∃ x a, i = .act x a) → ∀ s : St, s.debug = false →
      Telling (exec {} before).log s → Telling (exec {} before).log (exec s is) := by
    intro is
    induction is with
    | nil => exact fun _ s _ h => h
    | cons i is ih =>
      intro hi s hd h
      refine ih (fun j hj => hi j (by simp [hj])) _ (by rw [debug_step, hd]) ?_
      rcases hi i (by simp) with rfl | ⟨x, a, rfl⟩
      · exact h.go hd
      · exact h.act x a
  have hstart : step (exec {} before) .flush = start { exec {} before with flush := some (999, false) } := by
    simp only [step]; rw [if_pos hidle]
  obtain ⟨new, hn, hc⟩ := key is hi (step (exec {} before) .flush) (by rw [debug_step, hdb])
    ⟨[.pumping], by rw [hstart]; rfl, .inl ⟨999, false, by rw [hstart]; rfl, by simp, by simp⟩⟩
  rw [h, List.append_assoc] at hn
  have hnew := List.append_cancel_left hn
  rcases hc with ⟨n, r', -, ha, -⟩ | ⟨mid', r', post', rfl, ha, hb⟩ | ⟨-, ha⟩
  · exact absurd (hnew ▸ by simp) (ha r)
  · have : mid = mid' ∧ r = r' := by
      clear h hn hb
      induction mid generalizing mid' with
      | nil =>
        cases mid' with
        | nil => simp at hnew; exact ⟨rfl, hnew.1⟩
        | cons e mid' =>
          simp at hnew
          exact absurd (by rw [← hnew.1]; simp) (ha r)
      | cons e mid ih =>
        cases mid' with
        | nil =>
          simp at hnew
          exact absurd (by rw [hnew.1]; simp) (hm r')
        | cons e' mid' =>
          simp only [List.cons_append, List.cons.injEq] at hnew
          obtain ⟨h1, h2⟩ := ih (fun r' h' => hm r' (by simp [h'])) mid' hnew.2 (fun r' h' => ha r' (by simp [h']))
          exact ⟨by rw [hnew.1, h1], h2⟩
    rw [this.1, this.2]
    exact hb
  · exact absurd (hnew ▸ by simp) (ha r)

/-! ## What goes wrong -/

/-- One round without producers, with what the protocols do when they get data. -/
def round (server client : List Input) : List Input := [.go, .go, .go] ++ server ++ [.go] ++ client ++ [.go]

/-- C103 fails, first: data that is written after the end of the connection is delivered, to a side that has been told of it. -/
theorem data_after_lost_fails :
    (exec {} ([.act true .loseConnection, .pump] ++ round [] [] ++ [.go, .act true (.write [97]), .pump] ++ round [] [])).log =
    [.lose true, .pumping, .lost false, .pumped true, .wrote true [97], .pumping, .received false [97], .pumped true] := by
  decide +kernel

/-- C103 fails, second: so is the data of a producer, if it writes when it is resumed, even though the connection ought to be closed
only after that data. -/
theorem producer_after_lost_fails :
    (exec {} ([.act true (.registerProducer true), .act true .loseConnection, .pump, .go, .go, .act true (.write [97]), .go, .go, .go,
      .go, .pump] ++ round [] [])).log =
    [.lose true, .pumping, .resumed true, .wrote true [97], .lost false, .pumped true, .pumping, .resumed true,
     .received false [97], .pumped true] := by decide +kernel

/-- C103 fails, third: if the server raises on what it is given, what it has written before is lost. -/
theorem raise_fails :
    let s := exec {} ([.act true (.write [97]), .act false (.write [98]), .pump, .go, .go, .go, .raise .valueError, .pump] ++ round [] [])
    s.log.getLast? = some (.pumped false) ∧ written true s.log = [97] ∧ received false s.log = [] := by decide +kernel

/-- C103 fails, fourth: with `debug` any data raises `TypeError` and is lost. -/
theorem debug_fails (s : St) (sd cd : Bytes) (hd : s.debug = true) (hpc : s.pc = .toServer sd cd) (h : sd ≠ [] ∨ cd ≠ []) :
    (go s).log = s.log ++ [.raised .typeError] ∧ (go s).pc = .idle := by
  have : (s.debug && (decide (cd ≠ []) || decide (sd ≠ []))) = true := by
    rw [hd]; simp; exact h.symm
  simp only [go, hpc, this, if_true]
  exact ⟨rfl, rfl⟩

/-- C103 fails, fifth: `writeSequence` writes nothing, whatever it is given. -/
theorem writeSequence_fails (s : St) (x : Side) (l : List Bytes) :
    ((act s x (.writeSequence l)).tr x).file = (s.tr x).file ∧
    (l ≠ [] → (act s x (.writeSequence l)).log = s.log ++ [.raised .typeError]) := by
  simp only [act]
  split
  · next h => exact ⟨rfl, fun hn => absurd h hn⟩
  · exact ⟨rfl, fun _ => rfl⟩

theorem chatter_round (n : Nat) (r : Bool) (s : St) (h1 : s.pc = .clientProducer [1] []) (h2 : s.flush = some (n + 1, r))
    (h3 : s.client = {}) (h4 : s.server = {}) (h5 : s.debug = false) :
    let t := exec s (round [] [.act true (.write [1])])
    t.pc = .clientProducer [1] [] ∧ t.flush = some (n, true) ∧ t.client = {} ∧ t.server = {} ∧ t.debug = false := by
  obtain ⟨c, sv, pc, fl, db, lg⟩ := s
  cases h1; cases h2; cases h3; cases h4; cases h5
  simp [exec, round, step, go, checkProducer, St.tr, St.say, act, St.setTr, finish, start]

/-- C103, `flush`: a conversation that does not end makes it raise an `AssertionError`, after 1000 rounds. -/
theorem too_long :
    (exec {} (.act true (.write [1]) :: .flush :: (List.replicate 1000 (round [] [.act true (.write [1])])).flatten)).log.getLast? =
      some (.raised .assertionError) := by
  have key : ∀ (n : Nat) (r : Bool) (s : St), s.pc = .clientProducer [1] [] → s.flush = some (n, r) → s.client = {} → s.server = {} →
      s.debug = false →
      (exec s (List.replicate (n + 1) (round [] [.act true (.write [1])])).flatten).log.getLast? = some (.raised .assertionError) := by
    intro n
    induction n with
    | zero =>
      intro r s h1 h2 h3 h4 h5
      obtain ⟨c, sv, pc, fl, db, lg⟩ := s
      cases h1; cases h2; cases h3; cases h4; cases h5
      simp [exec, round, step, go, checkProducer, St.tr, St.say, act, St.setTr, finish]
    | succ n ih =>
      intro r s h1 h2 h3 h4 h5
      obtain ⟨g1, g2, g3, g4, g5⟩ := chatter_round n r s h1 h2 h3 h4 h5
      have := ih true _ g1 g2 g3 g4 g5
      rw [List.replicate_succ, List.flatten_cons]
      unfold exec at this ⊢
      rw [List.foldl_append]
      exact this
  have hcons : ∀ (s : St) (i : Input) (is : List Input), exec s (i :: is) = exec (step s i) is := fun _ _ _ => rfl
  rw [hcons, hcons, show (1000 : Nat) = 999 + 1 from rfl]
  exact key 999 false _ rfl rfl rfl rfl rfl

/-! ## Cases -/

/-- A dialogue: the client asks, the server answers and closes. -/
def dialogue : List Input :=
  [.act false (.write [97]), .act false (.write [98]), .flush] ++
    round [.act true (.write [99]), .act true .loseConnection] [] ++ round [] [] ++ round [] [] ++ [.go] ++ round [] [] ++ [.go] ++
    round [] []

example : Calm dialogue ∧ (exec {} dialogue).log =
    [.wrote false [97], .wrote false [98], .pumping, .received true [97, 98], .wrote true [99], .lose true, .pumped true,
     .pumping, .received false [99], .pumped true, .pumping, .lost false, .pumped true, .pumping, .lost true, .pumped true,
     .pumping, .pumped false, .flushed true] := by
  refine ⟨fun e he => ?_, by decide +kernel⟩
  simp [dialogue, round] at he

example : (exec {} (dialogue.take 12)).pc ≠ .idle ∧ load (exec {} (dialogue.take 12)) = 6990 := by decide +kernel

/-! ## Producers -/

/-- Has `x` a producer after these inputs? -/
def registered (x : Side) : List Input → Bool := List.foldl (fun r i => match i with
  | .act y (.registerProducer _) => if y = x then true else r
  | .act y .unregisterProducer => if y = x then false else r
  | .act y .stopConsuming => if y = x then false else r
  | _ => r) false

/-- It is the turn of the producer of `x` in `pump`. -/
def Turn (x : Side) : Pc → Prop
  | .clientProducer _ _ => x = false
  | .serverProducer _ _ => x = true
  | _ => False

theorem tr_finish (s : St) (m : Bool) (x : Side) : ((finish s m).tr x).producer = (s.tr x).producer := by
  unfold finish
  dsimp only
  split
  · cases x <;> rfl
  · split
    · split <;> cases x <;> rfl
    · cases x <;> rfl

theorem producer_step (s : St) (i : Input) (x : Side) : ((step s i).tr x).producer =
    match i with
    | .act y (.registerProducer _) => if y = x then true else (s.tr x).producer
    | .act y .unregisterProducer => if y = x then false else (s.tr x).producer
    | .act y .stopConsuming => if y = x then false else (s.tr x).producer
    | _ => (s.tr x).producer := by
  cases i with
  | act y a =>
    cases a with
    | writeSequence l => simp only [step, act]; split <;> cases x <;> rfl
    | registerProducer b => cases b <;> cases x <;> cases y <;> rfl
    | _ => cases x <;> cases y <;> rfl
  | pump => simp only [step]; split <;> cases x <;> rfl
  | flush => simp only [step]; split <;> cases x <;> rfl
  | raise e => simp only [step]; split <;> cases x <;> rfl
  | go =>
    simp only [step, go]
    split
    · rfl
    · unfold checkProducer; split <;> cases x <;> rfl
    · unfold checkProducer; split <;> cases x <;> rfl
    · split
      · cases x <;> rfl
      · split <;> cases x <;> rfl
    · split <;> cases x <;> rfl
    · split
      · exact tr_finish s true x
      · split
        · cases x <;> rfl
        · split
          · cases x <;> rfl
          · exact tr_finish s false x
    · exact tr_finish s true x

theorem producer_exec (is : List Input) (x : Side) : ((exec {} is).tr x).producer = registered x is := by
  suffices ∀ s : St, ∀ b, (s.tr x).producer = b → ((exec s is).tr x).producer = is.foldl (fun r i => match i with
      | .act y (.registerProducer _) => if y = x then true else r
      | .act y .unregisterProducer => if y = x then false else r
      | .act y .stopConsuming => if y = x then false else r
      | _ => r) b from this {} false (by cases x <;> rfl)
  induction is with
  | nil => exact fun s b h => h
  | cons i is ih =>
    intro s b h
    refine ih (step s i) _ ?_
    rw [producer_step, h]

/-- No `resumed` among these. -/
theorem resumed_finish (s : St) (m : Bool) : ∃ new, (finish s m).log = s.log ++ new ∧ ∀ x, .resumed x ∉ new := by
  unfold finish
  dsimp only
  split
  · exact ⟨[.pumped m], rfl, by simp⟩
  · split
    · split
      · exact ⟨[.pumped m, .raised .assertionError], by simp [St.say], by simp⟩
      · exact ⟨[.pumped m, .pumping], by simp [St.say, start], by simp⟩
    · rename_i r _ _
      exact ⟨[.pumped m, .flushed r], by simp [St.say], by simp⟩

/-- **C103**: a producer is asked for data when it is registered, if it is not a streaming one, and whenever it is its turn in `pump`
while it is registered; at no other time. -/
theorem resumed_exact (is : List Input) (i : Input) : ∃ new, (exec {} (is ++ [i])).log = (exec {} is).log ++ new ∧
    ∀ x, .resumed x ∈ new ↔ i = .act x (.registerProducer false) ∨
      i = .go ∧ Turn x (exec {} is).pc ∧ registered x is = true := by
  have h0 : exec {} (is ++ [i]) = step (exec {} is) i := by simp [exec, List.foldl_append]
  have hp := producer_exec is
  rw [h0]
  generalize exec {} is = s at hp
  have none : ∀ new, (∀ x, .resumed x ∉ new) → (∀ x, ¬ (i = .act x (.registerProducer false) ∨
      i = .go ∧ Turn x s.pc ∧ registered x is = true)) → (step s i).log = s.log ++ new →
      ∃ new, (step s i).log = s.log ++ new ∧ ∀ x, .resumed x ∈ new ↔ i = .act x (.registerProducer false) ∨
        i = .go ∧ Turn x s.pc ∧ registered x is = true :=
    fun new h1 h2 h3 => ⟨new, h3, fun x => ⟨fun h => absurd h (h1 x), fun h => absurd h (h2 x)⟩⟩
  cases i with
  | act y a =>
    cases a with
    | write d => exact none [.wrote y d] (by simp) (by simp) (by cases y <;> rfl)
    | writeSequence l =>
      by_cases hl : l = []
      · exact none [] (by simp) (by simp) (by simp [step, act, hl])
      · exact none [.raised .typeError] (by simp) (by simp) (by simp [step, act, hl, St.say])
    | loseConnection => exact none [.lose y] (by simp) (by simp) (by cases y <;> rfl)
    | registerProducer b =>
      cases b with
      | true => exact none [] (by simp) (by simp) (by cases y <;> simp [step, act, St.setTr])
      | false => exact ⟨[.resumed y], by cases y <;> rfl, fun x => by cases x <;> cases y <;> simp⟩
    | unregisterProducer => exact none [] (by simp) (by simp) (by cases y <;> simp [step, act, St.setTr])
    | stopConsuming => exact none [.lose y] (by simp) (by simp) (by cases y <;> rfl)
  | pump =>
    by_cases h : s.pc = .idle
    · exact none [.pumping] (by simp) (by simp) (by simp [step, h, start, St.say])
    · exact none [] (by simp) (by simp) (by simp [step, h])
  | flush =>
    by_cases h : s.pc = .idle
    · exact none [.pumping] (by simp) (by simp) (by simp [step, h, start, St.say])
    · exact none [] (by simp) (by simp) (by simp [step, h])
  | raise e =>
    by_cases h : s.pc = .idle
    · exact none [] (by simp) (by simp) (by simp [step, h])
    · exact none [.raised e] (by simp) (by simp) (by simp [step, h, abort, St.say])
  | go =>
    cases hpc : s.pc with
    | idle => rw [← hpc]; exact none [] (by simp) (by simp [hpc, Turn]) (by simp [step, go, hpc])
    | clientProducer a b =>
      have e : (step s .go).log = s.log ++ if registered false is = true then [.resumed false] else [] := by
        rw [← hp false]
        simp only [step, go, hpc, checkProducer]
        have : (St.tr { s with pc := .serverProducer a b } false).producer = (s.tr false).producer := rfl
        rw [this]
        split <;> simp [St.say]
      refine ⟨_, e, fun x => ?_⟩
      cases x <;> simp [Turn] <;> split <;> simp_all
    | serverProducer a b =>
      have e : (step s .go).log = s.log ++ if registered true is = true then [.resumed true] else [] := by
        rw [← hp true]
        simp only [step, go, hpc, checkProducer]
        have : (St.tr { s with pc := .toServer a b } true).producer = (s.tr true).producer := rfl
        rw [this]
        split <;> simp [St.say]
      refine ⟨_, e, fun x => ?_⟩
      cases x <;> simp [Turn] <;> split <;> simp_all
    | toServer a b =>
      rw [← hpc]
      by_cases hd : (s.debug && (b ≠ [] || a ≠ [])) = true
      · exact none [.raised .typeError] (by simp) (by simp [hpc, Turn]) (by simp only [step, go, hpc]; rw [if_pos hd]; rfl)
      · by_cases hb : b = []
        · exact none [] (by simp) (by simp [hpc, Turn]) (by simp only [step, go, hpc]; rw [if_neg hd]; simp [hb])
        · exact none [.received true b] (by simp) (by simp [hpc, Turn])
            (by simp only [step, go, hpc]; rw [if_neg hd]; simp [hb, St.say])
    | toClient a b =>
      rw [← hpc]
      by_cases ha : a = []
      · exact none [] (by simp) (by simp [hpc, Turn]) (by simp [step, go, hpc, ha])
      · exact none [.received false a] (by simp) (by simp [hpc, Turn]) (by simp [step, go, hpc, ha, St.say])
    | decide a b =>
      rw [← hpc]
      by_cases h1 : (b ≠ [] || a ≠ []) = true
      · obtain ⟨new, h2, h3⟩ := resumed_finish s true
        exact none new h3 (by simp [hpc, Turn]) (by simp only [step, go, hpc]; rw [if_pos h1]; exact h2)
      · by_cases h4 : (s.server.disconnecting && !s.server.disconnected) = true
        · exact none [.lost false] (by simp) (by simp [hpc, Turn])
            (by simp only [step, go, hpc]; rw [if_neg h1, if_pos h4]; rfl)
        · by_cases h5 : (s.client.disconnecting && !s.client.disconnected) = true
          · exact none [.lost true] (by simp) (by simp [hpc, Turn])
              (by simp only [step, go, hpc]; rw [if_neg h1, if_neg h4, if_pos h5]; rfl)
          · obtain ⟨new, h2, h3⟩ := resumed_finish s false
            exact none new h3 (by simp [hpc, Turn]) (by simp only [step, go, hpc]; rw [if_neg h1, if_neg h4, if_neg h5]; exact h2)
    | last =>
      rw [← hpc]
      obtain ⟨new, h2, h3⟩ := resumed_finish s true
      exact none new h3 (by simp [hpc, Turn]) (by simp only [step, go, hpc]; exact h2)

/-! ## Exceptions -/

theorem flush_none {s : St} (h : s.flush = none) (i : Input) (hi : i ≠ .flush) :
    (step s i).flush = none ∧ ∃ new, (step s i).log = s.log ++ new ∧ ∀ b, .flushed b ∉ new := by
  have hf : ∀ m, (finish s m).flush = none ∧ ∃ new, (finish s m).log = s.log ++ new ∧ ∀ b, .flushed b ∉ new := by
    intro m
    have : finish s m = St.say { s with pc := .idle } (.pumped m) := by simp [finish, St.say, h]
    rw [this]
    exact ⟨h, [.pumped m], rfl, by simp⟩
  cases i with
  | flush => exact absurd rfl hi
  | act y a =>
    cases a with
    | write d => exact ⟨by cases y <;> exact h, [.wrote y d], by cases y <;> rfl, by simp⟩
    | writeSequence l =>
      simp only [step, act]
      split
      · exact ⟨h, [], by simp, by simp⟩
      · exact ⟨h, [_], rfl, by simp⟩
    | loseConnection => exact ⟨by cases y <;> exact h, [.lose y], by cases y <;> rfl, by simp⟩
    | registerProducer b =>
      cases b with
      | true => exact ⟨by cases y <;> exact h, [], by cases y <;> simp [step, act, St.setTr], by simp⟩
      | false => exact ⟨by cases y <;> exact h, [.resumed y], by cases y <;> rfl, by simp⟩
    | unregisterProducer => exact ⟨by cases y <;> exact h, [], by cases y <;> simp [step, act, St.setTr], by simp⟩
    | stopConsuming => exact ⟨by cases y <;> exact h, [.lose y], by cases y <;> rfl, by simp⟩
  | pump =>
    simp only [step]
    split
    · exact ⟨h, [.pumping], rfl, by simp⟩
    · exact ⟨h, [], by simp, by simp⟩
  | raise e =>
    simp only [step]
    split
    · exact ⟨h, [], by simp, by simp⟩
    · exact ⟨rfl, [.raised e], rfl, by simp⟩
  | go =>
    simp only [step, go]
    split
    · exact ⟨h, [], by simp, by simp⟩
    · unfold checkProducer
      split
      · exact ⟨h, [_], rfl, by simp⟩
      · exact ⟨h, [], by simp, by simp⟩
    · unfold checkProducer
      split
      · exact ⟨h, [_], rfl, by simp⟩
      · exact ⟨h, [], by simp, by simp⟩
    · split
      · exact ⟨rfl, [_], rfl, by simp⟩
      · split
        · exact ⟨h, [_], rfl, by simp⟩
        · exact ⟨h, [], by simp, by simp⟩
    · split
      · exact ⟨h, [_], rfl, by simp⟩
      · exact ⟨h, [], by simp, by simp⟩
    · split
      · exact hf true
      · split
        · exact ⟨h, [.lost false], rfl, by simp⟩
        · split
          · exact ⟨h, [.lost true], rfl, by simp⟩
          · exact hf false
    · exact hf true

/-- **C103**: an exception that comes out of a round ends the `flush` that made it; later rounds do not return from it. -/
theorem exception_ends_flush (s : St) (i : Input) (hs : s.pc ≠ .idle) (hi : (step s i).pc = .idle) (e : PyErr)
    (he : (step s i).log.getLast? = some (.raised e)) (is : List Input) (hf : .flush ∉ is) :
    ∃ new, (exec (step s i) is).log = (step s i).log ++ new ∧ ∀ b, .flushed b ∉ new := by
  have h0 : (step s i).flush = none := by
    cases i with
    | act y a =>
      exfalso
      apply hs
      rw [← hi]
      cases a with
      | writeSequence l => simp only [step, act]; split <;> rfl
      | registerProducer b => cases b <;> cases y <;> rfl
      | _ => cases y <;> rfl
    | pump => exact absurd (by simpa [step, hs] using hi) hs
    | flush => exact absurd (by simpa [step, hs] using hi) hs
    | raise e => simp [step, hs, abort, St.say]
    | go =>
      have hfin : ∀ m, (finish s m).log.getLast? = some (.raised e) → (finish s m).flush = none := by
        intro m
        unfold finish
        dsimp only
        split
        · simp [St.say]
        · split
          · split
            · simp [St.say]
            · simp [St.say, start]
          · simp [St.say]
      revert hi he
      simp only [step, go]
      split
      · rename_i h; exact absurd h hs
      · unfold checkProducer; split <;> simp [St.say]
      · unfold checkProducer; split <;> simp [St.say]
      · split
        · simp [abort, St.say]
        · split <;> simp [St.say]
      · split <;> simp [St.say]
      · split
        · exact fun _ => hfin true
        · split
          · simp [disconnect, St.say]
          · split
            · simp [disconnect, St.say]
            · exact fun _ => hfin false
      · exact fun _ => hfin true
  generalize step s i = t at h0
  clear hi he
  induction is generalizing t with
  | nil => exact ⟨[], by simp [exec], by simp⟩
  | cons j is ih =>
    obtain ⟨h1, new, h2, h3⟩ := flush_none h0 j fun e => hf (e ▸ List.mem_cons_self)
    obtain ⟨new', h4, h5⟩ := ih (fun h => hf (List.mem_cons_of_mem _ h)) (step t j) h1
    refine ⟨new ++ new', ?_, fun b hb => ?_⟩
    · change (exec (step t j) is).log = _
      rw [h4, h2, List.append_assoc]
    · rcases List.mem_append.1 hb with hb | hb
      · exact h3 b hb
      · exact h5 b hb

/-- A producer is asked in every round until it is done; an exception ends the `flush`. -/
example : (exec {} [.act false (.registerProducer true), .flush, .go, .act false .stopConsuming, .raise .valueError, .pump, .go]).log =
    [.pumping, .resumed false, .lose false, .raised .valueError, .pumping] := by decide

end Verif.IOSim
