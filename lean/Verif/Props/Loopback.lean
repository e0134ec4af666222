import Verif.Model.Loopback
/-!
# C99: the asynchronous loopback

The specification reads the log: what a side wrote (empty chunks do not count, the stream does not show them), what a side
received, and the order of events.
-/
namespace Verif.Loopback

/-- The chunks that a side wrote. -/
def writtenBy (w : Side) (log : List Ev) : List (List Nat) :=
  log.filterMap fun | .wrote s (c :: d) => if s = w then some (c :: d) else none | _ => none

/-- The chunks that a side received. -/
def receivedBy (w : Side) (log : List Ev) : List (List Nat) :=
  log.filterMap fun | .recv s d => if s = w then some d else none | _ => none

/-- The protocol code on the stack. -/
def running (stack : List Frame) : List Side :=
  stack.filterMap fun | .app w _ => some w | .body _ _ => none

/-- The chunks among what waits. -/
def waiting (items : List (Option (List Nat))) : List (List Nat) :=
  items.filterMap fun | some (c :: d) => some (c :: d) | _ => none

/-- The connection ended properly: some side asked for it, and all that it had written had been received; then nothing more was
received, and each side was told. -/
def Ended (log : List Ev) : Prop :=
  ∃ pre post, log = pre ++ .lost .server :: post ∧ (∀ w, .lost w ∉ pre) ∧ .lost .server ∉ post ∧ (∀ w d, .recv w d ∉ post) ∧
    ∃ v, .closing v ∈ pre ∧ writtenBy v pre = receivedBy v.other pre

/-- What holds at all times. -/
structure Base (s : St) : Prop where
  fifo : ∀ w, writtenBy w s.log = receivedBy w.other s.log ++ waiting (s.q w).items
  once : .alreadyCalled ∉ s.log
  closing : ∀ w, .closing w ∈ s.log ↔ (s.q w).disconnect = true
  fired : ∀ d ∈ s.fired, d < s.next

/-- No Deferred is set. -/
def Quiet (s : St) : Prop := ∀ w, (s.q w).notification = none

/-- Each side that wants to disconnect still has its `None` in the queue. -/
def Flagged (s : St) : Prop := ∀ w, (s.q w).disconnect = true → none ∈ (s.q w).items

def Open (log : List Ev) : Prop := ∀ w, .lost w ∉ log

/-- What holds when the body is on the stack. -/
def AtPc (a : Option (Side × List Act)) (sent : Bool) (s : St) : Pc → Prop
  | .connect _ => Open s.log ∧ Flagged s ∧ sent = false
  | .pump .server => Open s.log ∧ (sent = false → Flagged s)
  | .pump .client => Open s.log ∧ (sent = false → a = none ∧ Flagged s ∧ (s.q .server).items = [])
  | .test => Open s.log ∧ a = none ∧ (sent = false → Flagged s ∧ (s.q .server).items = [] ∧ (s.q .client).items = [])
  | .flush w => Open s.log ∧ .closing w ∈ s.log
  | .lost .server => Open s.log ∧ a = none ∧ ∃ v, .closing v ∈ s.log ∧ (s.q v).items = []
  | .lost .client => Ended s.log ∧ .lost .client ∉ s.log
  | .done => Ended s.log ∧ s.log.count (.lost .client) = 1

/-- What holds when it is not. -/
def Away (s : St) : Prop :=
  (Ended s.log ∧ s.log.count (.lost .client) = 1 ∧ s.scheduled = 0 ∧ Quiet s) ∨
  (Open s.log ∧ s.scheduled = 1 ∧ Quiet s ∧ Flagged s) ∨
  (Open s.log ∧ s.scheduled = 0 ∧ ∃ d, d < s.next ∧ d ∉ s.fired ∧
    ∀ w, (s.q w).notification = some d ∧ (s.q w).items = [] ∧ (s.q w).disconnect = false)

def frames (a : Option (Side × List Act)) (b : Option (Pc × Bool)) : List Frame :=
  (match a with | none => [] | some p => [.app p.1 p.2]) ++ (match b with | none => [] | some p => [.body p.1 p.2])

/-- The invariant. -/
def Inv (s : St) : Prop :=
  Base s ∧ ∃ a b, s.stack = frames a b ∧
    match b with
    | none => Away s
    | some (pc, sent) => s.scheduled = 0 ∧ Quiet s ∧ AtPc a sent s pc

theorem writtenBy_append (w : Side) (a b : List Ev) : writtenBy w (a ++ b) = writtenBy w a ++ writtenBy w b := by
  simp [writtenBy]

theorem receivedBy_append (w : Side) (a b : List Ev) : receivedBy w (a ++ b) = receivedBy w a ++ receivedBy w b := by
  simp [receivedBy]

theorem waiting_append (a b : List (Option (List Nat))) : waiting (a ++ b) = waiting a ++ waiting b := by
  simp [waiting]

theorem other_other (w : Side) : w.other.other = w := by cases w <;> rfl

/-- Appending what is neither received nor lost keeps the ending. -/
theorem Ended.append {log : List Ev} (h : Ended log) {e : Ev} (h1 : e ≠ .lost .server) (h2 : ∀ w d, e ≠ .recv w d) :
    Ended (log ++ [e]) := by
  obtain ⟨pre, post, rfl, a, b, c, d⟩ := h
  refine ⟨pre, post ++ [e], by simp, a, ?_, ?_, d⟩
  · simp only [List.mem_append, List.mem_singleton, not_or]; exact ⟨b, fun h => h1 h.symm⟩
  · intro w x
    simp only [List.mem_append, List.mem_singleton, not_or]; exact ⟨c w x, fun h => h2 w x h.symm⟩

theorem Ended.lost {log : List Ev} (h : Ended log) : .lost .server ∈ log := by
  obtain ⟨pre, post, rfl, _⟩ := h; simp

/-- What an action is for the log, and what it puts in the queue. -/
def event (w : Side) : Act → Ev
  | .write d => .wrote w d
  | .lose => .closing w

def item : Act → Option (List Nat)
  | .write d => some d
  | .lose => none

/-- The state after an action of the protocol code. -/
structure Performed (w : Side) (a : Act) (s s' : St) : Prop where
  stack : s'.stack = s.stack
  log : s'.log = s.log ++ [event w a]
  quiet : Quiet s'
  items : ∀ x, (s'.q x).items = if x = w then (s.q x).items ++ [item a] else (s.q x).items
  disconnect : ∀ x, (s'.q x).disconnect = ((s.q x).disconnect || (decide (x = w) && decide (a = .lose)))
  fired : ∀ d ∈ s'.fired, d ∈ s.fired ∨ (s.q w).notification = some d
  next : s'.next = s.next
  scheduled : s'.scheduled = s.scheduled + (if (s.q w).notification = none then 0 else 1)

theorem put_spec {s : St} (w : Side) (v : Option (List Nat))
    (h : Quiet s ∨ ∃ d, d ∉ s.fired ∧ ∀ x, (s.q x).notification = some d) :
    (put w v s).stack = s.stack ∧ (put w v s).log = s.log ∧ Quiet (put w v s) ∧
    (∀ x, ((put w v s).q x).items = if x = w then (s.q x).items ++ [v] else (s.q x).items) ∧
    (∀ x, ((put w v s).q x).disconnect = (s.q x).disconnect) ∧
    (∀ d ∈ (put w v s).fired, d ∈ s.fired ∨ (s.q w).notification = some d) ∧ (put w v s).next = s.next ∧
    (put w v s).scheduled = s.scheduled + (if (s.q w).notification = none then 0 else 1) := by
  unfold put
  rcases h with h | ⟨d, hd, h⟩
  · simp only [h w]
    refine ⟨rfl, rfl, ?_, ?_, ?_, fun d hd => .inl hd, rfl, rfl⟩
    · intro x
      simp only [St.setQ]
      split
      · rfl
      · exact h x
    · intro x
      simp only [St.setQ]
      split
      · rename_i e; rw [e]
      · rfl
    · intro x
      simp only [St.setQ]
      split
      · rename_i e; rw [e]
      · rfl
  · simp only [h w]
    unfold fire
    rw [if_neg (show d ∉ (s.setQ w _).fired from hd)]
    refine ⟨rfl, rfl, fun x => rfl, ?_, ?_, ?_, rfl, rfl⟩
    · intro x
      simp only [St.setQ, «continue»]
      split
      · rename_i e; rw [e]
      · rfl
    · intro x
      simp only [St.setQ, «continue»]
      split
      · rename_i e; rw [e]
      · rfl
    · intro y hy
      rcases List.mem_cons.1 hy with e | hy
      · exact .inr (by rw [e])
      · exact .inl hy

theorem perform_spec {s : St} (w : Side) (a : Act)
    (h : Quiet s ∨ ∃ d, d ∉ s.fired ∧ ∀ x, (s.q x).notification = some d) : Performed w a s (perform w a s) := by
  cases a with
  | write d =>
    obtain ⟨h1, h2, h3, h4, h5, h6, h7, h8⟩ := put_spec (s := { s with log := s.log ++ [.wrote w d] }) w (some d) h
    exact ⟨h1, h2, h3, h4, fun x => by rw [perform, h5]; simp, h6, h7, h8⟩
  | lose =>
    have hn : ∀ x, (({ s.setQ w { s.q w with disconnect := true } with log := s.log ++ [.closing w] } : St).q x).notification =
        (s.q x).notification := by
      intro x
      simp only [St.setQ]
      split
      · rename_i e; rw [e]
      · rfl
    obtain ⟨h1, h2, h3, h4, h5, h6, h7, h8⟩ :=
      put_spec (s := { s.setQ w { s.q w with disconnect := true } with log := s.log ++ [.closing w] }) w none (by
        rcases h with h | ⟨d, hd, h⟩
        · exact .inl fun x => by rw [hn]; exact h x
        · exact .inr ⟨d, hd, fun x => by rw [hn]; exact h x⟩)
    rw [hn] at h6 h8
    refine ⟨h1, h2, h3, fun x => ?_, fun x => ?_, h6, h7, h8⟩
    · rw [perform, h4]
      simp only [St.setQ, item]
      split
      · rename_i e; rw [e]
      · rename_i e; simp [e]
    · rw [perform, h5]
      simp only [St.setQ]
      split
      · rename_i e; rw [e]; simp
      · rename_i e; simp [e]

theorem Performed.base {s s' : St} (h : Performed w a s s') (hb : Base s) (hn : ∀ d, (s.q w).notification = some d → d < s.next) :
    Base s' where
  fifo := by
    intro x
    rw [h.log, h.items, writtenBy_append, receivedBy_append, hb.fifo x, List.append_assoc, List.append_assoc]
    congr 1
    cases a with
    | write d =>
      by_cases hx : x = w
      · subst hx
        rw [if_pos rfl, waiting_append]
        cases d with
        | nil => simp [event, item, writtenBy, receivedBy, waiting]
        | cons c d => simp [event, item, writtenBy, receivedBy, waiting]
      · rw [if_neg hx]
        have hx' : w ≠ x := fun e => hx e.symm
        cases d with
        | nil => simp [event, writtenBy, receivedBy]
        | cons c d => simp [event, writtenBy, receivedBy, hx']
    | lose =>
      split
      · rw [waiting_append]; simp [event, item, writtenBy, receivedBy, waiting]
      · simp [event, writtenBy, receivedBy]
  once := by
    rw [h.log]
    have := hb.once
    cases a <;> simp [event, this]
  closing := by
    intro x
    rw [h.log, h.disconnect]
    have := hb.closing x
    cases a with
    | write d => simp [event, this]
    | lose =>
      simp only [event, List.mem_append, List.mem_singleton, Ev.closing.injEq, this, Bool.or_eq_true, Bool.and_eq_true,
        decide_eq_true_eq, and_true]
  fired := by
    intro d hd
    rw [h.next]
    rcases h.fired d hd with h1 | h1
    · exact hb.fired d h1
    · exact hn d h1

theorem Performed.open {s s' : St} (h : Performed w a s s') (ho : Open s.log) : Open s'.log := by
  intro x
  rw [h.log]
  have := ho x
  cases a <;> simp [event, this]

theorem Performed.flagged {s s' : St} (h : Performed w a s s') (hf : Flagged s) : Flagged s' := by
  intro x hx
  rw [h.items]
  rw [h.disconnect, Bool.or_eq_true, Bool.and_eq_true, decide_eq_true_eq, decide_eq_true_eq] at hx
  rcases hx with hx | ⟨rfl, rfl⟩
  · have := hf x hx
    split
    · exact List.mem_append_left _ this
    · exact this
  · rw [if_pos rfl]
    simp [item]

theorem Performed.ended {s s' : St} (h : Performed w a s s') (he : Ended s.log) : Ended s'.log := by
  rw [h.log]
  exact he.append (by cases a <;> simp [event]) (by intro x d; cases a <;> simp [event])

theorem Performed.lostClient {s s' : St} (h : Performed w a s s') :
    s'.log.count (.lost .client) = s.log.count (.lost .client) ∧ (Ev.lost .client ∈ s'.log ↔ .lost .client ∈ s.log) := by
  rw [h.log]
  cases a <;> simp [event]

/-- An action of the protocol code keeps the invariant. -/
theorem inv_perform {s : St} {w : Side} {a : Act} {todo : List Act} (h : Inv s) {below : List Frame}
    (hs : s.stack = .app w (a :: todo) :: below) : Inv (perform w a { s with stack := .app w todo :: below }) := by
  obtain ⟨hb, x, b, hst, hm⟩ := h
  rw [hs] at hst
  cases x with
  | none =>
    cases b with
    | none => simp [frames] at hst
    | some b => simp [frames] at hst
  | some x =>
    simp only [frames, List.singleton_append, List.cons.injEq, Frame.app.injEq] at hst
    obtain ⟨⟨h1, h2⟩, hbelow⟩ := hst
    have hb' : Base { s with stack := .app w todo :: below } := ⟨hb.fifo, hb.once, hb.closing, hb.fired⟩
    cases b with
    | some b =>
      obtain ⟨pc, sent⟩ := b
      simp only at hm hbelow
      obtain ⟨h3, h4, h5⟩ := hm
      have hp := perform_spec (s := { s with stack := .app w todo :: below }) w a (.inl h4)
      refine ⟨hp.base hb' (fun d hd => by rw [show (s.q w).notification = none from h4 w] at hd; cases hd),
        some (w, todo), some (pc, sent), ?_, ?_, hp.quiet, ?_⟩
      · rw [hp.stack, hbelow]; rfl
      · rw [hp.scheduled]
        simp only
        rw [if_pos (h4 w), h3]
      · cases pc with
        | connect v => exact ⟨hp.open h5.1, hp.flagged h5.2.1, h5.2.2⟩
        | pump v =>
          cases v with
          | server => exact ⟨hp.open h5.1, fun h => hp.flagged (h5.2 h)⟩
          | client => exact ⟨hp.open h5.1, fun h => absurd (h5.2 h).1 (by simp)⟩
        | test => exact absurd h5.2.1 (by simp)
        | flush v => exact ⟨hp.open h5.1, by rw [hp.log]; exact List.mem_append_left _ h5.2⟩
        | lost v =>
          cases v with
          | server => exact absurd h5.2.1 (by simp)
          | client => exact ⟨hp.ended h5.1, fun h => h5.2 (hp.lostClient.2.1 h)⟩
        | done => exact ⟨hp.ended h5.1, by rw [hp.lostClient.1]; exact h5.2⟩
    | none =>
      simp only at hm hbelow
      rcases hm with ⟨h3, h4, h5, h6⟩ | ⟨h3, h4, h5, h6⟩ | ⟨h3, h4, d, h5, h6, h7⟩
      · have hp := perform_spec (s := { s with stack := .app w todo :: below }) w a (.inl h6)
        refine ⟨hp.base hb' (fun d hd => by rw [show (s.q w).notification = none from h6 w] at hd; cases hd),
          some (w, todo), none, by rw [hp.stack, hbelow]; rfl, .inl ⟨hp.ended h3, by rw [hp.lostClient.1]; exact h4, ?_, hp.quiet⟩⟩
        rw [hp.scheduled]; simp only; rw [if_pos (h6 w), h5]
      · have hp := perform_spec (s := { s with stack := .app w todo :: below }) w a (.inl h5)
        refine ⟨hp.base hb' (fun d hd => by rw [show (s.q w).notification = none from h5 w] at hd; cases hd),
          some (w, todo), none, by rw [hp.stack, hbelow]; rfl, .inr (.inl ⟨hp.open h3, ?_, hp.quiet, hp.flagged h6⟩)⟩
        rw [hp.scheduled]; simp only; rw [if_pos (h5 w), h4]
      · have hp := perform_spec (s := { s with stack := .app w todo :: below }) w a (.inr ⟨d, h6, fun x => (h7 x).1⟩)
        refine ⟨hp.base hb' (fun e he => by
            rw [show (s.q w).notification = some d from (h7 w).1] at he; cases he; exact h5),
          some (w, todo), none, by rw [hp.stack, hbelow]; rfl,
          .inr (.inl ⟨hp.open h3, ?_, hp.quiet, hp.flagged (fun x hx => ?_)⟩)⟩
        · rw [hp.scheduled]; simp only; rw [if_neg (by rw [(h7 w).1]; simp), h4]
        · simp only [(h7 x).2.2] at hx; cases hx

/-- Taking an item from the queue: what the queues and the log are then. -/
theorem inv_deliver {s : St} {w : Side} {v : Option (List Nat)} {rest : List (Option (List Nat))} {acts : List Act}
    {pc : Pc} {sent : Bool} (hb : Base s) (hi : (s.q w).items = v :: rest) (hs : s.scheduled = 0) (hq : Quiet s)
    (ho : Open s.log) (hpc : pc = .pump w ∧ sent = true ∨ pc = .flush w ∧ .closing w ∈ s.log) :
    Inv (deliver w v rest acts { s with stack := [.body pc sent] }) := by
  have hat : ∀ (a : Option (Side × List Act)) (s' : St), Open s'.log → (.closing w ∈ s.log → .closing w ∈ s'.log) →
      AtPc a sent s' pc := by
    intro a s' h1 h2
    rcases hpc with ⟨rfl, rfl⟩ | ⟨rfl, h3⟩
    · cases w
      · exact ⟨h1, fun h => by cases h⟩
      · exact ⟨h1, fun h => by cases h⟩
    · exact ⟨h1, h2 h3⟩
  have hq' : Quiet (s.setQ w { s.q w with items := rest }) := by
    intro x
    simp only [St.setQ]
    split
    · exact hq w
    · exact hq x
  have hdis : ∀ x, ((s.setQ w { s.q w with items := rest }).q x).disconnect = (s.q x).disconnect := by
    intro x
    simp only [St.setQ]
    split
    · rename_i e; rw [e]
    · rfl
  have hit : ∀ x, ((s.setQ w { s.q w with items := rest }).q x).items = if x = w then rest else (s.q x).items := by
    intro x
    simp only [St.setQ]
    split <;> rfl
  have quietCase : waiting (v :: rest) = waiting rest →
      Base ({ s.setQ w { s.q w with items := rest } with stack := [.body pc sent] } : St) := by
    intro hw
    refine ⟨fun x => ?_, hb.once, fun x => ?_, hb.fired⟩
    · have := hb.fifo x
      show writtenBy x s.log = receivedBy x.other s.log ++ waiting ((s.setQ w { s.q w with items := rest }).q x).items
      rw [hit, this]
      split
      · rename_i e; rw [e, hi, hw]
      · rfl
    · show _ ↔ ((s.setQ w { s.q w with items := rest }).q x).disconnect = true
      rw [hdis]; exact hb.closing x
  unfold deliver
  match v, hi, quietCase with
  | none, hi, quietCase => exact ⟨quietCase rfl, none, some (pc, sent), rfl, hs, hq', hat _ _ ho id⟩
  | some [], hi, quietCase => exact ⟨quietCase rfl, none, some (pc, sent), rfl, hs, hq', hat _ _ ho id⟩
  | some (c :: d), hi, _ =>
    refine ⟨⟨fun x => ?_, ?_, fun x => ?_, hb.fired⟩, some (w.other, acts), some (pc, sent), rfl, hs, hq',
      hat _ _ (fun x => ?_) (fun h => List.mem_append_left _ h)⟩
    · show writtenBy x (s.log ++ [.recv w.other (c :: d)]) = receivedBy x.other (s.log ++ [.recv w.other (c :: d)]) ++
        waiting ((s.setQ w { s.q w with items := rest }).q x).items
      rw [hit, writtenBy_append, receivedBy_append, hb.fifo x, List.append_assoc, List.append_assoc]
      congr 1
      by_cases hx : x = w
      · subst hx
        rw [hi]
        simp [waiting, receivedBy, writtenBy]
      · have : w.other ≠ x.other := by
          intro e
          apply hx
          rw [← other_other x, ← e, other_other]
        simp [hx, receivedBy, writtenBy, this]
    · show .alreadyCalled ∉ s.log ++ [.recv w.other (c :: d)]
      simp [hb.once]
    · show .closing x ∈ s.log ++ [.recv w.other (c :: d)] ↔ ((s.setQ w { s.q w with items := rest }).q x).disconnect = true
      rw [hdis, ← hb.closing x]
      simp
    · show Ev.lost x ∉ s.log ++ [Ev.recv w.other (c :: d)]
      simp [ho x]

/-- A step of the body keeps the invariant. -/
theorem inv_body {s : St} {acts : List Act} {pc : Pc} {sent : Bool} {below : List Frame} (h : Inv s)
    (hs : s.stack = .body pc sent :: below) : Inv (bodyStep acts pc sent below s) := by
  obtain ⟨hb, a, b, hst, hm⟩ := h
  rw [hs] at hst
  cases a with
  | some a => simp [frames] at hst
  | none =>
  cases b with
  | none => simp [frames] at hst
  | some b =>
  obtain ⟨pc', sent'⟩ := b
  simp only [frames, List.nil_append, List.cons.injEq, Frame.body.injEq] at hst
  obtain ⟨⟨rfl, rfl⟩, rfl⟩ := hst
  obtain ⟨h3, h4, h5⟩ := hm
  cases pc with
  | connect w =>
    cases w with
    | server => exact ⟨⟨hb.fifo, hb.once, hb.closing, hb.fired⟩, some (.server, acts), some (.connect .client, false), rfl, h3, h4,
        h5.1, h5.2.1, rfl⟩
    | client => exact ⟨⟨hb.fifo, hb.once, hb.closing, hb.fired⟩, some (.client, acts), some (.pump .server, false), rfl, h3, h4,
        h5.1, fun _ => h5.2.1⟩
  | pump w =>
    unfold bodyStep
    simp only
    cases hi : (s.q w).items with
    | cons v rest =>
      refine inv_deliver hb hi h3 h4 ?_ (.inl ⟨rfl, rfl⟩)
      cases w
      · exact h5.1
      · exact h5.1
    | nil =>
      cases w with
      | server => exact ⟨⟨hb.fifo, hb.once, hb.closing, hb.fired⟩, none, some (.pump .client, sent), rfl, h3, h4,
          h5.1, fun h => ⟨rfl, h5.2 h, hi⟩⟩
      | client => exact ⟨⟨hb.fifo, hb.once, hb.closing, hb.fired⟩, none, some (.test, sent), rfl, h3, h4,
          h5.1, rfl, fun h => ⟨(h5.2 h).2.1, (h5.2 h).2.2, hi⟩⟩
  | test =>
    unfold bodyStep
    simp only
    cases sent with
    | true =>
      rw [if_pos rfl]
      split
      · rename_i hd
        exact ⟨⟨hb.fifo, hb.once, hb.closing, hb.fired⟩, none, some (.flush .server, true), rfl, h3, h4, h5.1, (hb.closing _).2 hd⟩
      · rename_i hd1
        split
        · rename_i hd
          exact ⟨⟨hb.fifo, hb.once, hb.closing, hb.fired⟩, none, some (.flush .client, true), rfl, h3, h4, h5.1, (hb.closing _).2 hd⟩
        · rename_i hd2
          refine ⟨⟨hb.fifo, hb.once, hb.closing, hb.fired⟩, none, some (.pump .server, false), rfl, h3, h4, h5.1, fun _ x hx => ?_⟩
          cases x
          · exact absurd hx hd1
          · exact absurd hx hd2
    | false =>
      rw [if_neg (by simp)]
      obtain ⟨h6, h7, h8⟩ := h5.2.2 rfl
      refine ⟨⟨hb.fifo, hb.once, hb.closing, fun d hd => Nat.lt_succ_of_lt (hb.fired d hd)⟩, none, none, rfl,
        .inr (.inr ⟨h5.1, h3, s.next, Nat.lt_succ_self _, fun h => Nat.lt_irrefl _ (hb.fired _ h), fun x => ⟨rfl, ?_, ?_⟩⟩)⟩
      · cases x
        · exact h7
        · exact h8
      · cases hx : (s.q x).disconnect with
        | false => rfl
        | true =>
          have := h6 x hx
          cases x
          · rw [h7] at this; cases this
          · rw [h8] at this; cases this
  | flush w =>
    unfold bodyStep
    simp only
    cases hi : (s.q w).items with
    | cons v rest => exact inv_deliver hb hi h3 h4 h5.1 (.inr ⟨rfl, h5.2⟩)
    | nil => exact ⟨⟨hb.fifo, hb.once, hb.closing, hb.fired⟩, none, some (.lost .server, sent), rfl, h3, h4, h5.1, rfl, w, h5.2, hi⟩
  | lost w =>
    have hb' : Base { s with log := s.log ++ [.lost w] } := by
      refine ⟨fun x => ?_, ?_, fun x => ?_, hb.fired⟩
      · have := hb.fifo x
        simp only [writtenBy_append, receivedBy_append, this]
        simp [writtenBy, receivedBy]
      · simp [hb.once]
      · simp [hb.closing x]
    cases w with
    | server =>
      refine ⟨⟨hb'.fifo, hb'.once, hb'.closing, hb'.fired⟩, some (.server, acts), some (.lost .client, sent), rfl, h3, h4, ?_, ?_⟩
      · obtain ⟨v, hv1, hv2⟩ := h5.2.2
        refine ⟨s.log, [], rfl, h5.1, by simp, by simp, v, hv1, ?_⟩
        rw [hb.fifo v, hv2]
        simp [waiting]
      · show Ev.lost .client ∉ s.log ++ [Ev.lost .server]
        simp [h5.1 .client]
    | client =>
      refine ⟨⟨hb'.fifo, hb'.once, hb'.closing, hb'.fired⟩, some (.client, acts), some (.done, sent), rfl, h3, h4, ?_, ?_⟩
      · exact h5.1.append (by simp) (by simp)
      · show (s.log ++ [Ev.lost .client]).count (Ev.lost .client) = 1
        rw [List.count_append, List.count_eq_zero.2 h5.2]
        rfl
  | done => exact ⟨⟨hb.fifo, hb.once, hb.closing, hb.fired⟩, none, none, rfl, .inl ⟨h5.1, h5.2, h3, h4⟩⟩

/-- Whatever happens keeps the invariant. -/
theorem inv_next {s : St} (h : Inv s) (i : Input) : Inv (next s i) := by
  cases i with
  | step acts =>
    unfold next
    simp only
    split
    · exact h
    · rename_i w below hst
      obtain ⟨hb, a, b, hs, hm⟩ := h
      rw [hst] at hs
      cases a with
      | none => cases b <;> simp [frames] at hs
      | some a =>
        simp only [frames, List.singleton_append, List.cons.injEq] at hs
        obtain ⟨_, hbelow⟩ := hs
        refine ⟨⟨hb.fifo, hb.once, hb.closing, hb.fired⟩, none, b, hbelow, ?_⟩
        cases b with
        | none => exact hm
        | some b =>
          obtain ⟨pc, sent⟩ := b
          obtain ⟨h3, h4, h5⟩ := hm
          refine ⟨h3, h4, ?_⟩
          cases pc with
          | connect v => exact h5
          | pump v =>
            cases v with
            | server => exact h5
            | client => exact ⟨h5.1, fun h => absurd (h5.2 h).1 (by simp)⟩
          | test => exact absurd h5.2.1 (by simp)
          | flush v => exact h5
          | lost v =>
            cases v with
            | server => exact absurd h5.2.1 (by simp)
            | client => exact h5
          | done => exact h5
    · rename_i hst
      exact inv_perform h hst
    · rename_i hst
      exact inv_body h hst
  | run =>
    unfold next
    simp only
    split
    · rename_i hc
      obtain ⟨hb, a, b, hs, hm⟩ := h
      rw [hc.1] at hs
      cases a with
      | some a => simp [frames] at hs
      | none =>
        cases b with
        | some b => simp [frames] at hs
        | none =>
          rcases hm with ⟨_, _, h5, _⟩ | ⟨h3, h4, h5, h6⟩ | ⟨_, h4, _⟩
          · omega
          · refine ⟨⟨hb.fifo, hb.once, hb.closing, hb.fired⟩, none, some (.pump .server, false), rfl, ?_, h5, h3, fun _ => h6⟩
            show s.scheduled - 1 = 0
            omega
          · omega
    · exact h
  | call w acts =>
    unfold next
    simp only
    split
    · rename_i hc
      obtain ⟨hb, a, b, hs, hm⟩ := h
      rw [hc] at hs
      cases a with
      | some a => simp [frames] at hs
      | none =>
        cases b with
        | some b => simp [frames] at hs
        | none => exact ⟨⟨hb.fifo, hb.once, hb.closing, hb.fired⟩, some (w, acts), none, rfl, hm⟩
    · exact h

theorem inv_exec (is : List Input) : Inv (exec is) := by
  have key : ∀ (is : List Input) (s : St), Inv s → Inv (is.foldl next s) := by
    intro is
    induction is with
    | nil => exact fun s h => h
    | cons i is ih => exact fun s h => ih _ (inv_next h i)
  refine key is _ ⟨⟨fun w => ?_, by simp, fun w => by simp, by simp⟩, none, some (.connect .server, false), rfl, rfl, fun _ => rfl, ?_, ?_, rfl⟩
  · rfl
  · intro w; simp
  · intro w hw; cases hw

/-- C99: protocol code is never called while protocol code is running: a `write` does not lead back into a `dataReceived`. -/
theorem never_nested (is : List Input) : (running (exec is).stack).length ≤ 1 := by
  obtain ⟨_, a, b, hs, _⟩ := inv_exec is
  rw [hs]
  cases a <;> cases b <;> simp [running, frames]

/-- C99: a notification Deferred is never fired twice. -/
theorem never_twice (is : List Input) : .alreadyCalled ∉ (exec is).log := (inv_exec is).1.once

/-- C99: at all times each side has received, in order, a beginning of what the other wrote, and the rest is waiting. -/
theorem in_order (is : List Input) (w : Side) :
    writtenBy w (exec is).log = receivedBy w.other (exec is).log ++ waiting ((exec is).q w).items := (inv_exec is).1.fifo w

/-- C99: nothing is forgotten.  When nothing runs and the reactor has nothing to do, then either all that was written has been
received and no side has asked for the end, or the connection has ended. -/
theorem no_stall (is : List Input) (h1 : (exec is).stack = []) (h2 : (exec is).scheduled = 0) :
    (Open (exec is).log ∧ ∀ w, writtenBy w (exec is).log = receivedBy w.other (exec is).log ∧ .closing w ∉ (exec is).log) ∨
    (Ended (exec is).log ∧ (exec is).log.count (.lost .client) = 1) := by
  obtain ⟨hb, a, b, hs, hm⟩ := inv_exec is
  rw [h1] at hs
  cases a with
  | some a => simp [frames] at hs
  | none =>
    cases b with
    | some b => simp [frames] at hs
    | none =>
      rcases hm with ⟨h3, h4, _, _⟩ | ⟨_, h4, _⟩ | ⟨h3, _, d, _, _, h7⟩
      · exact .inr ⟨h3, h4⟩
      · omega
      · refine .inl ⟨h3, fun w => ⟨?_, ?_⟩⟩
        · rw [hb.fifo w, (h7 w).2.1]; simp [waiting]
        · rw [hb.closing w, (h7 w).2.2]; simp

/-- C99: the connection ends only when a side has asked for it and all that it wrote has been received; nothing is received after
that; the server is told first, and each side once. -/
theorem ends_properly (is : List Input) (w : Side) (h : .lost w ∈ (exec is).log) :
    Ended (exec is).log ∧ (exec is).log.count (.lost .client) ≤ 1 := by
  obtain ⟨hb, a, b, hs, hm⟩ := inv_exec is
  have hno : ¬ Open (exec is).log := fun ho => ho w h
  cases b with
  | none =>
    rcases hm with ⟨h3, h4, _, _⟩ | ⟨h3, _⟩ | ⟨h3, _⟩
    · exact ⟨h3, by omega⟩
    · exact absurd h3 hno
    · exact absurd h3 hno
  | some b =>
    obtain ⟨pc, sent⟩ := b
    obtain ⟨_, _, h5⟩ := hm
    cases pc with
    | connect v => exact absurd h5.1 hno
    | pump v =>
      cases v
      · exact absurd h5.1 hno
      · exact absurd h5.1 hno
    | test => exact absurd h5.1 hno
    | flush v => exact absurd h5.1 hno
    | lost v =>
      cases v with
      | server => exact absurd h5.1 hno
      | client => exact ⟨h5.1, by rw [List.count_eq_zero.2 h5.2]; omega⟩
    | done => exact ⟨h5.1, by rw [h5.2]; omega⟩

/-- The work left, if the protocol code does nothing more: an action waiting to be done weighs more than an item, and an item more
than a turn of the loop. -/
def rank : Pc → Bool → Nat
  | .connect .server, _ => 14
  | .connect .client, _ => 12
  | .pump .server, sent => if sent then 10 else 4
  | .pump .client, sent => if sent then 9 else 3
  | .test, sent => if sent then 8 else 2
  | .flush _, _ => 7
  | .lost .server, _ => 6
  | .lost .client, _ => 4
  | .done, _ => 2

def weight : Frame → Nat
  | .app _ todo => 30 * todo.length + 1
  | .body pc sent => rank pc sent

def work (s : St) : Nat :=
  20 * (s.q .server).items.length + 20 * (s.q .client).items.length + 5 * s.scheduled + (s.stack.map weight).sum

/-- What the machine does when left alone. -/
def alone (s : St) : Input := if s.stack = [] then .run else .step []

theorem items_sum {s s' : St} {w : Side} {l : List (Option (List Nat))}
    (h : ∀ x, (s'.q x).items = if x = w then l else (s.q x).items) :
    (s'.q .server).items.length + (s'.q .client).items.length + (s.q w).items.length =
      (s.q .server).items.length + (s.q .client).items.length + l.length := by
  rw [h, h]
  cases w
  · simp; omega
  · simp; omega

theorem work_deliver {s : St} {w : Side} {v : Option (List Nat)} {rest : List (Option (List Nat))}
    (hi : (s.q w).items = v :: rest) {f : Frame} {below : List Frame} (hw : weight f ≤ 10) :
    work (deliver w v rest [] { s with stack := f :: below }) <
      20 * (s.q .server).items.length + 20 * (s.q .client).items.length + 5 * s.scheduled + (below.map weight).sum := by
  have hsum := items_sum (s := s) (s' := s.setQ w { s.q w with items := rest }) (w := w) (l := rest) (fun x => by
    simp only [St.setQ]; split <;> rfl)
  rw [hi, List.length_cons] at hsum
  unfold deliver
  match v with
  | none =>
    show 20 * ((s.setQ w { s.q w with items := rest }).q .server).items.length +
      20 * ((s.setQ w { s.q w with items := rest }).q .client).items.length + 5 * s.scheduled + (weight f + (below.map weight).sum) < _
    omega
  | some [] =>
    show 20 * ((s.setQ w { s.q w with items := rest }).q .server).items.length +
      20 * ((s.setQ w { s.q w with items := rest }).q .client).items.length + 5 * s.scheduled + (weight f + (below.map weight).sum) < _
    omega
  | some (c :: d) =>
    show 20 * ((s.setQ w { s.q w with items := rest }).q .server).items.length +
      20 * ((s.setQ w { s.q w with items := rest }).q .client).items.length + 5 * s.scheduled +
        (1 + (weight f + (below.map weight).sum)) < _
    omega

theorem work_alone {s : St} (h : Inv s) (hs : s.stack ≠ [] ∨ s.scheduled ≠ 0) : work (next s (alone s)) < work s := by
  unfold alone
  by_cases h0 : s.stack = []
  · rw [if_pos h0]
    have h1 : 0 < s.scheduled := by
      rcases hs with hs | hs
      · exact absurd h0 hs
      · omega
    unfold next
    simp only
    rw [if_pos ⟨h0, h1⟩]
    unfold work
    simp only [h0, List.map_cons, List.map_nil, List.sum_cons, List.sum_nil, weight, rank]
    simp only [Bool.false_eq_true, if_false]
    omega
  · rw [if_neg h0]
    unfold next
    simp only
    split
    · rename_i e; exact absurd e h0
    · rename_i w below e
      unfold work
      rw [e]
      simp [weight]
    · rename_i w a todo below e
      obtain ⟨_, x, b, hst, hm⟩ := h
      have hor : Quiet s ∨ ∃ d, d ∉ s.fired ∧ ∀ x, (s.q x).notification = some d := by
        cases b with
        | some b => exact .inl hm.2.1
        | none =>
          rcases hm with hm | hm | ⟨_, _, d, _, h6, h7⟩
          · exact .inl hm.2.2.2
          · exact .inl hm.2.2.1
          · exact .inr ⟨d, h6, fun x => (h7 x).1⟩
      have hp := perform_spec (s := { s with stack := .app w todo :: below }) w a hor
      have hsum := items_sum (s := s) (w := w) (l := (s.q w).items ++ [item a]) (fun x => by
        rw [hp.items]
        simp only
        split
        · rename_i e; rw [e]
        · rfl)
      unfold work
      rw [hp.stack, hp.scheduled, e]
      simp only [List.map_cons, List.sum_cons, weight, List.length_cons, List.length_append, List.length_nil] at hsum ⊢
      split <;> omega
    · rename_i pc sent below e
      have hw : work s = 20 * (s.q .server).items.length + 20 * (s.q .client).items.length + 5 * s.scheduled +
          (rank pc sent + (below.map weight).sum) := by
        unfold work; rw [e]; rfl
      have keep : ∀ (l : List Frame) (log : List Ev), (l.map weight).sum < rank pc sent + (below.map weight).sum →
          work { s with stack := l, log := log } < work s := by
        intro l log hl
        rw [hw]
        show 20 * (s.q .server).items.length + 20 * (s.q .client).items.length + 5 * s.scheduled + (l.map weight).sum < _
        omega
      unfold bodyStep
      cases pc with
      | connect w => cases w <;> exact keep _ _ (by simp [weight, rank]; omega)
      | pump w =>
        simp only
        cases hi : (s.q w).items with
        | cons v rest =>
          simp only
          have := work_deliver (s := s) hi (f := .body (.pump w) true) (below := below) (by cases w <;> simp [weight, rank])
          omega
        | nil => cases w <;> cases sent <;> exact keep _ _ (by simp [weight, rank])
      | test =>
        simp only
        cases sent with
        | true =>
          rw [if_pos rfl]
          split
          · exact keep _ _ (by simp [weight, rank])
          · split
            · exact keep _ _ (by simp [weight, rank])
            · exact keep _ _ (by simp [weight, rank])
        | false =>
          rw [if_neg (by simp), hw]
          show 20 * (s.q .server).items.length + 20 * (s.q .client).items.length + 5 * s.scheduled + (below.map weight).sum < _
          simp only [rank]
          simp only [Bool.false_eq_true, if_false]
          omega
      | flush w =>
        simp only
        cases hi : (s.q w).items with
        | cons v rest =>
          simp only
          have := work_deliver (s := s) hi (f := .body (.flush w) sent) (below := below) (by simp [weight, rank])
          omega
        | nil => exact keep _ _ (by simp [weight, rank])
      | lost w => cases w <;> exact keep _ _ (by simp [weight, rank]; omega)
      | done => exact keep _ _ (by simp [rank])

/-- C99: and it gets there: from any point, if the protocol code writes nothing more, the machine left alone comes to rest, and
then, unless the connection has ended, all that was written has been received and nobody wants to close. -/
theorem comes_to_rest (is : List Input) :
    ∃ more : List Input, (∀ i ∈ more, i = .step [] ∨ i = .run) ∧
      (exec (is ++ more)).stack = [] ∧ (exec (is ++ more)).scheduled = 0 ∧
      ((∀ w, writtenBy w (exec (is ++ more)).log = receivedBy w.other (exec (is ++ more)).log ∧
          .closing w ∉ (exec (is ++ more)).log) ∨
        (Ended (exec (is ++ more)).log ∧ (exec (is ++ more)).log.count (.lost .client) = 1)) := by
  have key : ∀ n is, work (exec is) = n → ∃ more : List Input, (∀ i ∈ more, i = .step [] ∨ i = .run) ∧
      (exec (is ++ more)).stack = [] ∧ (exec (is ++ more)).scheduled = 0 := by
    intro n
    induction n using Nat.strongRecOn with
    | ind n ih =>
      intro is hn
      by_cases hs : (exec is).stack ≠ [] ∨ (exec is).scheduled ≠ 0
      · have hlt := work_alone (inv_exec is) hs
        have he : exec (is ++ [alone (exec is)]) = next (exec is) (alone (exec is)) := by simp [exec, List.foldl_append]
        obtain ⟨more, h1, h2, h3⟩ := ih _ (by rw [← hn]; exact hlt) (is ++ [alone (exec is)]) (by rw [he])
        refine ⟨alone (exec is) :: more, ?_, by simpa using h2, by simpa using h3⟩
        intro i hi
        rcases List.mem_cons.1 hi with rfl | hi
        · unfold alone
          split
          · exact .inr rfl
          · exact .inl rfl
        · exact h1 i hi
      · have hs' : (exec is).stack = [] ∧ (exec is).scheduled = 0 := by
          constructor
          · exact Classical.byContradiction fun h => hs (.inl h)
          · exact Classical.byContradiction fun h => hs (.inr h)
        exact ⟨[], by simp, by simpa using hs'.1, by simpa using hs'.2⟩
  obtain ⟨more, h1, h2, h3⟩ := key _ is rfl
  refine ⟨more, h1, h2, h3, ?_⟩
  rcases no_stall _ h2 h3 with ⟨_, h⟩ | h
  · exact .inl h
  · exact .inr h

/-- The server greets, the client answers and the server closes: each receives what the other wrote, and both lose the connection. -/
def dialogue : List Input :=
  [.step [.write [1]], .step [], .step [], .step [], .step [],
   .step [.write [2], .write [3]], .step [], .step [], .step [], .step [],
   .step [], .step [], .step [.lose]] ++ List.replicate 12 (.step [])

example : (exec dialogue).log = [.wrote .server [1], .recv .client [1], .wrote .client [2], .wrote .client [3],
    .recv .server [2], .recv .server [3], .closing .server, .lost .server, .lost .client] := by decide +kernel

/-- Both sides write while the loop is waiting: it is woken once. -/
example : (exec (List.replicate 9 (.step []) ++ [.call .server [.write [1]], .step [], .step [], .call .client [.write [2]], .step [],
    .step []])).scheduled = 1 := by decide +kernel

end Verif.Loopback
