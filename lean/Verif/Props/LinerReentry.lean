import Verif.Model.LinerReentry
import Verif.Lemmas.Liner
/-!
# C102: a line receiver under arbitrary subclasses
-/
namespace Verif.Liner.Reentry
open Verif.Py

/-! ## What holds without exception -/

theorem scan_cases (s : St) (delim buf : Bytes) :
    (s.lineMode = true ∧ find delim buf = none ∧ scan s delim buf = { s with buffer := buf }) ∨
    (∃ l rest, s.lineMode = true ∧ find delim buf = some (l, rest) ∧
      scan s delim buf = { s with stack := .line delim rest :: s.stack, log := s.log ++ [.line l delim] }) ∨
    (s.lineMode = false ∧ (isDisconnecting s = true ∨ buf = []) ∧ scan s delim buf = { s with buffer := [] }) ∨
    (s.lineMode = false ∧ isDisconnecting s = false ∧ buf ≠ [] ∧
      scan s delim buf = { s with buffer := [], stack := .raw :: s.stack, log := s.log ++ [.raw buf] }) := by
  unfold scan
  cases hl : s.lineMode with
  | true =>
    simp only [if_true]
    cases hf : find delim buf with
    | none => exact .inl ⟨trivial, rfl, rfl⟩
    | some x => exact .inr (.inl ⟨x.1, x.2, trivial, rfl, rfl⟩)
  | false =>
    right; right
    dsimp only
    rw [if_neg (by simp)]
    cases hd : isDisconnecting s with
    | true =>
      have : isDisconnecting { s with buffer := [] } = true := hd
      exact .inl ⟨rfl, .inl rfl, by rw [hl] at this; rw [if_pos this]⟩
    | false =>
      have : ¬ isDisconnecting { s with buffer := [] } = true := by
        intro h; have h' : isDisconnecting s = true := h; rw [hd] at h'; cases h'
      rw [hl] at this
      rw [if_neg this]
      by_cases hb : buf = []
      · exact .inl ⟨rfl, .inr hb, by rw [if_pos hb]⟩
      · exact .inr ⟨rfl, rfl, hb, by rw [if_neg hb]; rfl⟩

/-- A call of `lineReceived` or `rawDataReceived` is as it should be: the line ends at the first delimiter, the raw data is not
empty. -/
def Proper : Ev → Prop
  | .data _ => True
  | .line l delim => ∀ k, k < l.length → ¬ delim <+: (l ++ delim).drop k
  | .raw b => b ≠ []

theorem proper_line {delim buf l rest : Bytes} (h : find delim buf = some (l, rest)) : Proper (.line l delim) := by
  obtain ⟨h1, h2⟩ := find_some h
  intro k hk hp
  apply h2 k hk
  rw [h1, List.drop_append_of_le_length (by simp; omega)]
  exact hp.trans (List.prefix_append _ _)

/-- C102: whatever the subclass does, a line that is delivered goes up to the first delimiter and not further, and raw data is
never empty. -/
theorem proper (is : List Input) : ∀ e ∈ (exec {} is).log, Proper e := by
  have hscan : ∀ (s : St) (delim buf : Bytes), (∀ e ∈ s.log, Proper e) → ∀ e ∈ (scan s delim buf).log, Proper e := by
    intro s delim buf h e he
    rcases scan_cases s delim buf with ⟨_, _, hs⟩ | ⟨l, rest, _, hf, hs⟩ | ⟨_, _, hs⟩ | ⟨_, _, hb, hs⟩ <;> rw [hs] at he
    · exact h e he
    · rcases List.mem_append.1 he with he | he
      · exact h e he
      · rw [List.mem_singleton.1 he]; exact proper_line hf
    · exact h e he
    · rcases List.mem_append.1 he with he | he
      · exact h e he
      · rw [List.mem_singleton.1 he]; exact hb
  have hdata : ∀ (s : St) (d : Bytes), (∀ e ∈ s.log, Proper e) → ∀ e ∈ (dataReceived s d).log, Proper e := by
    intro s d h
    refine hscan _ _ _ fun e he => ?_
    rcases List.mem_append.1 he with he | he
    · exact h e he
    · rw [List.mem_singleton.1 he]; trivial
  suffices ∀ s : St, (∀ e ∈ s.log, Proper e) → ∀ e ∈ (exec s is).log, Proper e from this {} (by simp)
  induction is with
  | nil => exact fun s h => h
  | cons i is ih =>
    intro s h
    refine ih (step s i) ?_
    cases i with
    | op o =>
      cases o with
      | data d => exact hdata s d h
      | setLineMode x =>
        unfold step perform
        dsimp only
        split
        · exact h
        · exact hdata _ x h
      | setRawMode => exact h
      | lose => exact h
      | delimiter d => exact h
    | ret =>
      unfold step
      dsimp only
      split
      · split
        · exact h
        · exact hscan _ _ _ h
      · exact h
      · exact h
    | raise => exact h

/-- C102: whatever the subclass does, except for changing the delimiter, no complete line is ever left in the buffer. -/
theorem no_line_left (delim : Bytes) (hne : delim ≠ []) (is : List Input) (hd : ∀ d, .op (.delimiter d) ∉ is) :
    ¬ delim <:+: (exec { delimiter := delim } is).buffer := by
  have none_of : ∀ {buf : Bytes}, find delim buf = none → ¬ delim <:+: buf := by
    intro buf hf hi
    obtain ⟨a, b, h⟩ := hi
    refine find_none hf a.length (by rw [← h]; simp) ?_
    rw [← h, List.append_assoc, List.drop_left]
    exact List.prefix_append _ _
  have nil : ¬ delim <:+: ([] : Bytes) := fun h => hne (List.infix_nil.1 h)
  let OK : St → Prop := fun s => s.delimiter = delim ∧ ¬ delim <:+: s.buffer ∧ ∀ d r, .line d r ∈ s.stack → d = delim
  have hscan : ∀ (s : St) (buf : Bytes), OK s → OK (scan s delim buf) := by
    intro s buf ⟨h1, h2, h3⟩
    rcases scan_cases s delim buf with ⟨_, hf, hs⟩ | ⟨l, rest, _, hf, hs⟩ | ⟨_, _, hs⟩ | ⟨_, _, hb, hs⟩ <;> rw [hs]
    · exact ⟨h1, none_of hf, h3⟩
    · refine ⟨h1, h2, fun d r hm => ?_⟩
      rcases List.mem_cons.1 hm with e | hm
      · cases e; rfl
      · exact h3 d r hm
    · exact ⟨h1, nil, h3⟩
    · refine ⟨h1, nil, fun d r hm => ?_⟩
      rcases List.mem_cons.1 hm with e | hm
      · cases e
      · exact h3 d r hm
  have hdata : ∀ (s : St) (d : Bytes), OK s → OK (dataReceived s d) := by
    intro s d h
    unfold dataReceived
    rw [h.1]
    exact hscan _ _ h
  suffices ∀ s : St, OK s → OK (exec s is) from
    (this { delimiter := delim } ⟨rfl, nil, fun d r h => by cases h⟩).2.1
  induction is with
  | nil => exact fun s h => h
  | cons i is ih =>
    intro s h
    refine ih (fun d hm => hd d (List.mem_cons_of_mem _ hm)) (step s i) ?_
    cases i with
    | op o =>
      cases o with
      | data d => exact hdata s d h
      | setLineMode x =>
        unfold step perform
        dsimp only
        split
        · exact h
        · exact hdata _ x h
      | setRawMode => exact h
      | lose => exact h
      | delimiter d => exact absurd (List.mem_cons_self) (hd d)
    | ret =>
      unfold step
      dsimp only
      split
      · next d r below hs =>
        have hb : ∀ d r, .line d r ∈ below → d = delim := fun d r hm => h.2.2 d r (by rw [hs]; exact List.mem_cons_of_mem _ hm)
        have hd' : d = delim := h.2.2 d r (by rw [hs]; exact List.mem_cons_self)
        split
        · exact ⟨h.1, nil, hb⟩
        · rw [hd']; exact hscan _ _ ⟨h.1, h.2.1, hb⟩
      · next below hs => exact ⟨h.1, h.2.1, fun d r hm => h.2.2 d r (by rw [hs]; exact List.mem_cons_of_mem _ hm)⟩
      · exact h
    | raise => exact ⟨h.1, h.2.1, fun d r hm => h.2.2 d r (List.mem_of_mem_tail hm)⟩

/-- More data for the receiver. -/
def feeds : Input → Bool
  | .op (.data _) => true
  | .op (.setLineMode extra) => extra ≠ []
  | _ => false

/-- C102: once the connection is being lost, what was received before is not delivered any more, whatever calls are going on. -/
theorem silent_after_lose (s : St) (ht : s.transport = some true) (is : List Input) (hf : ∀ i ∈ is, feeds i = false) :
    (exec s is).log = s.log := by
  have h : isDisconnecting s = true := by unfold isDisconnecting; rw [ht]
  clear ht
  induction is generalizing s with
  | nil => rfl
  | cons i is ih =>
    have hi := hf i List.mem_cons_self
    have key : (step s i).log = s.log ∧ isDisconnecting (step s i) = true := by
      cases i with
      | op o =>
        cases o with
        | data d => cases hi
        | setLineMode x =>
          have : x = [] := by simpa [feeds] using hi
          subst this
          exact ⟨rfl, h⟩
        | setRawMode => exact ⟨rfl, h⟩
        | lose =>
          refine ⟨rfl, ?_⟩
          unfold step perform isDisconnecting at *
          cases ht : s.transport <;> simp [ht] at h ⊢
        | delimiter d => exact ⟨rfl, h⟩
      | ret =>
        unfold step
        dsimp only
        split
        · next below hs =>
          have : isDisconnecting { s with stack := below } = true := h
          rw [if_pos this]
          exact ⟨rfl, h⟩
        · exact ⟨rfl, h⟩
        · exact ⟨rfl, h⟩
      | raise => exact ⟨rfl, h⟩
    show (exec (step s i) is).log = s.log
    rw [ih _ (fun j hj => hf j (List.mem_cons_of_mem _ hj)) key.2, key.1]

/-! ## Every byte once -/

/-- The bytes of the stream that a call stands for. -/
def Ev.text : Ev → Bytes
  | .data _ => []
  | .line l delim => l ++ delim
  | .raw b => b

/-- The bytes `dataReceived` was given. -/
def Ev.given : Ev → Bytes
  | .data d => d
  | _ => []

/-- `lineReceived` neither passes data to the receiver nor raises. -/
def tame (s : St) : List Input → Prop
  | [] => True
  | i :: is => ((∃ d r below, s.stack = .line d r :: below) → feeds i = false ∧ i ≠ .raise) ∧ tame (step s i) is

/-- Where the bytes not yet delivered are. -/
def Kept (s : St) : Prop :=
  (∀ f ∈ s.stack, f = .raw) ∧ s.log.flatMap Ev.text ++ s.buffer = s.log.flatMap Ev.given ∨
  ∃ d r below, s.stack = .line d r :: below ∧ (∀ f ∈ below, f = .raw) ∧ s.log.flatMap Ev.text ++ r = s.log.flatMap Ev.given

theorem Kept.scan {s : St} {delim buf : Bytes} (hs : ∀ f ∈ s.stack, f = .raw) (hd : isDisconnecting s = false)
    (h : s.log.flatMap Ev.text ++ buf = s.log.flatMap Ev.given) : Kept (scan s delim buf) := by
  rcases scan_cases s delim buf with ⟨_, hf, e⟩ | ⟨l, rest, _, hf, e⟩ | ⟨_, hb, e⟩ | ⟨_, _, hb, e⟩ <;> rw [e]
  · exact .inl ⟨hs, h⟩
  · refine .inr ⟨delim, rest, s.stack, rfl, hs, ?_⟩
    dsimp only
    rw [List.flatMap_append, List.flatMap_append, ← h, (find_some hf).1]
    simp [Ev.text, Ev.given]
  · refine .inl ⟨hs, ?_⟩
    rcases hb with hb | hb
    · rw [hd] at hb; cases hb
    · rw [hb] at h; exact h
  · refine .inl ⟨fun f hf => (List.mem_cons.1 hf).elim id (hs f), ?_⟩
    dsimp only
    rw [List.flatMap_append, List.flatMap_append, ← h]
    simp [Ev.text, Ev.given]

theorem Kept.step {s : St} (h : Kept s) (i : Input) (hd : isDisconnecting s = false)
    (ht : (∃ d r below, s.stack = .line d r :: below) → feeds i = false ∧ i ≠ .raise) : Kept (step s i) := by
  have hdata : ∀ s : St, Kept s → isDisconnecting s = false → (¬ ∃ d r below, s.stack = .line d r :: below) → ∀ x,
      Kept (dataReceived s x) := by
    intro s h hd hn x
    rcases h with ⟨h1, h2⟩ | ⟨d, r, below, h1, _⟩
    · refine Kept.scan (s := s.say (.data x)) h1 hd ?_
      show (s.log ++ [_]).flatMap _ ++ _ = (s.log ++ [_]).flatMap _
      rw [List.flatMap_append, List.flatMap_append, ← h2]
      simp [Ev.text, Ev.given]
    · exact absurd ⟨d, r, below, h1⟩ hn
  cases i with
  | op o =>
    cases o with
    | data x => exact hdata s h hd (fun hl => by cases (ht hl).1) x
    | setLineMode x =>
      unfold Reentry.step perform
      dsimp only
      split
      · exact h
      · next hx => exact hdata { s with lineMode := true } h hd (fun hl => hx (by simpa [feeds] using (ht hl).1)) x
    | setRawMode => exact h
    | lose => exact h
    | delimiter d => exact h
  | ret =>
    unfold Reentry.step
    dsimp only
    split
    · next d r below hs =>
      have hn : ¬ isDisconnecting { s with stack := below } = true := by
        intro e; have e' : isDisconnecting s = true := e; rw [hd] at e'; cases e'
      rw [if_neg hn]
      rcases h with ⟨h1, _⟩ | ⟨d', r', below', h1, h2, h3⟩
      · have := h1 (.line d r) (by rw [hs]; exact List.mem_cons_self)
        cases this
      · rw [hs] at h1
        cases h1
        exact Kept.scan h2 (Bool.eq_false_iff.2 hn) h3
    · next below hs =>
      rcases h with ⟨h1, h2⟩ | ⟨d', r', below', h1, _⟩
      · exact .inl ⟨fun f hf => h1 f (by rw [hs]; exact List.mem_cons_of_mem _ hf), h2⟩
      · rw [hs] at h1; cases h1
    · exact h
  | raise =>
    rcases h with ⟨h1, h2⟩ | ⟨d, r, below, h1, _⟩
    · exact .inl ⟨fun f hf => h1 f (List.mem_of_mem_tail hf), h2⟩
    · exact absurd rfl (ht ⟨d, r, below, h1⟩).2

theorem still_disconnecting (s : St) (i : Input) (h : isDisconnecting s = true) : isDisconnecting (step s i) = true := by
  have hs : ∀ (s : St) (d b : Bytes), isDisconnecting s = true → isDisconnecting (scan s d b) = true := by
    intro s d b h
    rcases scan_cases s d b with ⟨_, _, e⟩ | ⟨_, _, _, _, e⟩ | ⟨_, _, e⟩ | ⟨_, _, _, e⟩ <;> rw [e] <;> exact h
  cases i with
  | op o =>
    cases o with
    | data d => exact hs _ _ _ h
    | setLineMode x =>
      unfold step perform
      dsimp only
      split
      · exact h
      · exact hs _ _ _ h
    | setRawMode => exact h
    | lose =>
      unfold step perform isDisconnecting at *
      cases ht : s.transport <;> simp [ht] at h ⊢
    | delimiter d => exact h
  | ret =>
    unfold step
    dsimp only
    split
    · split
      · exact h
      · exact hs _ _ _ h
    · exact h
    · exact h
  | raise => exact h

/-- C102: as long as the connection is not being lost, every byte that `dataReceived` was given has gone, once and in order, into a
line with its delimiter or into raw data, or is still waiting: in the buffer, or behind the line that is being received.  The
subclass may change the mode and the delimiter at any time, and hand data back from `rawDataReceived` as it likes.  There may be
no transport.

Missing: subclasses that pass data to the receiver or raise in `lineReceived` (`data_in_line_fails`, `raise_in_line_fails`). -/
theorem every_byte_partial (transport : Option Bool) (is : List Input) (ht : tame { transport } is)
    (htr : (exec { transport } is).transport ≠ some true) :
    let s := exec { transport } is
    s.log.flatMap Ev.text ++ (match s.stack with
      | .line _ rest :: _ => rest
      | _ => s.buffer) = s.log.flatMap Ev.given := by
  have hd : isDisconnecting (exec { transport } is) = false := by
    unfold isDisconnecting
    cases h : (exec { transport } is).transport with
    | none => rfl
    | some d =>
      cases d with
      | false => rfl
      | true => exact absurd h htr
  clear htr
  suffices ∀ s : St, Kept s → tame s is → isDisconnecting (exec s is) = false → Kept (exec s is) by
    rcases this { transport } (.inl ⟨by simp, rfl⟩) ht hd with ⟨h1, h2⟩ | ⟨d, r, below, h1, _, h3⟩
    · dsimp only
      split
      · next d r below hs =>
        have := h1 (.line d r) (by rw [hs]; exact List.mem_cons_self)
        cases this
      · exact h2
    · simp only [h1]; exact h3
  clear ht hd
  induction is with
  | nil => exact fun s h _ _ => h
  | cons i is ih =>
    intro s h ht hd
    have hs : isDisconnecting s = false := by
      cases hs : isDisconnecting s with
      | false => rfl
      | true =>
        have : ∀ (is : List Input) (s : St), isDisconnecting s = true → isDisconnecting (exec s is) = true := by
          intro is
          induction is with
          | nil => exact fun s h => h
          | cons i is ih => exact fun s h => ih _ (still_disconnecting s i h)
        rw [this (i :: is) s hs] at hd; cases hd
    exact ih (step s i) (h.step i hs ht.1) ht.2 hd

/-! ## What goes wrong -/

/-- C102 fails, first: a subclass that passes data on from `lineReceived`, as it may from `rawDataReceived`, gets the beginning of
the line it is looking at again (`ab`), and what its data leaves over (`y`) is lost. -/
theorem data_in_line_fails :
    let s := exec {} [.op (.data [97, 98]), .op (.data [99, 13, 10, 100]), .op (.setLineMode [120, 13, 10, 121]), .ret, .ret,
      .op (.data [13, 10]), .ret]
    s.stack = [] ∧ s.buffer = [] ∧
    s.log.filter (fun e => e.given = []) = [.line [97, 98, 99] [13, 10], .line [97, 98, 120] [13, 10], .line [100] [13, 10]] ∧
    s.log.flatMap Ev.given = [97, 98, 99, 13, 10, 100, 120, 13, 10, 121, 13, 10] := by decide +kernel

/-- C102 fails, second: if `lineReceived` raises and its caller goes on, the beginning of the line is received again and the rest
of the data is lost. -/
theorem raise_in_line_fails :
    let s := exec {} [.op (.data [97, 98]), .op (.data [99, 13, 10, 100, 13, 10]), .raise, .op (.data [120, 13, 10]), .ret]
    s.stack = [] ∧ s.buffer = [] ∧
    s.log.filter (fun e => e.given = []) = [.line [97, 98, 99] [13, 10], .line [97, 98, 120] [13, 10]] := by decide +kernel

/-- C102 fails, third: a line that is handed back after `loseConnection()` is still delivered. -/
theorem lose_in_raw_fails :
    let s := exec {} [.op .setRawMode, .op (.data [97, 13, 10, 98, 13, 10]), .op .lose, .op (.setLineMode [98, 13, 10])]
    isDisconnecting s = true ∧ s.log.getLast? = some (.line [98] [13, 10]) := by decide +kernel

/-! ## Cases -/

/-- One line of header, raw data that is handed back in two pieces inside one call, and a changed delimiter. -/
def dialogue : List Input :=
  [.op (.data [104, 13]), .op (.data [10, 97, 98, 13, 10, 99, 46, 100]), .op .setRawMode, .ret,
   .op (.setLineMode [98, 13, 10]), .ret, .op (.delimiter [46]), .op (.setLineMode [99, 46, 100]), .ret, .ret]

example : tame {} dialogue ∧ isDisconnecting (exec {} dialogue) = false ∧
    (exec {} dialogue).log = [.data [104, 13], .data [10, 97, 98, 13, 10, 99, 46, 100], .line [104] [13, 10],
      .raw [97, 98, 13, 10, 99, 46, 100], .data [98, 13, 10], .line [98] [13, 10], .data [99, 46, 100], .line [99] [46]] ∧
    (exec {} dialogue).buffer = [100] := by
  refine ⟨?_, by decide +kernel, by decide +kernel, by decide +kernel⟩
  simp [tame, dialogue, step, perform, dataReceived, scan, find, St.say, isDisconnecting, feeds]

/-- A subclass that loses the connection inside a line, of three. -/
example : let s := exec {} [.op (.data [97, 13, 10, 98, 13, 10, 99, 13, 10]), .op .lose]
    isDisconnecting s = true ∧ s.stack ≠ [] ∧ (exec s [.ret, .op .setRawMode]).log.length = 2 := by decide +kernel

end Verif.Liner.Reentry
