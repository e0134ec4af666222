import Verif.Lemmas.RouterReentry
/-!
# C101: the router under receivers that call back

For every behaviour of the receivers inside the calls the router makes to them.
-/
namespace Verif.Router.Reentry
open Verif.Py

/-! ## What holds without exception -/

/-- C101: a receiver is started only after the router's start was called and its route was connected; the router itself starts
only routes that hold a name at that moment. -/
theorem starts_justified (is : List Input) (pre post : List Ev) (rid : Nat) (b : Bool)
    (h : (exec {} is).log = pre ++ .start rid b :: post) :
    .began ∈ pre ∧ .connected rid ∈ pre ∧ (b = true → ∃ n rcv, (bindings pre).table n = some (rid, rcv)) :=
  (Inv.new.exec is).justified pre _ post h

/-- C101: the router tells of its stop only receivers whose route holds a name at that moment, with the reason it was given, and
only after it was started. -/
theorem stops_justified (is : List Input) (pre post : List Ev) (rid rcv reason : Nat)
    (h : (exec {} is).log = pre ++ .stop rid rcv reason :: post) :
    .stopping reason ∈ pre ∧ .running ∈ pre ∧ ∃ n, (bindings pre).table n = some (rid, rcv) :=
  (Inv.new.exec is).justified pre _ post h

/-- C101: at any moment, whatever is going on, a box that is received goes, without its route, to the receiver that the history has
left bound to the route; if there is none, or the router is not running, nobody gets it. -/
theorem delivered (is : List Input) (box : Box) (h : Idle (exec {} is)) :
    (step (exec {} is) (.op (.receive box))).log = (exec {} is).log ++
      [if Running (exec {} is).log then
        match (bindings (exec {} is).log).table (Dict.get? box ROUTE) with
        | some (_, rcv) => .deliver rcv (Dict.erase box ROUTE)
        | none => .raised .keyError
      else .raised .typeError] := by
  have hi := Inv.new.exec is
  generalize exec {} is = s at *
  have hstep : step s (.op (.receive box)) = receive s box := by
    unfold step
    dsimp only
    split
    · next hs => exact absurd hs (h _ _ _ _ _)
    · rfl
  rw [hstep]
  unfold receive
  by_cases hr : s.routes = true
  · rw [if_pos hr, if_pos (hi.routes.1 hr), hi.table]
    cases hg : Dict.get? s.table (Dict.get? box ROUTE) with
    | none => rfl
    | some rid =>
      obtain ⟨ro, h1, _⟩ := hi.held _ _ hg
      simp only [Option.bind_some, h1, Option.map_some]
      rfl
  · rw [if_neg hr, if_neg (fun h => hr (hi.routes.2 h))]; rfl

/-- What a step can add to the history. -/
inductive Adds (s : St) : Input → List Ev → Prop
  | nothing (i) : Adds s i []
  | raised (i e) : Adds s i [.raised e]
  | bound (o r c n) : Adds s (.op o) [.bound r c n]
  | unbound (o r) : Adds s (.op o) [.unbound r]
  | connected (o r) (h : s.sender = false) : Adds s (.op o) [.connected r]
  | connectedStart (o r) (h : s.sender = true) : Adds s (.op o) [.connected r, .start r false]
  | began (o) : Adds s (.op o) [.began]
  | beganRaised (o e) : Adds s (.op o) [.began, .raised e]
  | stopping (o r) : Adds s (.op o) [.stopping r]
  | send (o b) : Adds s (.op o) [.send b]
  | deliver (b r) (h : s.routes = true) : Adds s (.op (.receive b)) [.deliver r (Dict.erase b ROUTE)]
  | failed (i e) : Adds s i [.failed e, .raised e]
  | start (c r) : Adds s (.go c) [.start r true]
  | stop (c r r' x) : Adds s (.go c) [.stop r r' x]
  | running (c) : Adds s (.go c) [.running]
  | stopped (c) : Adds s (.go c) [.stopped]

theorem step_adds (s : St) (i : Input) :
    ∃ new, (step s i).log = s.log ++ new ∧ Adds s i new ∧ (s.sender = true → (step s i).sender = true) := by
  have nil : ∀ i, ∃ new, s.log = s.log ++ new ∧ Adds s i new ∧ (s.sender = true → s.sender = true) :=
    fun i => ⟨[], (List.append_nil _).symm, .nothing i, id⟩
  have two : ∀ a b : Ev, s.log ++ [a] ++ [b] = s.log ++ [a, b] := fun a b => by simp
  have hn : ∀ k u v p b x c, ∃ new, (next s k u v p b x).log = s.log ++ new ∧ Adds s (.go c) new ∧
      (s.sender = true → (next s k u v p b x).sender = true) := by
    intro k u v p b x c
    unfold next
    split
    · unfold finish
      split
      · exact ⟨[_], rfl, .running c, id⟩
      · exact ⟨[_], rfl, .stopped c, id⟩
    · unfold visit
      split
      · split
        · exact ⟨[_], rfl, .start c _, id⟩
        · exact nil _
      · split
        · exact nil _
        · exact ⟨[_], rfl, .stop c _ _ _, id⟩
  cases i with
  | ret => unfold step; dsimp only; split <;> exact nil _
  | raise e =>
    unfold step; dsimp only
    split
    · exact ⟨_, two _ _, .failed _ e, id⟩
    · exact ⟨_, two _ _, .failed _ e, id⟩
    · exact nil _
  | go c =>
    unfold step; dsimp only
    split
    · unfold turn
      split
      · exact ⟨[_], rfl, .raised _ _, id⟩
      · split
        · exact hn ..
        · split
          · exact ⟨[_], rfl, .raised _ _, id⟩
          · exact hn ..
          · exact hn ..
    · exact nil _
  | op o =>
    unfold step; dsimp only
    split
    · exact nil _
    · cases o with
      | newId => exact nil _
      | bind r n =>
        unfold perform bind
        cases n <;> dsimp only <;> split
        · exact ⟨[_], rfl, .bound _ _ _ _, id⟩
        · exact ⟨[_], rfl, .raised _ _, id⟩
        · exact ⟨[_], rfl, .bound _ _ _ _, id⟩
        · exact ⟨[_], rfl, .raised _ _, id⟩
      | connect r n =>
        unfold perform connect
        dsimp only
        split
        · exact nil _
        · split
          · next h => exact ⟨_, two _ _, .connectedStart _ _ h, id⟩
          · next h => exact ⟨[_], rfl, .connected _ _ (Bool.eq_false_iff.2 h), id⟩
      | unbind r =>
        unfold perform unbind
        dsimp only
        split
        · exact nil _
        · split
          · split
            · exact ⟨[_], rfl, .unbound _ _, id⟩
            · exact ⟨[_], rfl, .raised _ _, id⟩
          · exact ⟨[_], rfl, .raised _ _, id⟩
      | start =>
        unfold perform begin
        dsimp only
        split
        · exact ⟨[_], rfl, .began _, fun _ => rfl⟩
        · exact ⟨_, two _ _, .beganRaised _ _, fun _ => rfl⟩
      | stop r =>
        unfold perform stop
        dsimp only
        split
        · exact ⟨[_], rfl, .stopping _ _, id⟩
        · exact ⟨[_], rfl, .raised _ _, id⟩
      | send r b =>
        unfold perform send
        dsimp only
        split
        · exact nil _
        · split
          · exact ⟨[_], rfl, .raised _ _, id⟩
          · split
            · exact ⟨[_], rfl, .send _ _, id⟩
            · exact ⟨[_], rfl, .raised _ _, id⟩
      | receive b =>
        unfold perform receive
        dsimp only
        split
        · next hr =>
          split
          · exact ⟨[_], rfl, .raised _ _, id⟩
          · split
            · exact ⟨[_], rfl, .raised _ _, id⟩
            · exact ⟨[_], rfl, .deliver _ _ hr, id⟩
        · exact ⟨[_], rfl, .raised _ _, id⟩

/-- C101: deliveries come only from receiving a box. -/
theorem deliver_received (s : St) (i : Input) (new : List Ev) (rcv : Nat) (b : Box) (h : (step s i).log = s.log ++ new)
    (hd : .deliver rcv b ∈ new) : ∃ box, i = .op (.receive box) ∧ b = Dict.erase box ROUTE := by
  obtain ⟨l, h1, h2, _⟩ := step_adds s i
  rw [List.append_cancel_left (h.symm.trans h1)] at hd
  cases h2 <;> simp at hd
  exact ⟨_, rfl, hd.2⟩

theorem silent_after {s : St} (hi : Inv s) (hs : .stopped ∈ s.log) (more : List Input) :
    ∃ l, (exec s more).log = s.log ++ l ∧ ∀ rcv b, .deliver rcv b ∉ l := by
  induction more generalizing s with
  | nil => exact ⟨[], (List.append_nil _).symm, fun _ _ h => by cases h⟩
  | cons i more ih =>
    obtain ⟨l, h1, h2, _⟩ := step_adds s i
    obtain ⟨l', h3, h4⟩ := ih (hi.step i) (by rw [h1]; exact List.mem_append_left _ hs)
    refine ⟨l ++ l', ?_, ?_⟩
    · show (exec (step s i) more).log = _
      rw [h3, h1, List.append_assoc]
    · intro rcv b hm
      rcases List.mem_append.1 hm with hm | hm
      · cases h2 <;> simp at hm
        rename s.routes = true => hr
        exact (hi.routes.1 hr).2 hs
      · exact h4 rcv b hm

/-- C101: once a stop has returned no box is ever delivered again. -/
theorem stopped_for_good (is more : List Input) (hs : .stopped ∈ (exec {} is).log) (new : List Ev)
    (h : (exec {} (is ++ more)).log = (exec {} is).log ++ new) (rcv : Nat) (b : Box) : .deliver rcv b ∉ new := by
  obtain ⟨l, h1, h2⟩ := silent_after (Inv.new.exec is) hs more
  have h3 : (exec {} (is ++ more)).log = (exec {} is).log ++ l := by rw [← h1]; simp [exec]
  rw [List.append_cancel_left (h.symm.trans h3)]
  exact h2 rcv b

/-- C101: from the router's start on, each `connectTo` starts the receiver of its route once, whatever else is going on, and nothing
but the loop of the router's start starts any other. -/
theorem connect_starts (s : St) (hs : s.sender = true) (is : List Input) (new : List Ev) (h : (exec s is).log = s.log ++ new)
    (rid : Nat) : new.count (.start rid false) = new.count (.connected rid) := by
  suffices ∃ l, (exec s is).log = s.log ++ l ∧ l.count (.start rid false) = l.count (.connected rid) by
    obtain ⟨l, h1, h2⟩ := this
    rw [List.append_cancel_left (h.symm.trans h1)]; exact h2
  clear h
  induction is generalizing s with
  | nil => exact ⟨[], (List.append_nil _).symm, rfl⟩
  | cons i is ih =>
    obtain ⟨l, h1, h2, h5⟩ := step_adds s i
    obtain ⟨l', h3, h4⟩ := ih (step s i) (h5 hs)
    refine ⟨l ++ l', ?_, ?_⟩
    · show (exec (step s i) is).log = _
      rw [h3, h1, List.append_assoc]
    · rw [List.count_append, List.count_append, h4]
      congr 1
      cases h2 <;> simp [List.count_cons]
      next h => rw [hs] at h; cases h

/-! ## The loops -/

/-- During a loop, no name is new, none is given up, and neither loop is begun again. -/
def Calm (s0 : St) : Ev → Prop
  | .bound _ _ n => (bindings s0.log).table n ≠ none
  | .unbound _ => False
  | .began => False
  | .stopping _ => False
  | _ => True

/-- What the loop is to do for a route. -/
def told (k : Option Nat) (rid rcv : Nat) : Ev :=
  match k with
  | none => .start rid true
  | some reason => .stop rid rcv reason

/-- For which routes. -/
def Due (k : Option Nat) (log : List Ev) (rid : Nat) : Prop := k = none → .connected rid ∈ log

structure InLoop (k : Option Nat) (s0 s : St) (mid : List Ev) (above : List Frame) (pos : Nat) : Prop where
  inv : Inv s
  stack : s.stack = above ++ .loop k s0.table.length s0.version pos :: s0.stack
  above : ∀ f ∈ above, f = .code
  version : s.version = s0.version
  keys : Dict.keys s.table = Dict.keys s0.table
  conn : ∀ rid, .connected rid ∈ s0.log → .connected rid ∈ s.log
  recv : ∀ (rid : Nat) (ro : Route), s0.heap[rid]? = some ro → ∃ ro', s.heap[rid]? = some ro' ∧ ro'.receiver = ro.receiver
  kept : ∀ n rid, Dict.get? s0.table n = some rid → (∀ r c, .bound r c n ∉ mid) → Dict.get? s.table n = some rid
  count : ∀ (n : RName) (rid : Nat) (ro : Route) (i : Nat), (Dict.keys s0.table)[i]? = some n → Dict.get? s0.table n = some rid → s0.heap[rid]? = some ro →
    Due k s0.log rid → (∀ r c, .bound r c n ∉ mid) → mid.count (told k rid ro.receiver) = if i < pos then 1 else 0

theorem told_count {k : Option Nat} {rid rcv : Nat} {l : List Ev} (h1 : ∀ r, .start r true ∉ l) (h2 : ∀ r c x, .stop r c x ∉ l) :
    l.count (told k rid rcv) = 0 := by
  apply List.count_eq_zero.2
  cases k
  · exact h1 _
  · exact h2 _ _ _

theorem heap_kept (s : St) (i : Input) (rid : Nat) (ro : Route) (h : s.heap[rid]? = some ro) :
    ∃ ro', (step s i).heap[rid]? = some ro' ∧ ro'.receiver = ro.receiver := by
  have hn : ∀ k u v p b x, (next s k u v p b x).heap = s.heap := by
    intro k u v p b x
    unfold next finish visit
    (repeat' split) <;> rfl
  have same : ∀ t : St, t.heap = s.heap → ∃ ro', t.heap[rid]? = some ro' ∧ ro'.receiver = ro.receiver :=
    fun t ht => ⟨ro, by rw [ht]; exact h, rfl⟩
  cases i with
  | ret => unfold step; dsimp only; split <;> exact same _ rfl
  | raise e => unfold step; dsimp only; split <;> exact same _ rfl
  | go c =>
    unfold step; dsimp only
    split
    · unfold turn
      (repeat' split) <;> first | exact same _ rfl | exact same _ (hn ..)
    · exact same _ rfl
  | op o =>
    unfold step; dsimp only
    split
    · exact same _ rfl
    · cases o with
      | newId => exact same _ rfl
      | bind r n =>
        have : ∀ x : Route, ∃ ro', (s.heap ++ [x])[rid]? = some ro' ∧ ro'.receiver = ro.receiver := fun x =>
          ⟨ro, by rw [List.getElem?_append_left (List.getElem?_eq_some_iff.1 h).1]; exact h, rfl⟩
        unfold perform bind
        cases n <;> dsimp only <;> split <;> first | exact this _ | exact same _ rfl
      | connect r n =>
        unfold perform connect
        dsimp only
        split
        · exact same _ rfl
        · next x hx =>
          have := getElem?_set_map hx n rid Route.receiver (fun _ => rfl)
          rw [h] at this
          obtain ⟨y, hy, hy'⟩ := Option.map_eq_some_iff.1 this
          split <;> exact ⟨y, hy, hy'⟩
      | unbind r => unfold perform unbind; dsimp only; (repeat' split) <;> exact same _ rfl
      | start => unfold perform begin; dsimp only; split <;> exact same _ rfl
      | stop r => unfold perform stop; dsimp only; split <;> exact same _ rfl
      | send r b => unfold perform send; dsimp only; (repeat' split) <;> exact same _ rfl
      | receive b => unfold perform receive; dsimp only; (repeat' split) <;> exact same _ rfl

/-- What an operation that is calm does not change. -/
theorem perform_calm {s0 s : St} (hk : Dict.keys s.table = Dict.keys s0.table) (h0 : Inv s0) (o : Op) (new : List Ev)
    (hnew : (perform s o).log = s.log ++ new) (calm : ∀ e ∈ new, Calm s0 e) :
    ((perform s o).stack = s.stack ∨ (perform s o).stack = .code :: s.stack) ∧ (perform s o).version = s.version ∧
    Dict.keys (perform s o).table = Dict.keys s.table ∧
    (∀ n, (∀ r c, .bound r c n ∉ new) → Dict.get? (perform s o).table n = Dict.get? s.table n) := by
  have bind' : ∀ (s' : St) (r : Nat) (n : RName) (new : List Ev), s'.table = s.table → s'.heap = s.heap → 
      new = [.bound s'.heap.length r n] → (∀ e ∈ new, Calm s0 e) →
      (if Dict.has s'.table n then s'.version else s'.version + 1) = s'.version ∧
      Dict.keys (Dict.set s'.table n s'.heap.length) = Dict.keys s.table ∧
      (∀ m, (∀ r c, .bound r c m ∉ new) → Dict.get? (Dict.set s'.table n s'.heap.length) m = Dict.get? s.table m) := by
    rintro s' r n new ht hh rfl hc
    have hm : n ∈ Dict.keys s'.table := by
      have h1 : (bindings s0.log).table n ≠ none := hc _ (List.mem_singleton.2 rfl)
      rw [h0.table] at h1
      rw [ht, hk]
      apply Classical.byContradiction
      intro h2
      rw [(Dict.get?_eq_none_iff _ _).2 h2] at h1
      exact h1 rfl
    refine ⟨by rw [if_pos ((Dict.has_iff _ _).2 hm)], by rw [Dict.keys_set_of_mem _ hm, ht], ?_⟩
    intro m hb
    rw [Dict.get?_set_other, ht]
    rintro rfl
    exact hb _ _ (List.mem_singleton.2 rfl)
  have cancel : ∀ l, s.log ++ l = s.log ++ new → new = l := fun l h => (List.append_cancel_left h).symm
  cases o with
  | newId => exact ⟨.inl rfl, rfl, rfl, fun _ _ => rfl⟩
  | bind r n =>
    unfold perform bind at hnew ⊢
    cases n with
    | none =>
      dsimp only at hnew ⊢
      split at hnew
      · next hc =>
        rw [if_pos hc]
        obtain ⟨h1, h2, h3⟩ := bind' { s with counter := s.counter + 1 } r _ new rfl rfl (cancel _ hnew) calm
        exact ⟨.inl rfl, h1, h2, h3⟩
      · next hc => rw [if_neg hc]; exact ⟨.inl rfl, rfl, rfl, fun _ _ => rfl⟩
    | some n =>
      dsimp only at hnew ⊢
      split at hnew
      · next hc =>
        rw [if_pos hc]
        obtain ⟨h1, h2, h3⟩ := bind' s r _ new rfl rfl (cancel _ hnew) calm
        exact ⟨.inl rfl, h1, h2, h3⟩
      · next hc => rw [if_neg hc]; exact ⟨.inl rfl, rfl, rfl, fun _ _ => rfl⟩
  | connect r n =>
    unfold perform connect
    dsimp only
    split
    · exact ⟨.inl rfl, rfl, rfl, fun _ _ => rfl⟩
    · split
      · exact ⟨.inr rfl, rfl, rfl, fun _ _ => rfl⟩
      · exact ⟨.inl rfl, rfl, rfl, fun _ _ => rfl⟩
  | unbind r =>
    unfold perform unbind at hnew ⊢
    dsimp only at hnew ⊢
    split
    · exact ⟨.inl rfl, rfl, rfl, fun _ _ => rfl⟩
    · next hr =>
      rw [hr] at hnew
      dsimp only at hnew
      split
      · next hs =>
        rw [if_pos hs] at hnew
        split
        · next ht =>
          rw [if_pos ht] at hnew
          rw [cancel _ hnew] at calm
          exact (calm _ (List.mem_singleton.2 rfl)).elim
        · exact ⟨.inl rfl, rfl, rfl, fun _ _ => rfl⟩
      · exact ⟨.inl rfl, rfl, rfl, fun _ _ => rfl⟩
  | start =>
    exfalso
    have hb : ∃ l, new = .began :: l := by
      unfold perform begin at hnew
      dsimp only at hnew
      split at hnew
      · exact ⟨[], cancel _ hnew⟩
      · exact ⟨[_], cancel [_, _] (by rw [← hnew]; simp [St.say]; rfl)⟩
    obtain ⟨l, rfl⟩ := hb
    exact calm _ (List.mem_cons_self ..)
  | stop r =>
    unfold perform stop at hnew ⊢
    dsimp only at hnew ⊢
    split
    · next hs =>
      rw [if_pos hs] at hnew
      rw [cancel _ hnew] at calm
      exact (calm _ (List.mem_singleton.2 rfl)).elim
    · exact ⟨.inl rfl, rfl, rfl, fun _ _ => rfl⟩
  | send r b => unfold perform send; dsimp only; (repeat' split) <;> exact ⟨.inl rfl, rfl, rfl, fun _ _ => rfl⟩
  | receive b =>
    unfold perform receive
    dsimp only
    (repeat' split) <;> first | exact ⟨.inl rfl, rfl, rfl, fun _ _ => rfl⟩ | exact ⟨.inr rfl, rfl, rfl, fun _ _ => rfl⟩

/-- Steps in which the loop itself does nothing. -/
theorem InLoop.other {k : Option Nat} {s0 s : St} {mid : List Ev} {above : List Frame} {pos : Nat} (h : InLoop k s0 s mid above pos)
    (i : Input) (new : List Ev) (above' : List Frame) (hnew : (step s i).log = s.log ++ new)
    (hst : (step s i).stack = above' ++ .loop k s0.table.length s0.version pos :: s0.stack) (hab : ∀ f ∈ above', f = .code)
    (hv : (step s i).version = s.version) (hk : Dict.keys (step s i).table = Dict.keys s.table)
    (hkept : ∀ n, (∀ r c, .bound r c n ∉ new) → Dict.get? (step s i).table n = Dict.get? s.table n)
    (h1 : ∀ r, .start r true ∉ new) (h2 : ∀ r c x, .stop r c x ∉ new) :
    InLoop k s0 (step s i) (mid ++ new) above' pos where
  inv := h.inv.step i
  stack := hst
  above := hab
  version := hv.trans h.version
  keys := hk.trans h.keys
  conn := fun rid hc => by rw [hnew]; exact List.mem_append_left _ (h.conn rid hc)
  recv := fun rid ro hr => by
    obtain ⟨ro', h3, h4⟩ := h.recv rid ro hr
    obtain ⟨ro'', h5, h6⟩ := heap_kept s i rid ro' h3
    exact ⟨ro'', h5, h6.trans h4⟩
  kept := fun n rid hg hb => by
    rw [hkept n fun r c hm => hb r c (List.mem_append_right _ hm)]
    exact h.kept n rid hg fun r c hm => hb r c (List.mem_append_left _ hm)
  count := fun n rid ro j hj hg hr hd hb => by
    rw [List.count_append, told_count h1 h2, Nat.add_zero]
    exact h.count n rid ro j hj hg hr hd fun r c hm => hb r c (List.mem_append_left _ hm)

/-- The event of one turn. -/
def visited (k : Option Nat) (s : St) (rid rcv : Nat) : List Ev :=
  match k with
  | none => if isConnected s.heap rid then [.start rid true] else []
  | some reason => [.stop rid rcv reason]

/-- The event after the loop. -/
def done (k : Option Nat) : Ev :=
  match k with
  | none => .running
  | some _ => .stopped

theorem loop_step {k : Option Nat} {s0 s : St} {mid : List Ev} {above : List Frame} {pos : Nat} (h0 : Inv s0)
    (h : InLoop k s0 s mid above pos) (i : Input) (new : List Ev) (hnew : (step s i).log = s.log ++ new)
    (calm : ∀ e ∈ new, Calm s0 e) :
    (∃ above' pos', InLoop k s0 (step s i) (mid ++ new) above' pos') ∨
    ((step s i).stack = s0.stack ∧
      ((∃ e, i = .raise e ∧ above = [.code]) ∨ (∃ c, i = .go c) ∧ new = [done k] ∧ s0.table.length ≤ pos)) := by
  have idle : step s i = s → ∃ above' pos', InLoop k s0 (step s i) (mid ++ new) above' pos' := by
    intro he
    have hn : new = [] := List.append_cancel_left ((hnew.symm.trans (by rw [he])).trans (List.append_nil _).symm)
    subst hn
    rw [he, List.append_nil]
    exact ⟨above, pos, h⟩
  cases i with
  | op o =>
    left
    cases above with
    | nil => exact idle (by unfold step; dsimp only; rw [h.stack]; rfl)
    | cons f above =>
      have hf := h.above f (List.mem_cons_self ..)
      subst hf
      have hs : step s (.op o) = perform s o := by unfold step; dsimp only; rw [h.stack]; rfl
      rw [hs] at hnew
      obtain ⟨h1, h2, h3, h4⟩ := perform_calm h.keys h0 o new hnew calm
      obtain ⟨l, h5, h6, _⟩ := step_adds s (.op o)
      rw [hs] at h5
      have hl : new = l := List.append_cancel_left (hnew.symm.trans h5)
      subst hl
      have h7 : ∀ r, .start r true ∉ new := by intro r hm; cases h6 <;> simp at hm
      have h8 : ∀ r c x, .stop r c x ∉ new := by intro r c x hm; cases h6 <;> simp at hm
      rcases h1 with h1 | h1
      · exact ⟨_, pos, h.other (.op o) new (.code :: above) (by rw [hs]; exact hnew) (by rw [hs, h1]; exact h.stack) h.above
          (by rw [hs]; exact h2) (by rw [hs]; exact h3) (by rw [hs]; exact h4) h7 h8⟩
      · exact ⟨_, pos, h.other (.op o) new (.code :: .code :: above) (by rw [hs]; exact hnew) (by rw [hs, h1, h.stack]; rfl)
          (fun f hf => (List.mem_cons.1 hf).elim id (h.above f))
          (by rw [hs]; exact h2) (by rw [hs]; exact h3) (by rw [hs]; exact h4) h7 h8⟩
  | ret =>
    left
    cases above with
    | nil => exact idle (by unfold step; dsimp only; rw [h.stack]; rfl)
    | cons f above =>
      have hf := h.above f (List.mem_cons_self ..)
      subst hf
      have hs : step s .ret = { s with stack := above ++ .loop k s0.table.length s0.version pos :: s0.stack } := by
        unfold step; dsimp only; rw [h.stack]; rfl
      have hn : new = [] := List.append_cancel_left ((hnew.symm.trans (by rw [hs])).trans (List.append_nil _).symm)
      subst hn
      exact ⟨above, pos, h.other .ret [] above hnew (by rw [hs]) (fun f hf => h.above f (List.mem_cons_of_mem _ hf))
        (by rw [hs]) (by rw [hs]) (fun _ _ => by rw [hs]) (by simp) (by simp)⟩
  | raise e =>
    cases above with
    | nil => left; exact idle (by unfold step; dsimp only; rw [h.stack]; rfl)
    | cons f above =>
      have hf := h.above f (List.mem_cons_self ..)
      subst hf
      cases above with
      | nil =>
        right
        refine ⟨?_, .inl ⟨e, rfl, rfl⟩⟩
        unfold step; dsimp only; rw [h.stack]; rfl
      | cons g above =>
        left
        have hg := h.above g (List.mem_cons_of_mem _ (List.mem_cons_self ..))
        subst hg
        have hs : step s (.raise e) = St.say (St.say { s with
            stack := .code :: above ++ .loop k s0.table.length s0.version pos :: s0.stack } (.failed e)) (.raised e) := by
          unfold step; dsimp only; rw [h.stack]; rfl
        have hn : new = [.failed e, .raised e] := by
          apply List.append_cancel_left (as := s.log)
          rw [← hnew, hs]; simp [St.say]
        subst hn
        exact ⟨.code :: above, pos, h.other (.raise e) _ (.code :: above) hnew (by rw [hs]; rfl)
          (fun f hf => h.above f (List.mem_cons_of_mem _ hf))
          (by rw [hs]; rfl) (by rw [hs]; rfl) (fun _ _ => by rw [hs]; rfl) (by simp) (by simp)⟩
  | go c =>
    cases above with
    | cons f above =>
      have hf := h.above f (List.mem_cons_self ..)
      subst hf
      left; exact idle (by unfold step; dsimp only; rw [h.stack]; rfl)
    | nil =>
      have hlen : s.table.length = s0.table.length := by
        have := congrArg List.length h.keys
        simpa [Dict.keys] using this
      have hs : step s (.go c) = next s k s0.table.length s0.version pos s0.stack s.table[pos]? := by
        unfold step; dsimp only; rw [h.stack]
        show turn s c k _ _ _ _ = _
        unfold turn
        rw [if_neg (by simp [hlen]), if_pos h.version]
      cases hp : s.table[pos]? with
      | none =>
        right
        rw [hp] at hs
        rw [hs] at hnew ⊢
        have : new = [done k] := by
          apply List.append_cancel_left (as := s.log)
          rw [← hnew]; unfold next finish done; cases k <;> rfl
        refine ⟨by unfold next finish; cases k <;> rfl, .inr ⟨⟨c, rfl⟩, this, ?_⟩⟩
        rw [← hlen]; exact List.getElem?_eq_none_iff.1 hp
      | some x =>
        left
        obtain ⟨n', rid'⟩ := x
        rw [hp] at hs
        have hmem : (n', rid') ∈ s.table := List.mem_of_getElem? hp
        have hget := Dict.get?_of_mem h.inv.wf hmem
        obtain ⟨ro', hro', hname'⟩ := h.inv.held n' rid' hget
        have hkey : (Dict.keys s0.table)[pos]? = some n' := by
          rw [← h.keys]; simp [Dict.keys, hp]
        -- what is added, and the rest of the state
        have hadd : new = visited k s rid' ro'.receiver := by
          apply List.append_cancel_left (as := s.log)
          rw [← hnew, hs]
          unfold next visit visited
          cases k with
          | none => dsimp only; split <;> simp [St.say]
          | some r => dsimp only; rw [hro']; rfl
        have hstk : ∃ above', (∀ f ∈ above', f = .code) ∧
            (step s (.go c)).stack = above' ++ .loop k s0.table.length s0.version (pos + 1) :: s0.stack := by
          rw [hs]
          unfold next visit
          cases k with
          | none =>
            dsimp only; split
            · exact ⟨[.code], by simp, rfl⟩
            · exact ⟨[], by simp, rfl⟩
          | some r => dsimp only; rw [hro']; exact ⟨[.code], by simp, rfl⟩
        have htab : (step s (.go c)).table = s.table ∧ (step s (.go c)).version = s.version := by
          rw [hs]; unfold next visit
          cases k with
          | none => dsimp only; split <;> exact ⟨rfl, rfl⟩
          | some r => dsimp only; rw [hro']; exact ⟨rfl, rfl⟩
        obtain ⟨above', hab, hst⟩ := hstk
        have hnb : ∀ r c n, .bound r c n ∉ new := by
          intro r c n; rw [hadd]; unfold visited; cases k <;> dsimp only <;> (try split) <;> simp
        refine ⟨above', pos + 1, ?_⟩
        exact {
          inv := h.inv.step _
          stack := hst
          above := hab
          version := htab.2.trans h.version
          keys := by rw [htab.1]; exact h.keys
          conn := fun rid hc => by rw [hnew]; exact List.mem_append_left _ (h.conn rid hc)
          recv := fun rid ro hr => by
            obtain ⟨ro', h3, h4⟩ := h.recv rid ro hr
            obtain ⟨ro'', h5, h6⟩ := heap_kept s (.go c) rid ro' h3
            exact ⟨ro'', h5, h6.trans h4⟩
          kept := fun n rid hg hb => by
            rw [htab.1]
            exact h.kept n rid hg fun r c hm => hb r c (List.mem_append_left _ hm)
          count := by
            intro n rid ro j hj hg hr hd hb
            have hb' : ∀ r c, .bound r c n ∉ mid := fun r c hm => hb r c (List.mem_append_left _ hm)
            rw [List.count_append, h.count n rid ro j hj hg hr hd hb']
            have hcur := h.kept n rid hg hb'
            obtain ⟨ro1, hro1, hrecv⟩ := h.recv rid ro hr
            by_cases hjp : j = pos
            · subst hjp
              have hnn : n' = n := Option.some.inj (hkey.symm.trans hj)
              subst hnn
              have hrr : rid' = rid := Option.some.inj (hget.symm.trans hcur)
              subst hrr
              have hroeq : ro' = ro1 := Option.some.inj (hro'.symm.trans hro1)
              subst hroeq
              rw [if_neg (by omega), if_pos (by omega), hadd]
              cases k with
              | none =>
                have : isConnected s.heap rid' = true := (h.inv.conn rid').2 (h.conn rid' (hd rfl))
                simp [visited, this, told]
              | some r => simp [visited, told, hrecv]
            · have hne : rid' ≠ rid := by
                rintro rfl
                obtain ⟨x, hx, hxn⟩ := h.inv.held n _ hcur
                have : n' = n := by
                  rw [hx] at hro'; cases hro'; rw [← hname', hxn]
                subst this
                have hwf : (Dict.keys s0.table).Nodup := h0.wf
                exact hjp ((List.getElem?_inj (List.getElem?_eq_some_iff.1 hj).1 hwf).1 (hj.trans hkey.symm))
              have hz : new.count (told k rid ro.receiver) = 0 := by
                apply List.count_eq_zero.2
                rw [hadd]
                cases k with
                | none => dsimp only [told, visited]; split <;> simp [hne.symm]
                | some r => simp [visited, told, hne.symm]
              rw [hz, Nat.add_zero]
              by_cases hlt : j < pos
              · rw [if_pos hlt, if_pos (by omega)]
              · rw [if_neg hlt, if_neg (by omega)] }

/-- The loop goes on all the time: there are always more calls on the stack than when it was begun. -/
def During (s0 s1 : St) (is : List Input) : Prop := ∀ pre, pre <+: is → s0.stack.length < (exec s1 pre).stack.length

theorem exec_adds (s : St) (is : List Input) : ∃ new, (exec s is).log = s.log ++ new := by
  induction is generalizing s with
  | nil => exact ⟨[], (List.append_nil _).symm⟩
  | cons i is ih =>
    obtain ⟨l, h1, _⟩ := step_adds s i
    obtain ⟨l', h2⟩ := ih (step s i)
    exact ⟨l ++ l', by show (exec (step s i) is).log = _; rw [h2, h1, List.append_assoc]⟩

theorem loop_exec {k : Option Nat} {s0 : St} (h0 : Inv s0) (is : List Input) :
    ∀ {s : St} {mid : List Ev} {above : List Frame} {pos : Nat}, InLoop k s0 s mid above pos → During s0 s is →
      ∀ more, (exec s is).log = s.log ++ more → (∀ e ∈ more, Calm s0 e) →
        ∃ above pos, InLoop k s0 (exec s is) (mid ++ more) above pos := by
  induction is with
  | nil =>
    intro s mid above pos h _ more hm _
    have : more = [] := List.append_cancel_left (hm.symm.trans (List.append_nil _).symm)
    subst this
    rw [List.append_nil]
    exact ⟨above, pos, h⟩
  | cons i is ih =>
    intro s mid above pos h hd more hm calm
    obtain ⟨new, hn, _⟩ := step_adds s i
    obtain ⟨rest, hr⟩ := exec_adds (step s i) is
    have : more = new ++ rest := by
      apply List.append_cancel_left (as := s.log)
      rw [← hm, ← List.append_assoc, ← hn, ← hr]; rfl
    subst this
    rcases loop_step h0 h i new hn (fun e he => calm e (List.mem_append_left _ he)) with ⟨above', pos', h'⟩ | ⟨hs, _⟩
    · rw [← List.append_assoc]
      exact ih h' (fun pre hp => hd (i :: pre) (List.cons_prefix_cons.2 ⟨rfl, hp⟩)) rest hr
        (fun e he => calm e (List.mem_append_right _ he))
    · exfalso
      have := hd [i] (List.cons_prefix_cons.2 ⟨rfl, List.nil_prefix⟩)
      change s0.stack.length < (step s i).stack.length at this
      rw [hs] at this
      omega

/-- What both loops do. -/
theorem loop_tells {k : Option Nat} {s0 s1 : St} (h0 : Inv s0) (h1 : InLoop k s0 s1 [] [] 0) (is : List Input) (i : Input)
    (hd : During s0 s1 is) (mid : List Ev) (hm : (exec s1 is).log = s1.log ++ mid) (new : List Ev)
    (hn : (step (exec s1 is) i).log = (exec s1 is).log ++ new) (calm : ∀ e ∈ mid ++ new, Calm s0 e)
    (hend : (step (exec s1 is) i).stack.length ≤ s0.stack.length) :
    (step (exec s1 is) i).stack = s0.stack ∧
    ((∃ e, i = .raise e) ∨
    new = [done k] ∧ ∀ n rid rcv, (bindings s0.log).table n = some (rid, rcv) → Due k s0.log rid → (∀ r c, .bound r c n ∉ mid) →
      mid.count (told k rid rcv) = 1) := by
  obtain ⟨above, pos, hl⟩ := loop_exec h0 is h1 hd mid hm fun e he => calm e (List.mem_append_left _ he)
  rw [List.nil_append] at hl
  rcases loop_step h0 hl i new hn (fun e he => calm e (List.mem_append_right _ he)) with ⟨above', pos', h'⟩ | ⟨hs, h'⟩
  · exfalso
    have := congrArg List.length h'.stack
    simp at this
    omega
  · refine ⟨hs, ?_⟩
    rcases h' with ⟨e, he, _⟩ | ⟨_, hnew, hpos⟩
    · exact .inl ⟨e, he⟩
    · refine .inr ⟨hnew, fun n rid rcv hb hdue hno => ?_⟩
      rw [h0.table] at hb
      obtain ⟨rid', hg, hx⟩ := Option.bind_eq_some_iff.1 hb
      obtain ⟨ro, hro, he⟩ := Option.map_eq_some_iff.1 hx
      cases he
      have hk : n ∈ Dict.keys s0.table := by
        apply Classical.byContradiction
        intro hc
        rw [(Dict.get?_eq_none_iff _ _).2 hc] at hg
        cases hg
      obtain ⟨j, hj⟩ := List.mem_iff_getElem?.1 hk
      have hlt : j < s0.table.length := by
        have := (List.getElem?_eq_some_iff.1 hj).1
        simpa [Dict.keys] using this
      rw [hl.count n rid ro j hj hg hro hdue hno, if_pos (by omega)]

theorem InLoop.begin {k : Option Nat} {s0 s1 : St} (h1 : Inv s1) (hs : s1.stack = .loop k s0.table.length s0.version 0 :: s0.stack)
    (hv : s1.version = s0.version) (ht : s1.table = s0.table) (hh : s1.heap = s0.heap)
    (hl : ∀ e ∈ s0.log, e ∈ s1.log) : InLoop k s0 s1 [] [] 0 where
  inv := h1
  stack := hs
  above := fun _ h => by cases h
  version := hv
  keys := by rw [ht]
  conn := fun rid h => hl _ h
  recv := fun rid ro h => ⟨ro, by rw [hh]; exact h, rfl⟩
  kept := fun n rid h _ => by rw [ht]; exact h
  count := fun n rid ro i _ _ _ _ _ => by simp

/-- C101, the start: take any moment at which the router has not been started and its start is called.  Whatever the receivers do
while it goes on, as long as they bind no new names, unbind nothing and do not call the router's start or stop: either a receiver
that was started raises, or the start returns and has started, once each, all the routes that were connected and whose names have
not been given to others.

Missing: `bind_in_start_fails`, `nested_start_fails`; and routes connected in the meantime may be started twice
(`connect_in_start_fails`). -/
theorem start_tells_partial (before is : List Input) (i : Input) (hidle : Idle (exec {} before))
    (hfresh : .running ∉ (exec {} before).log) :
    let s0 := exec {} before
    let s1 := step s0 (.op .start)
    During s0 s1 is → ∀ mid new, (exec s1 is).log = s1.log ++ mid → (step (exec s1 is) i).log = (exec s1 is).log ++ new →
      (∀ e ∈ mid ++ new, Calm s0 e) → (step (exec s1 is) i).stack.length ≤ s0.stack.length →
      (step (exec s1 is) i).stack = s0.stack ∧
      ((∃ e, i = .raise e) ∨
      new = [.running] ∧ ∀ n rid rcv, (bindings s0.log).table n = some (rid, rcv) → .connected rid ∈ s0.log →
        (∀ r c, .bound r c n ∉ mid) → mid.count (.start rid true) = 1) := by
  have h0 := Inv.new.exec before
  generalize exec {} before = s0 at *
  have hu := h0.unstarted.2 hfresh
  intro s0' s1 hd mid new hm hn calm hend
  have hs1 : s1 = { (St.say { s0 with sender := true } .began) with stack := .loop none s0.table.length s0.version 0 :: s0.stack } := by
    show step s0 (.op .start) = _
    unfold step
    dsimp only
    split
    · next hs => exact absurd hs (hidle _ _ _ _ _)
    · unfold perform begin
      dsimp only
      rw [if_pos (show (St.say { s0 with sender := true } .began).unstarted = true from hu)]; rfl
  have hin : InLoop none s0 s1 [] [] 0 := InLoop.begin (h0.step _) (by rw [hs1]) (by rw [hs1]; rfl) (by rw [hs1]; rfl)
    (by rw [hs1]; rfl) (fun e he => by rw [hs1]; exact List.mem_append_left _ he)
  obtain ⟨h1, h2⟩ := loop_tells h0 hin is i hd mid hm new hn calm hend
  exact ⟨h1, h2.imp id fun ⟨h3, h4⟩ => ⟨h3, fun n rid rcv hb hc hno => h4 n rid rcv hb (fun _ => hc) hno⟩⟩

/-- C101, the stop: take any moment at which the router is running and its stop is called.  Whatever the receivers do while it goes
on, as long as they bind no new names, unbind nothing and do not call the router's start or stop: either a receiver that is told
raises, or the stop returns and has told, once each, all the receivers that were bound and whose names have not been given to
others.

Missing: `unbind_in_stop_fails`. -/
theorem stop_tells_partial (before is : List Input) (i : Input) (reason : Nat) (hidle : Idle (exec {} before))
    (hrun : Running (exec {} before).log) :
    let s0 := exec {} before
    let s1 := step s0 (.op (.stop reason))
    During s0 s1 is → ∀ mid new, (exec s1 is).log = s1.log ++ mid → (step (exec s1 is) i).log = (exec s1 is).log ++ new →
      (∀ e ∈ mid ++ new, Calm s0 e) → (step (exec s1 is) i).stack.length ≤ s0.stack.length →
      (step (exec s1 is) i).stack = s0.stack ∧
      ((∃ e, i = .raise e) ∨
      new = [.stopped] ∧ ∀ n rid rcv, (bindings s0.log).table n = some (rid, rcv) →
        (∀ r c, .bound r c n ∉ mid) → mid.count (.stop rid rcv reason) = 1) := by
  have h0 := Inv.new.exec before
  generalize exec {} before = s0 at *
  have hr := h0.routes.2 hrun
  intro s0' s1 hd mid new hm hn calm hend
  have hs1 : s1 = St.say { s0 with stack := .loop (some reason) s0.table.length s0.version 0 :: s0.stack } (.stopping reason) := by
    show step s0 (.op (.stop reason)) = _
    unfold step
    dsimp only
    split
    · next hs => exact absurd hs (hidle _ _ _ _ _)
    · unfold perform stop
      dsimp only
      rw [if_pos hr]
  have hin : InLoop (some reason) s0 s1 [] [] 0 := InLoop.begin (h0.step _) (by rw [hs1]; rfl) (by rw [hs1]; rfl) (by rw [hs1]; rfl)
    (by rw [hs1]; rfl) (fun e he => by rw [hs1]; exact List.mem_append_left _ he)
  obtain ⟨h1, h2⟩ := loop_tells h0 hin is i hd mid hm new hn calm hend
  exact ⟨h1, h2.imp id fun ⟨h3, h4⟩ => ⟨h3, fun n rid rcv hb hno => h4 n rid rcv hb (fun h => by cases h) hno⟩⟩

/-! ## When the receivers are quiet -/

/-- What there is left to do for a call on the stack. -/
def work : Frame → Nat
  | .code => 1
  | .loop _ used _ pos => 2 * (used - pos) + 1

def load (s : St) : Nat := (s.stack.map work).sum

theorem load_next (s : St) (k u v p below x) (h : s.stack = .loop k u v p :: below) (hx : x ≠ none → p < u) :
    load (next s k u v p below x) < load s := by
  unfold load
  rw [h]
  unfold next
  split
  · unfold finish
    split <;> simp [St.say, work]
  · have := hx (by simp)
    unfold visit
    split
    · split <;> simp [St.say, work] <;> omega
    · split <;> simp [St.say, work] <;> omega

/-- C101: without further operations by receivers, every step that does anything brings the router nearer to its rest. -/
theorem load_lt (s : St) (i : Input) (hi : ∀ o, i ≠ .op o) : step s i = s ∨ load (step s i) < load s := by
  cases i with
  | op o => exact absurd rfl (hi o)
  | ret =>
    unfold step; dsimp only
    split
    · next h => right; unfold load; rw [h]; simp [work]
    · exact .inl rfl
  | raise e =>
    unfold step; dsimp only
    split
    · next h => right; unfold load; rw [h]; simp [St.say, work]; omega
    · next h => right; unfold load; rw [h]; simp [St.say, work]
    · exact .inl rfl
  | go c =>
    unfold step; dsimp only
    split
    · next k u v p below h =>
      right
      have hraise : load (St.say { s with stack := below } (.raised .runtimeError)) < load s := by
        unfold load; rw [h]; simp [St.say, work]
      unfold turn
      split
      · exact hraise
      · next hu =>
        split
        · exact load_next _ _ _ _ _ _ _ h fun hx => by
            have := (List.getElem?_eq_some_iff.1 (Option.ne_none_iff_exists'.1 hx).choose_spec).1
            omega
        · split
          · exact hraise
          · exact load_next _ _ _ _ _ _ _ h fun hx => absurd rfl hx
          · exact load_next _ _ _ _ _ _ _ h fun hx => by
              split at hx
              · assumption
              · exact absurd rfl hx
    · exact .inl rfl

/-- C101: from any moment, if the receivers just return from now on, all calls come to an end, in a number of steps that is known
beforehand. -/
theorem comes_to_rest (s : St) :
    ∃ is : List Input, (∀ i ∈ is, i = .ret ∨ i = .go none) ∧ (exec s is).stack = [] ∧ is.length ≤ load s := by
  generalize hn : load s = n
  induction n using Nat.strongRecOn generalizing s with
  | _ n ih =>
    have go : ∀ i : Input, (i = .ret ∨ i = .go none) → step s i ≠ s →
        ∃ is : List Input, (∀ i ∈ is, i = .ret ∨ i = .go none) ∧ (exec s is).stack = [] ∧ is.length ≤ n := by
      intro i hi hne
      have hlt : load (step s i) < load s := (load_lt s i (by rcases hi with rfl | rfl <;> simp)).resolve_left hne
      obtain ⟨is, h1, h2, h3⟩ := ih _ (hn ▸ hlt) (step s i) rfl
      refine ⟨i :: is, fun j hj => ?_, h2, by simp; omega⟩
      rcases List.mem_cons.1 hj with rfl | hj
      · exact hi
      · exact h1 j hj
    have ne : ∀ (f : Frame) (l : List Frame), l ≠ f :: l := fun f l h => by simpa using congrArg List.length h
    match hs : s.stack with
    | [] => exact ⟨[], by simp, hs, by simp⟩
    | .code :: below =>
      refine go .ret (.inl rfl) fun h => ?_
      have := congrArg St.stack h
      unfold step at this
      simp only [hs] at this
      exact ne _ _ this
    | .loop k u v p :: below =>
      refine go (.go none) (.inr rfl) fun h => ?_
      have := congrArg load h
      have hlt : load (step s (.go none)) < load s := by
        unfold step
        simp only [hs]
        have hraise : load (St.say { s with stack := below } (.raised .runtimeError)) < load s := by
          unfold load; rw [hs]; simp [St.say, work]
        unfold turn
        split
        · exact hraise
        · next hu =>
          split
          · exact load_next _ _ _ _ _ _ _ hs fun hx => by
              have := (List.getElem?_eq_some_iff.1 (Option.ne_none_iff_exists'.1 hx).choose_spec).1
              omega
          · exact hraise
      omega

/-- Receivers that just return. -/
def Quiet (is : List Input) : Prop := ∀ i ∈ is, i = .ret ∨ ∃ c, i = .go c

theorem quiet_done {s : St} (h : s.stack = []) {is : List Input} (hq : Quiet is) : exec s is = s := by
  induction is with
  | nil => rfl
  | cons i is ih =>
    have : step s i = s := by
      rcases hq i (by simp) with rfl | ⟨c, rfl⟩ <;> simp [step, h]
    show exec (step s i) is = s
    rw [this]
    exact ih fun j hj => hq j (by simp [hj])

theorem quiet_code {s : St} (h : s.stack = [.code]) {is : List Input} (hq : Quiet is) (hend : (exec s is).stack = []) :
    exec s is = { s with stack := [] } := by
  induction is with
  | nil => change s.stack = [] at hend; rw [h] at hend; cases hend
  | cons i is ih =>
    have hq' : Quiet is := fun j hj => hq j (by simp [hj])
    rcases hq i (by simp) with rfl | ⟨c, rfl⟩
    · show exec (step s .ret) is = _
      have : step s .ret = { s with stack := [] } := by simp [step, h]
      rw [this]
      exact quiet_done rfl hq'
    · have : step s (.go c) = s := by simp [step, h]
      show exec (step s (.go c)) is = _
      rw [this]
      apply ih hq'
      change (exec (step s (.go c)) is).stack = [] at hend
      rwa [this] at hend

/-- What a loop does for one route, by itself. -/
def turnEv (k : Option Nat) (heap : List Route) (rid : Nat) : List Ev :=
  match k with
  | none => if isConnected heap rid then [.start rid true] else []
  | some reason =>
    match heap[rid]? with
    | none => []
    | some ro => [.stop rid ro.receiver reason]

theorem visit_eq (s : St) (k : Option Nat) (rid : Nat) :
    visit s k rid = { s with stack := (if turnEv k s.heap rid = [] then [] else [.code]) ++ s.stack
                             log := s.log ++ turnEv k s.heap rid } := by
  unfold visit turnEv
  cases k with
  | none => dsimp only; split <;> simp [St.say]
  | some r => dsimp only; cases s.heap[rid]? <;> simp [St.say]

theorem quiet_loop {k : Option Nat} {v : Nat} {is : List Input} (hq : Quiet is) :
    ∀ {s : St} {pos : Nat}, (s.stack = [.loop k s.table.length v pos] ∨ s.stack = [.code, .loop k s.table.length v pos]) →
      s.version = v → (exec s is).stack = [] →
      exec s is = finish { s with stack := [], log := s.log ++ (s.table.drop pos).flatMap fun p => turnEv k s.heap p.2 } k := by
  induction is with
  | nil => intro s pos h _ hend; change s.stack = [] at hend; rcases h with h | h <;> rw [h] at hend <;> cases hend
  | cons i is ih =>
    intro s pos h hv hend
    have hq' : Quiet is := fun j hj => hq j (by simp [hj])
    show exec (step s i) is = _
    change (exec (step s i) is).stack = [] at hend
    rcases h with h | h
    · rcases hq i (by simp) with rfl | ⟨c, rfl⟩
      · have : step s .ret = s := by simp [step, h]
        rw [this] at hend ⊢
        exact ih hq' (.inl h) hv hend
      · cases hx : s.table[pos]? with
        | none =>
          have : step s (.go c) = finish { s with stack := [] } k := by
            simp [step, h, turn, hv, next, hx]
          have hd : s.table.drop pos = [] := List.drop_eq_nil_iff.2 (List.getElem?_eq_none_iff.1 hx)
          rw [this, quiet_done (by unfold finish; split <;> rfl) hq', hd]
          simp
        | some item =>
          have : step s (.go c) = visit { s with stack := [.loop k s.table.length v (pos + 1)] } k item.2 := by
            simp [step, h, turn, hv, next, hx]
          rw [this, visit_eq] at hend ⊢
          have hd : s.table.drop pos = item :: s.table.drop (pos + 1) := by
            obtain ⟨h1, h2⟩ := List.getElem?_eq_some_iff.1 hx
            rw [← h2]; exact List.drop_eq_getElem_cons h1
          generalize hev : turnEv k _ item.2 = ev at hend ⊢
          have := ih (s := { s with stack := (if ev = [] then [] else [.code]) ++ [.loop k s.table.length v (pos + 1)],
                                    log := s.log ++ ev }) (pos := pos + 1) hq' (by dsimp only; cases ev <;> simp) hv hend
          rw [this, hd]
          simp [List.flatMap_cons, ← hev]
    · rcases hq i (by simp) with rfl | ⟨c, rfl⟩
      · have : step s .ret = { s with stack := [.loop k s.table.length v pos] } := by simp [step, h]
        rw [this] at hend ⊢
        exact ih (pos := pos) hq' (.inl rfl) hv hend
      · have : step s (.go c) = s := by simp [step, h]
        rw [this] at hend ⊢
        exact ih hq' (.inr h) hv hend

/-- The router as the sequential model (`Model/Router.lean`) has it. -/
def abs (s : St) : Router where
  sender := s.sender
  unstarted := if s.unstarted then some s.table else none
  routes := if s.routes then some s.table else none
  counter := s.counter
  heap := s.heap

/-- The calls to receivers and to the sender. -/
def Ev.call : Ev → Option Event
  | .start rid _ => some (.start rid)
  | .stop _ rcv reason => some (.stop rcv reason)
  | .deliver rcv box => some (.deliver rcv box)
  | .send box => some (.send box)
  | _ => none

/-- The route an operation is on exists. -/
def OnRoute (heap : List Route) : Op → Prop
  | .connect rid _ | .unbind rid | .send rid _ => rid < heap.length
  | _ => True

/-- C101: with receivers that just return, every operation does what it does in the sequential model, of which C07 to C11 are
proved. -/
theorem quiet_refines (before is : List Input) (o : Op) (hs : (exec {} before).stack = []) (hq : Quiet is)
    (ho : OnRoute (exec {} before).heap o) (hend : (exec (step (exec {} before) (.op o)) is).stack = []) :
    let s := exec {} before
    let s' := exec (step s (.op o)) is
    abs s' = (Router.step (abs s) o).1 ∧
    ∃ new, s'.log = s.log ++ new ∧ new.filterMap Ev.call = (Router.step (abs s) o).2.1 ∧
      ∀ e, .raised e ∈ new ↔ (Router.step (abs s) o).2.2 = .raised e := by
  have hinv := Inv.new.exec before
  generalize exec {} before = s at *
  have hexcl : s.routes = true → s.unstarted = false := by
    intro hr
    cases hu : s.unstarted with
    | false => rfl
    | true =>
      have h1 := (hinv.routes.1 hr).1
      have h2 := List.count_eq_zero.2 (hinv.unstarted.1 hu)
      omega
  have ec : ∀ a b : PyErr, (a = b ↔ b = a) := fun a b => eq_comm
  have hst : step s (.op o) = perform s o := by simp [step, hs]
  dsimp only
  rw [hst] at hend ⊢
  have hdone : ∀ {t : St}, t = perform s o → t.stack = [] → exec (perform s o) is = t := by
    intro t ht h; rw [← ht]; exact quiet_done h hq
  cases o with
  | newId =>
    rw [hdone (t := { s with counter := s.counter + 1 }) rfl hs]
    exact ⟨rfl, [], (List.append_nil _).symm, rfl, by simp [Router.step]⟩
  | bind rcv n =>
    rw [hdone rfl (by cases n <;> (simp only [perform, bind]; split <;> exact hs))]
    cases hr : s.routes with
    | true =>
      have := hexcl hr
      cases n <;> simp [perform, bind, hr, this, abs, St.say, Router.step, bindRoute, createRouteIdentifier, Ev.call, ec]
    | false =>
      cases hu : s.unstarted <;> cases n <;>
        simp [perform, bind, hr, hu, abs, St.say, Router.step, bindRoute, createRouteIdentifier, Ev.call, ec]
  | connect rid n =>
    obtain ⟨ro, hro⟩ : ∃ ro, s.heap[rid]? = some ro := ⟨s.heap[rid]'ho, List.getElem?_eq_getElem ho⟩
    cases hsd : s.sender with
    | false =>
      rw [hdone rfl (by simp [perform, connect, hro, hsd, St.say, hs])]
      simp [perform, connect, hro, hsd, abs, St.say, Router.step, connectTo, Ev.call, retUnit, List.filterMap_cons]
    | true =>
      rw [quiet_code (by simp [perform, connect, hro, hsd, St.say, hs]) hq hend]
      simp [perform, connect, hro, hsd, abs, St.say, Router.step, connectTo, Ev.call, retUnit, List.filterMap_cons]
  | unbind rid =>
    obtain ⟨ro, hro⟩ : ∃ ro, s.heap[rid]? = some ro := ⟨s.heap[rid]'ho, List.getElem?_eq_getElem ho⟩
    rw [hdone rfl (by simp only [perform, unbind, hro]; split <;> (try split) <;> exact hs)]
    cases hr : s.routes with
    | true =>
      have := hexcl hr
      by_cases hh : Dict.has s.table ro.localName = true <;>
        simp [perform, unbind, hro, hr, hh, this, abs, St.say, Router.step, Router.unbind, Ev.call, retUnit, ec]
    | false => simp [perform, unbind, hro, hr, abs, St.say, Router.step, Router.unbind, Ev.call, retUnit, ec]
  | receive box =>
    cases hr : s.routes with
    | false =>
      rw [hdone rfl (by simp [perform, receive, hr, St.say, hs])]
      simp [perform, receive, hr, abs, St.say, Router.step, ampBoxReceived, Ev.call, retUnit, ec]
    | true =>
      cases hg : Dict.get? s.table (Dict.get? box ROUTE) with
      | none =>
        rw [hdone rfl (by simp [perform, receive, hr, hg, St.say, hs])]
        simp [perform, receive, hr, hg, abs, St.say, Router.step, ampBoxReceived, Ev.call, retUnit, ec]
      | some rid =>
        obtain ⟨ro, hro, _⟩ := hinv.held _ _ hg
        rw [quiet_code (by simp [perform, receive, hr, hg, hro, St.say, hs]) hq hend]
        simp [perform, receive, hr, hg, hro, abs, St.say, Router.step, ampBoxReceived, Ev.call, retUnit, ec]
  | send rid box =>
    obtain ⟨ro, hro⟩ : ∃ ro, s.heap[rid]? = some ro := ⟨s.heap[rid]'ho, List.getElem?_eq_getElem ho⟩
    rw [hdone rfl (by simp only [perform, send, hro]; split <;> (try split) <;> exact hs)]
    cases hrem : ro.remote with
    | unspecified => simp [perform, send, hro, hrem, abs, St.say, Router.step, sendBox, Ev.call, retUnit, ec]
    | «to» n =>
      cases hsd : s.sender <;> cases n <;>
        simp [perform, send, hro, hrem, hsd, abs, St.say, Router.step, sendBox, Ev.call, retUnit, ec]
  | start =>
    have hcalls : ∀ l : List (RName × Nat), (l.flatMap fun p => turnEv none s.heap p.2).filterMap Ev.call =
        (l.filter fun p => isConnected s.heap p.2).map fun p => .start p.2 := by
      intro l
      induction l with
      | nil => rfl
      | cons a l ih =>
        rw [List.flatMap_cons, List.filterMap_append, ih]
        unfold turnEv
        by_cases hc : isConnected s.heap a.2 = true <;> simp [hc, Ev.call]
    have hraise : ∀ e, Ev.raised e ∉ s.table.flatMap fun p => turnEv none s.heap p.2 := by
      intro e he
      obtain ⟨p, _, hp⟩ := List.mem_flatMap.1 he
      unfold turnEv at hp
      dsimp only at hp
      split at hp <;> simp at hp
    cases hu : s.unstarted with
    | false =>
      rw [hdone rfl (by simp [perform, begin, hu, St.say, hs])]
      simp [perform, begin, hu, abs, St.say, Router.step, startReceivingBoxes, Ev.call, retUnit, ec]
    | true =>
      rw [quiet_loop (k := none) (v := s.version) (pos := 0) hq (.inl (by simp [perform, begin, hu, St.say, hs]))
        (by simp [perform, begin, hu, St.say]) hend]
      simp [perform, begin, finish, hu, abs, St.say, Router.step, startReceivingBoxes, Ev.call, retUnit, ec, hcalls, hraise,
        List.filterMap_append, List.filterMap_cons]
  | stop reason =>
    have hcalls : ∀ l : List (RName × Nat), (l.flatMap fun p => turnEv (some reason) s.heap p.2).filterMap Ev.call =
        l.filterMap fun p => (s.heap[p.2]?).map fun ro => .stop ro.receiver reason := by
      intro l
      induction l with
      | nil => rfl
      | cons a l ih =>
        rw [List.flatMap_cons, List.filterMap_append, ih]
        unfold turnEv
        cases hc : s.heap[a.2]? <;> simp [hc, Ev.call]
    have hraise : ∀ e, Ev.raised e ∉ s.table.flatMap fun p => turnEv (some reason) s.heap p.2 := by
      intro e he
      obtain ⟨p, _, hp⟩ := List.mem_flatMap.1 he
      unfold turnEv at hp
      dsimp only at hp
      split at hp <;> simp at hp
    cases hr : s.routes with
    | false =>
      rw [hdone rfl (by simp [perform, stop, hr, St.say, hs])]
      simp [perform, stop, hr, abs, St.say, Router.step, stopReceivingBoxes, Ev.call, retUnit, ec]
    | true =>
      have hu := hexcl hr
      rw [quiet_loop (k := some reason) (v := s.version) (pos := 0) hq (.inl (by simp [perform, stop, hr, St.say, hs]))
        (by simp [perform, stop, hr, St.say]) hend]
      simp [perform, stop, finish, hr, hu, abs, St.say, Router.step, stopReceivingBoxes, Ev.call, retUnit, ec, hcalls, hraise,
        List.filterMap_append, List.filterMap_cons]

/-! ## What goes wrong -/

/-- A receiver that unbinds its route when it is told of the stop. -/
def unbinding : List Input :=
  [.op (.bind 7 (some (some [97]))), .op (.bind 8 (some (some [98]))), .op .start, .go none, .go none, .go none,
   .op (.stop 5), .go none, .op (.unbind 0), .ret, .go none]

/-- C101 fails, first: a receiver that unbinds its route when it is told of the stop makes the router's stop raise, and the
receivers after it are not told; the router goes on running, and boxes are still delivered. -/
theorem unbind_in_stop_fails :
    let s := exec {} unbinding
    s.stack = [] ∧ s.log.getLast? = some (.raised .runtimeError) ∧ .stop 0 7 5 ∈ s.log ∧ .stop 1 8 5 ∉ s.log ∧ .stopped ∉ s.log ∧
    (step s (.op (.receive [(ROUTE, [98])]))).log.getLast? = some (.deliver 8 []) := by decide +kernel

/-- A receiver that binds another route when it is started. -/
def binding : List Input :=
  [.op (.bind 7 (some (some [97]))), .op (.connect 0 (some [120])), .op (.bind 8 (some (some [98]))),
   .op (.connect 1 (some [121])), .op .start, .go none, .op (.bind 9 none), .ret, .go none]

/-- C101 fails, second: a receiver that binds another route when it is started makes the router's start raise; the routes after it
are not started, and boxes that are received afterwards raise. -/
theorem bind_in_start_fails :
    let s := exec {} binding
    s.stack = [] ∧ s.log.getLast? = some (.raised .runtimeError) ∧ .start 0 true ∈ s.log ∧ .start 1 true ∉ s.log ∧
    .running ∉ s.log ∧ (step s (.op (.receive [(ROUTE, [97])]))).log.getLast? = some (.raised .typeError) := by decide +kernel

/-- C101 fails, third: a route that a receiver connects while the router is being started is started twice. -/
theorem connect_in_start_fails :
    let s := exec {} [.op (.bind 7 (some (some [97]))), .op (.connect 0 (some [120])), .op (.bind 8 (some (some [98]))),
      .op .start, .go none, .op (.connect 1 (some [121])), .ret, .ret, .go none, .ret, .go none]
    s.stack = [] ∧ .running ∈ s.log ∧ s.log.count (.start 1 false) = 1 ∧ s.log.count (.start 1 true) = 1 := by decide +kernel

/-- C101 fails, fourth: a box that a receiver is sent while the router is being started (its peer may answer at once) is not
delivered. -/
theorem receive_in_start_fails :
    let s := exec {} [.op (.bind 7 (some (some [97]))), .op (.connect 0 (some [120])), .op .start, .go none, .op (.send 0 []),
      .op (.receive [(ROUTE, [97])])]
    s.stack ≠ [] ∧ .send [(ROUTE, [120])] ∈ s.log ∧ s.log.getLast? = some (.raised .typeError) := by decide +kernel

/-- C101 fails, fifth: a receiver that starts the router when it is started itself leaves it unable to deliver. -/
theorem nested_start_fails :
    let s := exec {} [.op (.bind 7 (some (some [97]))), .op (.connect 0 (some [120])), .op .start, .go none, .op .start, .go none,
      .ret, .go none, .ret, .go none]
    s.stack = [] ∧ s.log.count .running = 2 ∧ s.log.count (.start 0 true) = 2 ∧
    (step s (.op (.receive [(ROUTE, [97])]))).log.getLast? = some (.raised .typeError) := by decide +kernel

/-- C101 fails, sixth: a receiver that exchanges its route for another when it is stopped keeps the number of routes, but CPython
finds after the last route that the keys have changed: the router's stop raises and the router goes on delivering, to the new route. -/
theorem swap_in_stop_fails :
    let s := exec {} [.op (.bind 7 (some (some [97]))), .op (.connect 0 (some [120])), .op .start, .go none, .ret, .go none,
      .op (.stop 5), .go none, .op (.unbind 0), .op (.bind 8 (some (some [98]))), .ret, .go none]
    s.stack = [] ∧ .stop 0 7 5 ∈ s.log ∧ s.log.getLast? = some (.raised .runtimeError) ∧ .stopped ∉ s.log ∧
    (step s (.op (.receive [(ROUTE, [98])]))).log.getLast? = some (.deliver 8 []) := by decide +kernel

/-! ## Cases -/

theorem during_of_take {s0 s : St} {is : List Input}
    (h : ∀ n, n ≤ is.length → s0.stack.length < (exec s (is.take n)).stack.length) : During s0 s is :=
  fun pre hp => by rw [List.prefix_iff_eq_take.1 hp]; exact h _ hp.length_le

/-- Two routes are connected, a third is not. -/
def setup : List Input :=
  [.op (.bind 7 (some (some [97]))), .op (.connect 0 (some [120])), .op (.bind 8 (some (some [98]))), .op (.connect 1 none),
   .op (.bind 9 none)]

/-- The first receiver sends a box, connects its route anew, is started again by that, and takes over the third route's name. -/
def busy : List Input :=
  [.go none, .op (.send 0 []), .op (.connect 0 (some [122])), .op (.send 0 []), .ret, .op (.bind 7 (some (some [48]))), .ret,
   .go none, .ret, .go none]

/-- The start is met with all the hypotheses of `start_tells_partial`, and comes to its end. -/
example :
    let s0 := exec {} setup
    let s1 := step s0 (.op .start)
    Idle s0 ∧ .running ∉ s0.log ∧ During s0 s1 busy ∧ (step (exec s1 busy) (.go none)).stack = [] ∧
    (step (exec s1 busy) (.go none)).log = (exec s1 busy).log ++ [.running] ∧
    (exec s1 busy).log = s1.log ++ [.start 0 true, .send [(ROUTE, [120])], .connected 0, .start 0 false, .send [(ROUTE, [122])],
      .bound 3 7 (some [48]), .start 1 true] := by
  refine ⟨?_, by decide +kernel, during_of_take (by decide +kernel), by decide +kernel, by decide +kernel, by decide +kernel⟩
  intro k u v p below h
  rw [show (exec {} setup).stack = [] by decide +kernel] at h
  cases h

/-- The stop, with a receiver that sends a box and passes one to another receiver when it is told. -/
def busyStop : List Input :=
  [.go none, .op (.send 0 []), .op (.receive [(ROUTE, [98])]), .ret, .ret, .go none, .ret, .go none, .ret]

/-- The running router of the example for the stop. -/
def started : List Input := setup ++ .op .start :: (busy ++ [.go none])

/-- The stop is met with all the hypotheses of `stop_tells_partial`, and comes to its end. -/
example :
    let s0 := exec {} started
    let s1 := step s0 (.op (.stop 5))
    Idle s0 ∧ Running s0.log ∧ During s0 s1 busyStop ∧ (step (exec s1 busyStop) (.go none)).stack = [] ∧
    (step (exec s1 busyStop) (.go none)).log = (exec s1 busyStop).log ++ [.stopped] ∧
    (exec s1 busyStop).log = s1.log ++ [.stop 0 7 5, .send [(ROUTE, [122])], .deliver 8 [], .stop 1 8 5, .stop 3 7 5] := by
  refine ⟨?_, ⟨by decide +kernel, by decide +kernel⟩, during_of_take (by decide +kernel), by decide +kernel, by decide +kernel,
    by decide +kernel⟩
  intro k u v p below h
  rw [show (exec {} started).stack = [] by decide +kernel] at h
  cases h

/-- A case of `quiet_refines`: the start. -/
example : (exec {} setup).stack = [] ∧ Quiet [.go none, .ret, .go none, .ret, .go none, .go none] ∧
    (exec (step (exec {} setup) (.op .start)) [.go none, .ret, .go none, .ret, .go none, .go none]).stack = [] ∧
    (Router.step (abs (exec {} setup)) .start).2.1 = [.start 0, .start 1] := by
  refine ⟨by decide +kernel, ?_, by decide +kernel, by decide +kernel⟩
  intro i hi
  simp at hi
  rcases hi with rfl | rfl | rfl | rfl | rfl <;> simp

/-- In the middle of the start, with a receiver's code inside another's. -/
example : load (exec {} (setup ++ [.op .start, .go none, .op (.connect 0 none)])) = 7 := by decide +kernel

end Verif.Router.Reentry
