import Verif.Model.RouterReentry
/-!
# The specification for C101, and the invariant of the router under re-entrant receivers
-/
namespace Verif.Router.Reentry
open Verif.Py

/-- Who holds which name, according to the history: route and receiver. -/
structure Bindings where
  name : Nat → Option RName
  table : RName → Option (Nat × Nat)

def Bindings.after (b : Bindings) : Ev → Bindings
  | .bound rid rcv n =>
    ⟨fun r => if r = rid then some n else b.name r, fun m => if m = n then some (rid, rcv) else b.table m⟩
  | .unbound rid => ⟨b.name, fun m => if b.name rid = some m then none else b.table m⟩
  | _ => b

def bindings (log : List Ev) : Bindings := log.foldl Bindings.after ⟨fun _ => none, fun _ => none⟩

/-- A router is running if just one start has returned, and no stop. -/
def Running (log : List Ev) : Prop := log.count .running = 1 ∧ .stopped ∉ log

instance (log : List Ev) : Decidable (Running log) := by unfold Running; infer_instance

/-- Not in the middle of one of the router's loops: some code is running, outside the router. -/
def Idle (s : St) : Prop := ∀ k u v p below, s.stack ≠ .loop k u v p :: below

/-- A start is of a connected route, of a router that was started; the router's own starts are of bound routes, and it stops bound
ones. -/
def Justified (pre : List Ev) : Ev → Prop
  | .start rid b => .began ∈ pre ∧ .connected rid ∈ pre ∧ (b = true → ∃ n rcv, (bindings pre).table n = some (rid, rcv))
  | .stop rid rcv reason => .stopping reason ∈ pre ∧ .running ∈ pre ∧ ∃ n, (bindings pre).table n = some (rid, rcv)
  | _ => True

structure Inv (s : St) : Prop where
  wf : Dict.WF s.table
  held : ∀ n rid, Dict.get? s.table n = some rid → ∃ ro, s.heap[rid]? = some ro ∧ ro.localName = n
  name : ∀ rid, (bindings s.log).name rid = s.heap[rid]?.map Route.localName
  table : ∀ n, (bindings s.log).table n = (Dict.get? s.table n).bind fun rid => s.heap[rid]?.map fun ro => (rid, ro.receiver)
  routes : s.routes = true ↔ Running s.log
  unstarted : s.unstarted = true ↔ .running ∉ s.log
  sender : s.sender = true ↔ .began ∈ s.log
  conn : ∀ rid, isConnected s.heap rid = true ↔ .connected rid ∈ s.log
  stopped : .stopped ∈ s.log → .running ∈ s.log
  starting : ∀ u v p, .loop none u v p ∈ s.stack → .began ∈ s.log
  stopping : ∀ r u v p, .loop (some r) u v p ∈ s.stack → .running ∈ s.log ∧ .stopping r ∈ s.log
  justified : ∀ pre e post, s.log = pre ++ e :: post → Justified pre e

theorem bindings_append (l : List Ev) (e : Ev) : bindings (l ++ [e]) = (bindings l).after e := by
  simp [bindings]

theorem justified_append {l : List Ev} {x : Ev} (h : ∀ pre e post, l = pre ++ e :: post → Justified pre e) (hx : Justified l x) :
    ∀ pre e post, l ++ [x] = pre ++ e :: post → Justified pre e := by
  intro pre e post he
  rcases List.eq_nil_or_concat post with rfl | ⟨post', y, rfl⟩
  · have := List.append_inj' he rfl
    obtain ⟨rfl, h2⟩ := this
    cases h2; exact hx
  · rw [List.concat_eq_append, ← List.cons_append, ← List.append_assoc] at he
    have := List.append_inj' he rfl
    exact h pre e post' this.1

/-- An event that concerns neither names nor the state of the router. -/
def Ev.plain : Ev → Bool
  | .stopping _ | .start .. | .stop .. | .deliver .. | .send _ | .failed _ | .raised _ => true
  | _ => false

theorem Ev.plain_after {e : Ev} (h : e.plain = true) (b : Bindings) : b.after e = b := by
  cases e <;> first | rfl | simp [Ev.plain] at h

theorem running_append {l : List Ev} {e : Ev} (h1 : e ≠ .running) (h2 : e ≠ .stopped) : Running (l ++ [e]) ↔ Running l := by
  simp [Running, List.count_append, List.count_cons, h1, h2.symm]

theorem Inv.new : Inv {} where
  wf := Dict.WF.nil
  held := fun _ _ h => by cases h
  name := fun _ => rfl
  table := fun _ => rfl
  routes := by decide
  unstarted := by decide
  sender := by decide
  conn := fun rid => by simp [isConnected]
  stopped := fun h => by cases h
  starting := fun _ _ _ h => by cases h
  stopping := fun _ _ _ _ h => by cases h
  justified := fun pre e post h => by simp at h

theorem Inv.say {s : St} (h : Inv s) {e : Ev} (hp : e.plain = true) (hj : Justified s.log e) : Inv (s.say e) where
  wf := h.wf
  held := h.held
  name := fun rid => by
    show (bindings (s.log ++ [e])).name rid = _
    rw [bindings_append, Ev.plain_after hp]; exact h.name rid
  table := fun n => by
    show (bindings (s.log ++ [e])).table n = _
    rw [bindings_append, Ev.plain_after hp]; exact h.table n
  routes := by
    show s.routes = true ↔ Running (s.log ++ [e])
    rw [running_append (by rintro rfl; cases hp) (by rintro rfl; cases hp)]; exact h.routes
  unstarted := by
    show s.unstarted = true ↔ _ ∉ s.log ++ [e]
    rw [h.unstarted]; cases e <;> simp_all [Ev.plain]
  sender := by
    show s.sender = true ↔ _ ∈ s.log ++ [e]
    rw [h.sender]; cases e <;> simp_all [Ev.plain]
  conn := fun rid => by
    show isConnected s.heap rid = true ↔ _ ∈ s.log ++ [e]
    rw [h.conn]; cases e <;> simp_all [Ev.plain]
  stopped := by
    show _ ∈ s.log ++ [e] → _ ∈ s.log ++ [e]
    have := h.stopped
    cases e <;> simp_all [Ev.plain]
  starting := fun u v p hm => List.mem_append_left _ (h.starting u v p hm)
  stopping := fun r u v p hm => ⟨List.mem_append_left _ (h.stopping r u v p hm).1, List.mem_append_left _ (h.stopping r u v p hm).2⟩
  justified := justified_append h.justified hj

theorem Inv.stack {s : St} (h : Inv s) {st : List Frame} (hs : ∀ k u v p, Frame.loop k u v p ∈ st → ∃ u v p, Frame.loop k u v p ∈ s.stack) :
    Inv { s with stack := st } where
  wf := h.wf
  held := h.held
  name := h.name
  table := h.table
  routes := h.routes
  unstarted := h.unstarted
  sender := h.sender
  conn := h.conn
  stopped := h.stopped
  starting := fun u v p hm => by
    obtain ⟨u, v, p, hm⟩ := hs none u v p hm
    exact h.starting u v p hm
  stopping := fun r u v p hm => by
    obtain ⟨u, v, p, hm⟩ := hs (some r) u v p hm
    exact h.stopping r u v p hm
  justified := h.justified

theorem Inv.pushCode {s : St} (h : Inv s) : Inv { s with stack := .code :: s.stack } :=
  h.stack fun k u v p hm => by
    rcases List.mem_cons.1 hm with h | h
    · cases h
    · exact ⟨u, v, p, h⟩

theorem Inv.counter {s : St} (h : Inv s) (c : Nat) : Inv { s with counter := c } := { h with }

theorem Inv.bind' {s : St} (h : Inv s) (rcv : Nat) (n : RName) (v : Nat) :
    Inv (St.say { s with
      heap := s.heap ++ [⟨rcv, n, .unspecified⟩]
      table := Dict.set s.table n s.heap.length
      version := v } (.bound s.heap.length rcv n)) where
  wf := h.wf.set _ _
  held := by
    intro m rid hm
    change Dict.get? (Dict.set s.table n s.heap.length) m = some rid at hm
    show ∃ ro, (s.heap ++ [_])[rid]? = some ro ∧ ro.localName = m
    rw [Dict.get?_set] at hm
    split at hm
    · next e => cases hm; subst e; exact ⟨⟨rcv, n, .unspecified⟩, by simp, rfl⟩
    · obtain ⟨ro, h1, h2⟩ := h.held m rid hm
      exact ⟨ro, by rw [List.getElem?_append_left (List.getElem?_eq_some_iff.1 h1).1]; exact h1, h2⟩
  name := fun rid => by
    show (bindings (s.log ++ [_])).name rid = ((s.heap ++ [_])[rid]?).map _
    rw [bindings_append]
    show (if rid = s.heap.length then some n else (bindings s.log).name rid) = _
    split
    · next e => subst e; simp
    · next hne =>
      rw [h.name]
      rcases Nat.lt_or_gt_of_ne hne with hlt | hgt
      · rw [List.getElem?_append_left hlt]
      · rw [List.getElem?_eq_none (by omega), List.getElem?_eq_none (by simp; omega)]
  table := fun m => by
    show (bindings (s.log ++ [_])).table m = (Dict.get? (Dict.set s.table n s.heap.length) m).bind fun rid => ((s.heap ++ [_])[rid]?).map _
    rw [bindings_append, Dict.get?_set]
    show (if m = n then some (s.heap.length, rcv) else (bindings s.log).table m) = _
    by_cases e : m = n
    · subst e; simp
    · rw [if_neg e, if_neg (fun h => e h.symm), h.table]
      cases hg : Dict.get? s.table m with
      | none => rfl
      | some rid =>
        obtain ⟨ro, h1, _⟩ := h.held m rid hg
        simp only [Option.bind_some]
        rw [List.getElem?_append_left (List.getElem?_eq_some_iff.1 h1).1]
  routes := by
    show s.routes = true ↔ Running (s.log ++ [_])
    rw [running_append (by simp) (by simp)]; exact h.routes
  unstarted := by
    show s.unstarted = true ↔ _ ∉ s.log ++ [_]
    rw [h.unstarted]; simp
  sender := by
    show s.sender = true ↔ _ ∈ s.log ++ [_]
    rw [h.sender]; simp
  conn := fun rid => by
    show isConnected (s.heap ++ [_]) rid = true ↔ _ ∈ s.log ++ [_]
    rw [List.mem_append, List.mem_singleton, or_iff_left (by simp), ← h.conn]
    unfold isConnected
    rcases Nat.lt_trichotomy rid s.heap.length with hlt | rfl | hgt
    · rw [List.getElem?_append_left hlt]
    · simp
    · rw [List.getElem?_eq_none (l := s.heap) (by omega), List.getElem?_eq_none (by simp; omega)]
  stopped := by
    show _ ∈ s.log ++ [_] → _ ∈ s.log ++ [_]
    have := h.stopped
    simp_all
  starting := fun u v p hm => List.mem_append_left _ (h.starting u v p hm)
  stopping := fun r u v p hm => ⟨List.mem_append_left _ (h.stopping r u v p hm).1, List.mem_append_left _ (h.stopping r u v p hm).2⟩
  justified := justified_append h.justified trivial

theorem Inv.bind {s : St} (h : Inv s) (rcv : Nat) (n : Option RName) : Inv (bind s rcv n) := by
  unfold Reentry.bind
  cases n with
  | none =>
    dsimp only
    split
    · exact (h.counter (s.counter + 1)).bind' rcv (some (natStr s.counter)) _
    · exact (h.counter _).say rfl trivial
  | some n =>
    dsimp only
    split
    · exact h.bind' _ _ _
    · exact h.say rfl trivial

theorem isConnected_set {heap : List Route} {rid : Nat} {ro : Route} (hr : heap[rid]? = some ro) (n : RName) (r : Nat) :
    isConnected (heap.set rid { ro with remote := .to n }) r = (decide (r = rid) || isConnected heap r) := by
  unfold isConnected
  rw [List.getElem?_set]
  by_cases e : rid = r
  · subst e
    have := (List.getElem?_eq_some_iff.1 hr).1
    simp [this]
  · simp [e, Ne.symm e]

theorem getElem?_set_map {β : Type} {heap : List Route} {rid : Nat} {ro : Route} (hr : heap[rid]? = some ro) (n : RName) (r : Nat)
    (f : Route → β) (hf : ∀ ro : Route, f { ro with remote := .to n } = f ro) :
    (heap.set rid { ro with remote := .to n })[r]?.map f = heap[r]?.map f := by
  rw [List.getElem?_set]
  by_cases e : rid = r
  · subst e
    have := (List.getElem?_eq_some_iff.1 hr).1
    rw [hr]; simp [this, hf]
  · simp [e]

theorem Inv.connect {s : St} (h : Inv s) (rid : Nat) (n : RName) : Inv (connect s rid n) := by
  unfold Reentry.connect
  cases hr : s.heap[rid]? with
  | none => exact h
  | some ro =>
    dsimp only
    have hi : Inv (St.say { s with heap := s.heap.set rid { ro with remote := .to n } } (.connected rid)) := {
      wf := h.wf
      held := by
        intro m r hm
        obtain ⟨x, h1, h2⟩ := h.held m r hm
        have := getElem?_set_map hr n r Route.localName (fun _ => rfl)
        rw [h1] at this
        obtain ⟨y, hy, hy'⟩ := Option.map_eq_some_iff.1 this
        exact ⟨y, hy, by rw [hy', h2]⟩
      name := fun r => by
        show (bindings (s.log ++ [_])).name r = ((s.heap.set _ _)[r]?).map _
        rw [bindings_append, getElem?_set_map hr n r Route.localName (fun _ => rfl)]
        exact h.name r
      table := fun m => by
        show (bindings (s.log ++ [_])).table m = (Dict.get? s.table m).bind fun r => ((s.heap.set _ _)[r]?).map _
        rw [bindings_append]
        refine (h.table m).trans ?_
        congr 1
        funext r
        rw [getElem?_set_map hr n r (fun ro => (r, ro.receiver)) (fun _ => rfl)]
      routes := by
        show s.routes = true ↔ Running (s.log ++ [_])
        rw [running_append (by simp) (by simp)]; exact h.routes
      unstarted := by
        show s.unstarted = true ↔ _ ∉ s.log ++ [_]
        rw [h.unstarted]; simp
      sender := by
        show s.sender = true ↔ _ ∈ s.log ++ [_]
        rw [h.sender]; simp
      conn := fun r => by
        show isConnected (s.heap.set _ _) r = true ↔ _ ∈ s.log ++ [_]
        rw [isConnected_set hr, Bool.or_eq_true, h.conn]
        simp [or_comm]
      stopped := by
        show _ ∈ s.log ++ [_] → _ ∈ s.log ++ [_]
        have := h.stopped
        simp_all
      starting := fun u v p hm => List.mem_append_left _ (h.starting u v p hm)
      stopping := fun r u v p hm => ⟨List.mem_append_left _ (h.stopping r u v p hm).1, List.mem_append_left _ (h.stopping r u v p hm).2⟩
      justified := justified_append h.justified trivial }
    split
    · next hs =>
      refine hi.pushCode.say rfl ⟨?_, ?_, fun h => by cases h⟩
      · exact hi.sender.1 hs
      · exact List.mem_append_right _ (List.mem_singleton.2 rfl)
    · exact hi

theorem Inv.unbind {s : St} (h : Inv s) (rid : Nat) : Inv (unbind s rid) := by
  unfold Reentry.unbind
  cases hr : s.heap[rid]? with
  | none => exact h
  | some ro =>
    dsimp only
    split
    · split
      · exact {
          wf := h.wf.erase _
          held := by
            intro m r hm
            change Dict.get? (Dict.erase s.table ro.localName) m = some r at hm
            by_cases e : ro.localName = m
            · subst e; rw [Dict.get?_erase_same h.wf] at hm; cases hm
            · rw [Dict.get?_erase_other _ _ _ e] at hm
              exact h.held m r hm
          name := fun r => by
            show (bindings (s.log ++ [_])).name r = _
            rw [bindings_append]; exact h.name r
          table := fun m => by
            show (bindings (s.log ++ [_])).table m = (Dict.get? (Dict.erase s.table ro.localName) m).bind _
            rw [bindings_append]
            show (if (bindings s.log).name rid = some m then none else (bindings s.log).table m) = _
            rw [h.name, hr]
            by_cases e : ro.localName = m
            · subst e; simp [Dict.get?_erase_same h.wf]
            · rw [Dict.get?_erase_other _ _ _ e, if_neg (by simpa using e)]
              exact h.table m
          routes := by
            show s.routes = true ↔ Running (s.log ++ [_])
            rw [running_append (by simp) (by simp)]; exact h.routes
          unstarted := by
            show s.unstarted = true ↔ _ ∉ s.log ++ [_]
            rw [h.unstarted]; simp
          sender := by
            show s.sender = true ↔ _ ∈ s.log ++ [_]
            rw [h.sender]; simp
          conn := fun r => by
            show isConnected s.heap r = true ↔ _ ∈ s.log ++ [_]
            rw [h.conn]; simp
          stopped := by
            show _ ∈ s.log ++ [_] → _ ∈ s.log ++ [_]
            have := h.stopped
            simp_all
          starting := fun u v p hm => List.mem_append_left _ (h.starting u v p hm)
          stopping := fun r u v p hm =>
            ⟨List.mem_append_left _ (h.stopping r u v p hm).1, List.mem_append_left _ (h.stopping r u v p hm).2⟩
          justified := justified_append h.justified trivial }
      · exact h.say rfl trivial
    · exact h.say rfl trivial

theorem Inv.begin {s : St} (h : Inv s) : Inv (begin s) := by
  have hi : Inv (St.say { s with sender := true } .began) := {
    wf := h.wf
    held := h.held
    name := fun r => by
      show (bindings (s.log ++ [_])).name r = _
      rw [bindings_append]; exact h.name r
    table := fun m => by
      show (bindings (s.log ++ [_])).table m = _
      rw [bindings_append]; exact h.table m
    routes := by
      show s.routes = true ↔ Running (s.log ++ [_])
      rw [running_append (by simp) (by simp)]; exact h.routes
    unstarted := by
      show s.unstarted = true ↔ _ ∉ s.log ++ [_]
      rw [h.unstarted]; simp
    sender := by
      show true = true ↔ _ ∈ s.log ++ [_]
      simp
    conn := fun r => by
      show isConnected s.heap r = true ↔ _ ∈ s.log ++ [_]
      rw [h.conn]; simp
    stopped := by
      show _ ∈ s.log ++ [_] → _ ∈ s.log ++ [_]
      have := h.stopped
      simp_all
    starting := fun u v p hm => List.mem_append_left _ (h.starting u v p hm)
    stopping := fun r u v p hm => ⟨List.mem_append_left _ (h.stopping r u v p hm).1, List.mem_append_left _ (h.stopping r u v p hm).2⟩
    justified := justified_append h.justified trivial }
  unfold Reentry.begin
  dsimp only
  split
  · exact { hi with
      starting := fun u v p hm => hi.sender.1 rfl
      stopping := fun r u v p hm => by
        rcases List.mem_cons.1 hm with h | h
        · cases h
        · exact hi.stopping r u v p h }
  · exact hi.say rfl trivial

theorem Inv.stop {s : St} (h : Inv s) (reason : Nat) : Inv (stop s reason) := by
  unfold Reentry.stop
  split
  · next hr =>
    have hi : Inv (s.say (.stopping reason)) := h.say rfl trivial
    exact { hi with
      starting := fun u v p hm => by
        rcases List.mem_cons.1 hm with h | h
        · cases h
        · exact hi.starting u v p h
      stopping := fun r u v p hm => by
        rcases List.mem_cons.1 hm with e | e
        · cases e
          refine ⟨List.mem_append_left _ (List.one_le_count_iff.1 ?_), List.mem_append_right _ (List.mem_singleton.2 rfl)⟩
          exact Nat.le_of_eq (h.routes.1 hr).1.symm
        · exact hi.stopping r u v p e }
  · exact h.say rfl trivial

theorem Inv.receive {s : St} (h : Inv s) (box : Box) : Inv (receive s box) := by
  unfold Reentry.receive
  split
  · split
    · exact h.say rfl trivial
    · split
      · exact h.say rfl trivial
      · exact h.pushCode.say rfl trivial
  · exact h.say rfl trivial

theorem Inv.send {s : St} (h : Inv s) (rid : Nat) (box : Box) : Inv (send s rid box) := by
  unfold Reentry.send
  split
  · exact h
  · split
    · exact h.say rfl trivial
    · split
      · exact h.say rfl trivial
      · exact h.say rfl trivial

theorem Inv.perform {s : St} (h : Inv s) (o : Op) : Inv (perform s o) := by
  cases o with
  | newId => exact h.counter _
  | bind rcv n => exact h.bind rcv n
  | connect rid n => exact h.connect rid n
  | unbind rid => exact h.unbind rid
  | start => exact h.begin
  | receive box => exact h.receive box
  | stop r => exact h.stop r
  | send rid box => exact h.send rid box

theorem Inv.visit {s : St} (h : Inv s) {k : Option Nat} {n : RName} {rid : Nat} (hm : (n, rid) ∈ s.table)
    (hk : ∃ u v p, .loop k u v p ∈ s.stack) : Inv (visit s k rid) := by
  have hg := Dict.get?_of_mem h.wf hm
  obtain ⟨ro, hro, _⟩ := h.held n rid hg
  have ht : (bindings s.log).table n = some (rid, ro.receiver) := by rw [h.table, hg]; simp [hro]
  obtain ⟨u, v, p, hk⟩ := hk
  unfold Reentry.visit
  cases k with
  | none =>
    dsimp only
    split
    · next hc => exact h.pushCode.say rfl ⟨h.starting u v p hk, (h.conn rid).1 hc, fun _ => ⟨n, _, ht⟩⟩
    · exact h
  | some r =>
    dsimp only
    rw [hro]
    exact h.pushCode.say rfl ⟨(h.stopping r u v p hk).2, (h.stopping r u v p hk).1, n, ht⟩

theorem Inv.finish {s : St} (h : Inv s) {k : Option Nat} (hk : k = none ∨ .running ∈ s.log) : Inv (finish s k) := by
  unfold Reentry.finish
  cases k with
  | none =>
    exact {
      wf := h.wf
      held := h.held
      name := fun r => by
        show (bindings (s.log ++ [_])).name r = _
        rw [bindings_append]; exact h.name r
      table := fun m => by
        show (bindings (s.log ++ [_])).table m = _
        rw [bindings_append]; exact h.table m
      routes := by
        show s.unstarted = true ↔ Running (s.log ++ [_])
        rw [h.unstarted]
        have := h.stopped
        simp only [Running, List.count_append, List.count_singleton_self, List.mem_append, List.mem_singleton]
        rw [← List.count_eq_zero]
        constructor
        · intro hc
          refine ⟨by omega, ?_⟩
          rintro (hs | hs)
          · exact List.count_eq_zero.1 hc (this hs)
          · cases hs
        · intro hc; omega
      unstarted := by
        show false = true ↔ _ ∉ s.log ++ [_]
        simp
      sender := by
        show s.sender = true ↔ _ ∈ s.log ++ [_]
        rw [h.sender]; simp
      conn := fun r => by
        show isConnected s.heap r = true ↔ _ ∈ s.log ++ [_]
        rw [h.conn]; simp
      stopped := fun _ => by
        show _ ∈ s.log ++ [_]
        simp
      starting := fun u v p hm => List.mem_append_left _ (h.starting u v p hm)
      stopping := fun r u v p hm => ⟨List.mem_append_left _ (h.stopping r u v p hm).1, List.mem_append_left _ (h.stopping r u v p hm).2⟩
      justified := justified_append h.justified trivial }
  | some r =>
    have hr : Ev.running ∈ s.log := hk.resolve_left (by simp)
    exact {
      wf := h.wf
      held := h.held
      name := fun r => by
        show (bindings (s.log ++ [_])).name r = _
        rw [bindings_append]; exact h.name r
      table := fun m => by
        show (bindings (s.log ++ [_])).table m = _
        rw [bindings_append]; exact h.table m
      routes := by
        show false = true ↔ Running (s.log ++ [_])
        simp [Running]
      unstarted := by
        show s.unstarted = true ↔ _ ∉ s.log ++ [_]
        rw [h.unstarted]; simp
      sender := by
        show s.sender = true ↔ _ ∈ s.log ++ [_]
        rw [h.sender]; simp
      conn := fun r => by
        show isConnected s.heap r = true ↔ _ ∈ s.log ++ [_]
        rw [h.conn]; simp
      stopped := fun _ => List.mem_append_left _ hr
      starting := fun u v p hm => List.mem_append_left _ (h.starting u v p hm)
      stopping := fun r u v p hm => ⟨List.mem_append_left _ (h.stopping r u v p hm).1, List.mem_append_left _ (h.stopping r u v p hm).2⟩
      justified := justified_append h.justified trivial }

theorem Inv.turn {s : St} (h : Inv s) {c k u v p below} (hs : s.stack = .loop k u v p :: below) : Inv (turn s c k u v p below) := by
  have hb : Inv { s with stack := below } := h.stack fun k u v p hm => ⟨u, v, p, by rw [hs]; exact List.mem_cons_of_mem _ hm⟩
  have hb' : Inv { s with stack := .loop k u v (p + 1) :: below } := h.stack fun k' u' v' p' hm => by
    rcases List.mem_cons.1 hm with e | e
    · cases e; exact ⟨u, v, p, by rw [hs]; exact List.mem_cons_self ..⟩
    · exact ⟨u', v', p', by rw [hs]; exact List.mem_cons_of_mem _ e⟩
  have hfin : Inv (Reentry.finish { s with stack := below } k) := hb.finish (by
    cases k with
    | none => exact .inl rfl
    | some r => exact .inr (h.stopping r u v p (by rw [hs]; exact List.mem_cons_self ..)).1)
  have hnext : ∀ j : Nat, Inv (Reentry.next s k u v p below s.table[j]?) := by
    intro j
    cases he : s.table[j]? with
    | none => exact hfin
    | some x => exact hb'.visit (n := x.1) (rid := x.2) (List.mem_of_getElem? he) ⟨u, v, p + 1, List.mem_cons_self ..⟩
  unfold Reentry.turn
  split
  · exact hb.say rfl trivial
  · split
    · exact hnext p
    · split
      · exact hb.say rfl trivial
      · exact hfin
      · split
        · exact hnext _
        · exact hfin

theorem Inv.step {s : St} (h : Inv s) (i : Input) : Inv (step s i) := by
  unfold Reentry.step
  split
  · split
    · exact h
    · exact h.perform _
  · split
    · next hs => exact h.stack fun k u v p hm => ⟨u, v, p, by rw [hs]; exact List.mem_cons_of_mem _ hm⟩
    · exact h
  · split
    · next hs =>
      have : Inv _ := h.stack (st := _) fun k u v p hm => ⟨u, v, p, by rw [hs]; exact List.mem_cons_of_mem _ (List.mem_cons_of_mem _ hm)⟩
      exact (this.say (e := .failed _) rfl trivial).say rfl trivial
    · next hs =>
      have : Inv _ := h.stack (st := _) fun k u v p hm => ⟨u, v, p, by rw [hs]; exact List.mem_cons_of_mem _ hm⟩
      exact (this.say (e := .failed _) rfl trivial).say rfl trivial
    · exact h
  · split
    · next hs => exact h.turn hs
    · exact h

theorem Inv.exec {s : St} (h : Inv s) (is : List Input) : Inv (exec s is) := by
  induction is generalizing s with
  | nil => exact h
  | cons i is ih => exact ih (h.step i)

end Verif.Router.Reentry
