import Verif.Model.Router
import Mathlib.Tactic.ByContra
import Mathlib.Data.List.Basic
/-!
# C36–C40 — routing

The specification looks only at the externally visible history (operations, returned values, exceptions):
`Spec.names` lists the local names of the routes created so far, `Spec.table` says which receiver is
currently bound to a name, `Spec.phase` whether the router is running.
-/
namespace Verif.Router
open Verif.Py

/-! ## Specification -/

inductive Phase where
  | fresh | running | stopped
  deriving DecidableEq, Repr

structure Spec where
  phase : Phase
  /-- local name of each route created, in order -/
  names : List RName
  /-- receiver bound to a name -/
  table : RName → Option Nat

def Spec.init : Spec := ⟨.fresh, [], fun _ => none⟩

def update {α β : Type} [DecidableEq α] (f : α → β) (a : α) (b : β) : α → β := fun x => if x = a then b else f x

/-- Effect of one history line on the specification: a successful bind makes the receiver *the* receiver
of the name; a successful unbind frees the route's name; start and stop change the phase. -/
def Spec.next (s : Spec) : Op → Ret → Spec
  | .bind rcv _, .route _ name => { s with names := s.names ++ [name], table := update s.table name (some rcv) }
  | .unbind rid, .unit =>
    match s.names[rid]? with
    | some n => { s with table := update s.table n none }
    | none => s
  | .start, .unit => { s with phase := .running }
  | .stop _, .unit => { s with phase := .stopped }
  | _, _ => s

def Spec.ofLog (log : List Entry) : Spec := log.foldl (fun s e => s.next e.op e.ret) Spec.init

/-! ## The invariant -/

/-- The route table in use. -/
def Router.active (r : Router) : Option (Dict RName Nat) :=
  match r.routes with
  | some m => some m
  | none => r.unstarted

structure Inv (r : Router) (s : Spec) : Prop where
  phase : match s.phase with
    | .fresh => r.routes = none ∧ r.unstarted ≠ none ∧ r.sender = false
    | .running => r.routes ≠ none ∧ r.unstarted = none ∧ r.sender = true
    | .stopped => r.routes = none ∧ r.unstarted = none ∧ r.sender = true
  names : r.heap.map Route.localName = s.names
  wf : ∀ m, r.active = some m → Dict.WF m
  rids : ∀ m, r.active = some m → ∀ n rid, Dict.get? m n = some rid →
    (r.heap[rid]?).map Route.localName = some n
  table : ∀ m, r.active = some m → ∀ n,
    (Dict.get? m n).bind (fun rid => (r.heap[rid]?).map Route.receiver) = s.table n

theorem inv_init : Inv Router.new Spec.init := by
  constructor
  · exact ⟨rfl, by simp [Router.new], rfl⟩
  · rfl
  · intro m h; cases h; exact Dict.WF.nil
  · intro m h n rid hg; cases h; simp at hg
  · intro m h n; cases h; rfl

theorem getElem?_append_one {α : Type} (l : List α) (a b : α) (i : Nat) (h : l[i]? = some b) :
    (l ++ [a])[i]? = some b := by
  have : i < l.length := by
    by_contra hge; rw [List.getElem?_eq_none_iff.2 (by omega)] at h; cases h
  rw [List.getElem?_append_left this]; exact h

/-- Adding a route keeps the table part of the invariant. -/
theorem inv_bind_table (heap : List Route) (m : Dict RName Nat) (tbl : RName → Option Nat) (rcv : Nat)
    (name : RName) (hwf : Dict.WF m)
    (hrid : ∀ n rid, Dict.get? m n = some rid → (heap[rid]?).map Route.localName = some n)
    (ht : ∀ n, (Dict.get? m n).bind (fun rid => (heap[rid]?).map Route.receiver) = tbl n) :
    Dict.WF (Dict.set m name heap.length) ∧
    (∀ n rid, Dict.get? (Dict.set m name heap.length) n = some rid →
      ((heap ++ [⟨rcv, name, .unspecified⟩])[rid]?).map Route.localName = some n) ∧
    (∀ n, (Dict.get? (Dict.set m name heap.length) n).bind
      (fun rid => ((heap ++ [⟨rcv, name, .unspecified⟩])[rid]?).map Route.receiver) =
        update tbl name (some rcv) n) := by
  refine ⟨hwf.set _ _, ?_, ?_⟩
  · intro n rid hg
    rw [Dict.get?_set] at hg
    split at hg
    · rename_i e; subst e; cases hg; simp
    · have := hrid n rid hg
      cases hh : heap[rid]? with
      | none => rw [hh] at this; cases this
      | some ro => rw [getElem?_append_one _ _ _ _ hh]; rw [hh] at this; exact this
  · intro n
    rw [Dict.get?_set]
    unfold update
    by_cases e : name = n
    · subst e; simp
    · have e' : ¬ n = name := fun x => e x.symm
      rw [if_neg e, if_neg e', ← ht n]
      cases hg : Dict.get? m n with
      | none => rfl
      | some rid =>
        have := hrid n rid hg
        cases hh : heap[rid]? with
        | none => rw [hh] at this; cases this
        | some ro => simp only [Option.bind_some, getElem?_append_one _ _ _ _ hh, hh]

/-- Changing a route's remote name keeps local names and receivers. -/
theorem set_remote (heap : List Route) (rid : Nat) (route : Route) (rem : Remote) (h : heap[rid]? = some route) :
    ∀ i : Nat, ((heap.set rid { route with remote := rem })[i]?).map Route.localName = (heap[i]?).map Route.localName ∧
      ((heap.set rid { route with remote := rem })[i]?).map Route.receiver = (heap[i]?).map Route.receiver := by
  intro i
  rw [List.getElem?_set]
  by_cases e : rid = i
  · subst e
    have : rid < heap.length := by
      by_contra hge; rw [List.getElem?_eq_none_iff.2 (by omega)] at h; cases h
    simp [this, h]
    have e : heap[rid] = route := Option.some.inj (by rw [← List.getElem?_eq_getElem this]; exact h)
    rw [e]; exact ⟨rfl, rfl⟩
  · simp [e]

theorem map_localName_set (heap : List Route) (rid : Nat) (route : Route) (rem : Remote)
    (h : heap[rid]? = some route) :
    (heap.set rid { route with remote := rem }).map Route.localName = heap.map Route.localName := by
  apply List.ext_getElem?
  intro i
  rw [List.getElem?_map, List.getElem?_map]
  exact (set_remote heap rid route rem h i).1

theorem inv_step (r : Router) (s : Spec) (h : Inv r s) (op : Op) :
    Inv (step r op).1 (s.next op (step r op).2.2) := by
  obtain ⟨hp, hn, hwf, hr, ht⟩ := h
  cases op with
  | newId =>
    exact ⟨hp, hn, hwf, hr, ht⟩
  | bind rcv name =>
    have key : ∀ (r : Router) (nm : RName), (match s.phase with
        | .fresh => r.routes = none ∧ r.unstarted ≠ none ∧ r.sender = false
        | .running => r.routes ≠ none ∧ r.unstarted = none ∧ r.sender = true
        | .stopped => r.routes = none ∧ r.unstarted = none ∧ r.sender = true) →
        r.heap.map Route.localName = s.names →
        (∀ m, r.active = some m → Dict.WF m) →
        (∀ m, r.active = some m → ∀ n rid, Dict.get? m n = some rid →
          (r.heap[rid]?).map Route.localName = some n) →
        (∀ m, r.active = some m → ∀ n,
          (Dict.get? m n).bind (fun rid => (r.heap[rid]?).map Route.receiver) = s.table n) →
        Inv (step r (.bind rcv (some nm))).1 (s.next (.bind rcv (some nm)) (step r (.bind rcv (some nm))).2.2) := by
      intro r nm hp hn hwf hr ht
      simp only [step, bindRoute]
      cases hro : r.routes with
      | some m =>
        have ha : r.active = some m := by simp [Router.active, hro]
        obtain ⟨h1, h2, h3⟩ := inv_bind_table r.heap m s.table rcv nm (hwf m ha) (hr m ha) (ht m ha)
        refine ⟨?_, ?_, ?_, ?_, ?_⟩
        · revert hp; simp only [Spec.next]
          cases s.phase <;> simp [hro]
        · simp [Spec.next, hn]
        · intro m' hm'; simp only [Router.active, Option.some.injEq] at hm'; subst hm'; exact h1
        · intro m' hm'; simp only [Router.active, Option.some.injEq] at hm'; subst hm'; exact h2
        · intro m' hm'; simp only [Router.active, Option.some.injEq] at hm'; subst hm'; exact h3
      | none =>
        cases hu : r.unstarted with
        | some m =>
          have ha : r.active = some m := by simp [Router.active, hro, hu]
          obtain ⟨h1, h2, h3⟩ := inv_bind_table r.heap m s.table rcv nm (hwf m ha) (hr m ha) (ht m ha)
          refine ⟨?_, ?_, ?_, ?_, ?_⟩
          · revert hp; simp only [Spec.next]
            cases s.phase <;> simp [hro, hu]
          · simp [Spec.next, hn]
          · intro m' hm'; simp only [Router.active, hro, Option.some.injEq] at hm'; subst hm'; exact h1
          · intro m' hm'; simp only [Router.active, hro, Option.some.injEq] at hm'; subst hm'; exact h2
          · intro m' hm'; simp only [Router.active, hro, Option.some.injEq] at hm'; subst hm'; exact h3
        | none => exact ⟨hp, hn, hwf, hr, ht⟩
    cases name with
    | some nm => exact key r nm hp hn hwf hr ht
    | none =>
      have := key (createRouteIdentifier r).1 (some (createRouteIdentifier r).2) hp hn hwf hr ht
      have e : step r (.bind rcv none) = step (createRouteIdentifier r).1
          (.bind rcv (some (some (createRouteIdentifier r).2))) := rfl
      rw [e]
      generalize step (createRouteIdentifier r).1
          (.bind rcv (some (some (createRouteIdentifier r).2))) = st at *
      obtain ⟨r', es, ret⟩ := st
      cases ret <;> exact this
  | connect rid n =>
    simp only [step, connectTo]
    cases hh : r.heap[rid]? with
    | none => exact ⟨hp, hn, hwf, hr, ht⟩
    | some route =>
      have hs := set_remote r.heap rid route (.to n) hh
      refine ⟨hp, ?_, hwf, ?_, ?_⟩
      · simp only [Spec.next, retUnit]
        rw [map_localName_set _ _ _ _ hh]; exact hn
      · intro m hm n' rid' hg
        rw [(hs rid').1]; exact hr m hm n' rid' hg
      · intro m hm n'
        have := ht m hm n'
        simp only [Spec.next, retUnit]
        rw [← this]
        congr 1
        funext rid'
        exact (hs rid').2
  | unbind rid =>
    simp only [step, unbind]
    cases hh : r.heap[rid]? with
    | none => exact ⟨hp, hn, hwf, hr, ht⟩
    | some route =>
      cases hro : r.routes with
      | none => exact ⟨hp, hn, hwf, hr, ht⟩
      | some m =>
        simp only []
        split
        · have ha : r.active = some m := by simp [Router.active, hro]
          have hsn : s.names[rid]? = some route.localName := by
            rw [← hn, List.getElem?_map, hh]; rfl
          simp only [Spec.next, retUnit, hsn]
          refine ⟨?_, hn, ?_, ?_, ?_⟩
          · revert hp; simp only []
            cases s.phase <;> simp [hro]
          · intro m' hm'; simp only [Router.active, Option.some.injEq] at hm'; subst hm'
            exact (hwf m ha).erase _
          · intro m' hm' n rid' hg; simp only [Router.active, Option.some.injEq] at hm'; subst hm'
            by_cases e : route.localName = n
            · subst e; rw [Dict.get?_erase_same (hwf m ha)] at hg; cases hg
            · rw [Dict.get?_erase_other _ _ _ e] at hg; exact hr m ha n rid' hg
          · intro m' hm' n; simp only [Router.active, Option.some.injEq] at hm'; subst hm'
            simp only [update]
            by_cases e : route.localName = n
            · subst e; rw [Dict.get?_erase_same (hwf m ha)]; simp
            · rw [Dict.get?_erase_other _ _ _ e, if_neg (fun x => e (Eq.symm x))]; exact ht m ha n
        · exact ⟨hp, hn, hwf, hr, ht⟩
  | start =>
    simp only [step, startReceivingBoxes]
    cases hu : r.unstarted with
    | none =>
      have hact : ∀ m, ({ r with sender := true, unstarted := none } : Router).active = some m →
          r.active = some m := by
        intro m hm; simpa [Router.active, hu] using hm
      refine ⟨?_, hn, fun m hm => hwf m (hact m hm), fun m hm => hr m (hact m hm),
        fun m hm => ht m (hact m hm)⟩
      revert hp; simp only [Spec.next, retUnit]
      cases s.phase <;> simp [hu] <;> intro h _ <;> exact h
    | some m =>
      have hro : r.routes = none := by
        revert hp; cases s.phase <;> simp [hu]
        intro h _; exact h
      have ha : r.active = some m := by simp [Router.active, hro, hu]
      refine ⟨?_, hn, ?_, ?_, ?_⟩
      · simp [Spec.next, retUnit]
      · intro m' hm'; simp only [Router.active, Option.some.injEq] at hm'; subst hm'; exact hwf _ ha
      · intro m' hm'; simp only [Router.active, Option.some.injEq] at hm'; subst hm'; exact hr _ ha
      · intro m' hm'; simp only [Router.active, Option.some.injEq] at hm'; subst hm'; exact ht _ ha
  | receive box =>
    have : (step r (.receive box)).1 = r := by
      simp only [step, ampBoxReceived]
      split
      · rfl
      · split
        · rfl
        · split <;> rfl
    rw [this]
    have : s.next (.receive box) (step r (.receive box)).2.2 = s := by simp [Spec.next]
    rw [this]; exact ⟨hp, hn, hwf, hr, ht⟩
  | stop reason =>
    simp only [step, stopReceivingBoxes]
    cases hro : r.routes with
    | none => exact ⟨hp, hn, hwf, hr, ht⟩
    | some m =>
      have hu : r.unstarted = none ∧ r.sender = true := by
        revert hp; cases s.phase <;> simp [hro]
      refine ⟨?_, hn, ?_, ?_, ?_⟩
      · simp [Spec.next, retUnit, hu]
      all_goals
        intro m' hm'
        simp only [Router.active, hu.1] at hm'
        cases hm'
  | send rid box =>
    have : (step r (.send rid box)).1 = r := by
      simp only [step, sendBox]
      split
      · rfl
      · split
        · rfl
        · split <;> rfl
    rw [this]
    have : s.next (.send rid box) (step r (.send rid box)).2.2 = s := by simp [Spec.next]
    rw [this]; exact ⟨hp, hn, hwf, hr, ht⟩

theorem inv_run (ops : List Op) (r : Router) (s : Spec) (h : Inv r s) :
    Inv (run r ops).1 ((run r ops).2.foldl (fun s e => s.next e.op e.ret) s) := by
  induction ops generalizing r s with
  | nil => exact h
  | cons op ops ih =>
    simp only [run, List.foldl_cons]
    exact ih _ _ (inv_step r s h op)

theorem inv_reachable (ops : List Op) :
    Inv (run Router.new ops).1 (Spec.ofLog (run Router.new ops).2) := inv_run ops _ _ inv_init

/-! ## C36 -/

/-- **C36.** After any history at all, a received box is delivered — with its route key removed and
otherwise unchanged — to exactly the receiver that the history left bound to its route name (`None` for a
box without one); with no such receiver nothing sees it and `KeyError` is raised; a router that is not
running raises `TypeError` and delivers nothing.  The router state is not changed by delivery. -/
theorem router_delivery (ops : List Op) (box : Box) :
    let r := (run Router.new ops).1
    let s := Spec.ofLog (run Router.new ops).2
    ampBoxReceived r box =
      (r, match s.phase with
        | .running =>
          match s.table (Dict.get? box ROUTE) with
          | some rcv => ([.deliver rcv (Dict.erase box ROUTE)], .ok ())
          | none => ([], .error .keyError)
        | _ => ([], .error .typeError)) := by
  simp only
  obtain ⟨hp, hn, hwf, hr, ht⟩ := inv_reachable ops
  generalize (run Router.new ops).1 = r at *
  generalize Spec.ofLog (run Router.new ops).2 = s at *
  unfold ampBoxReceived
  cases hph : s.phase with
  | fresh => rw [hph] at hp; simp [hp.1]
  | stopped => rw [hph] at hp; simp [hp.1]
  | running =>
    rw [hph] at hp
    simp only at hp
    cases hro : r.routes with
    | none => exact absurd hro hp.1
    | some m =>
      have ha : r.active = some m := by simp [Router.active, hro]
      have h1 := ht m ha (Dict.get? box ROUTE)
      have h2 := hr m ha (Dict.get? box ROUTE)
      simp only []
      rw [← h1]
      cases hg : Dict.get? m (Dict.get? box ROUTE) with
      | none => rfl
      | some rid =>
        have h3 := h2 rid hg
        cases hh : r.heap[rid]? with
        | none => rw [hh] at h3; cases h3
        | some ro => simp [hh]

/-- **C36 (finding).** Unbinding a route whose name has since been given to another receiver silently
disconnects that other receiver. -/
theorem unbind_after_rebind_fails :
    let ops := [Op.start, .bind 1 (some (some [97])), .bind 2 (some (some [97])), .unbind 0]
    (Spec.ofLog (run Router.new ops).2).table (some [97]) = none ∧
    (ampBoxReceived (run Router.new ops).1 [(ROUTE, [97])]).2 = ([], .error .keyError) := by
  decide

/-! ## C37 -/

theorem erase_set_absent (box : Box) (v : Str) (h : ROUTE ∉ Dict.keys box) :
    Dict.erase (Dict.set box ROUTE v) ROUTE = box := by
  rw [Dict.set_of_not_mem v h]
  induction box with
  | nil => simp [Dict.erase]
  | cons p d ih =>
    obtain ⟨k, w⟩ := p
    simp only [Dict.keys, List.map_cons, List.mem_cons, not_or] at h
    have : ¬ k = ROUTE := fun e => h.1 e.symm
    simp only [List.cons_append, Dict.erase, if_neg this]
    rw [ih h.2]

theorem erase_absent (box : Box) (h : ROUTE ∉ Dict.keys box) : Dict.erase box ROUTE = box := by
  induction box with
  | nil => rfl
  | cons p d ih =>
    obtain ⟨k, w⟩ := p
    simp only [Dict.keys, List.map_cons, List.mem_cons, not_or] at h
    have : ¬ k = ROUTE := fun e => h.1 e.symm
    simp only [Dict.erase, if_neg this]
    rw [ih h.2]

/-- **C37.** End to end: on a started router `a` with a route connected to the remote name `n`, sending a
box (which must not itself use the reserved key) hands one box to the transport; when the router at the
other end — reached by any history — receives it, its receiver bound to `n` gets exactly the original box. -/
theorem router_end_to_end (a : Router) (rid : Nat) (route : Route) (n : RName) (box : Box)
    (ha : a.sender = true) (hroute : a.heap[rid]? = some route) (hconn : route.remote = .to n)
    (hbox : ROUTE ∉ Dict.keys box)
    (ops : List Op) (hrun : (Spec.ofLog (run Router.new ops).2).phase = .running)
    (rcv : Nat) (hb : (Spec.ofLog (run Router.new ops).2).table n = some rcv) :
    ∃ wire, sendBox a rid box = (a, [.send wire], .ok ()) ∧
      ampBoxReceived (run Router.new ops).1 wire = ((run Router.new ops).1, [.deliver rcv box], .ok ()) := by
  have hd := fun w => router_delivery ops w
  simp only [hrun] at hd
  cases n with
  | none =>
    refine ⟨box, by simp [sendBox, hroute, hconn, ha], ?_⟩
    rw [hd, (Dict.get?_eq_none_iff box ROUTE).2 hbox, hb, erase_absent box hbox]
  | some s =>
    refine ⟨Dict.set box ROUTE s, by simp [sendBox, hroute, hconn, ha], ?_⟩
    rw [hd, Dict.get?_set_same, hb, erase_set_absent box s hbox]

/-- **C37.** A route that has not been connected raises `RouteNotConnected` and sends nothing. -/
theorem send_unconnected (a : Router) (rid : Nat) (route : Route) (box : Box)
    (hroute : a.heap[rid]? = some route) (hc : route.remote = .unspecified) :
    sendBox a rid box = (a, [], .error (.other "RouteNotConnected")) := by
  simp [sendBox, hroute, hc]

/-- The boxes that travel: what a list of sends hands to the transport. -/
def sentBoxes : List Event → List Box
  | [] => []
  | .send b :: es => b :: sentBoxes es
  | _ :: es => sentBoxes es

/-- What a given receiver got, in order. -/
def received (rcv : Nat) : List Event → List Box
  | [] => []
  | .deliver r b :: es => if r = rcv then b :: received rcv es else received rcv es
  | _ :: es => received rcv es

/-- Send a list of boxes through routes of `a`. -/
def sendAll (a : Router) : List (Nat × Box) → List Event
  | [] => []
  | (rid, box) :: l => (sendBox a rid box).2.1 ++ sendAll a l

/-- Receive a list of boxes at `b`. -/
def receiveAll (b : Router) : List Box → List Event
  | [] => []
  | box :: l => (ampBoxReceived b box).2.1 ++ receiveAll b l

/-- The remote name a route is connected to, if it is. -/
def remoteOf (a : Router) (rid : Nat) : Option RName :=
  (a.heap[rid]?).bind fun route => match route.remote with | .unspecified => none | .to n => some n

/-- **C37.** Multiplexing preserves order and separation: if boxes are sent through any mixture of
connected routes, each receiver at the other end gets exactly the boxes sent to its name, in order. -/
theorem router_multiplex (a : Router) (ha : a.sender = true)
    (sends : List (Nat × Box))
    (hs : ∀ p ∈ sends, ROUTE ∉ Dict.keys p.2 ∧ remoteOf a p.1 ≠ none)
    (ops : List Op) (hrun : (Spec.ofLog (run Router.new ops).2).phase = .running) (rcv : Nat) :
    received rcv (receiveAll (run Router.new ops).1 (sentBoxes (sendAll a sends))) =
      (sends.filter fun p =>
        (remoteOf a p.1).bind (Spec.ofLog (run Router.new ops).2).table == some rcv).map Prod.snd := by
  induction sends with
  | nil => rfl
  | cons p sends ih =>
    obtain ⟨rid, box⟩ := p
    obtain ⟨hbox, hrem⟩ := hs (rid, box) (by simp)
    have ih := ih (fun q hq => hs q (List.mem_cons_of_mem _ hq))
    have hd := fun w => router_delivery ops w
    simp only [hrun] at hd
    simp only at hrem hbox
    cases hn : remoteOf a rid with
    | none => exact absurd hn hrem
    | some n =>
    have hwire : ∃ wire, sendBox a rid box = (a, [.send wire], .ok ()) ∧
        Dict.get? wire ROUTE = n ∧ Dict.erase wire ROUTE = box := by
      unfold remoteOf at hn
      cases hroute : a.heap[rid]? with
      | none => simp [hroute] at hn
      | some route =>
        rcases hconn : route.remote with _ | n'
        · simp [hroute, hconn] at hn
        · simp [hroute, hconn] at hn
          subst hn
          cases n' with
          | none => exact ⟨box, by simp [sendBox, hroute, hconn, ha],
              (Dict.get?_eq_none_iff box ROUTE).2 hbox, erase_absent box hbox⟩
          | some s => exact ⟨Dict.set box ROUTE s, by simp [sendBox, hroute, hconn, ha],
              Dict.get?_set_same _ _ _, erase_set_absent box s hbox⟩
    obtain ⟨wire, hw1, hw2, hw3⟩ := hwire
    simp only [sendAll, hw1, List.cons_append, List.nil_append, sentBoxes, receiveAll, hd, hw2, hw3,
      List.filter_cons, hn, Option.bind_some]
    cases ht : (Spec.ofLog (run Router.new ops).2).table n with
    | none => simpa using ih
    | some rcv' =>
      by_cases e : rcv' = rcv
      · subst e; simp [received, ih]
      · simp [received, e, ih]

/-! ## C38 -/

/-- Number of times route `rid` was started (its receiver's `startReceivingBoxes` called). -/
def startCount (rid : Nat) (log : List Entry) : Nat :=
  (log.map fun e => e.events.count (.start rid)).sum

/-- Number of `connectTo` calls on route `rid`. -/
def connectCount (rid : Nat) (log : List Entry) : Nat :=
  (log.filter fun e => match e.op with | .connect i _ => i == rid | _ => false).length

/-- Number of routes bound before the router was started. -/
def boundBeforeStart : List Entry → Nat
  | [] => 0
  | e :: log =>
    match e.op, e.ret with
    | .start, .unit => 0
    | .bind _ _, .route _ _ => 1 + boundBeforeStart log
    | _, _ => boundBeforeStart log

/-- Before the router was started, another receiver took over the route's name. -/
def Displaced (log : List Entry) (rid : Nat) : Prop :=
  ∃ j, rid < j ∧ j < boundBeforeStart log ∧
    (Spec.ofLog log).names[j]? = (Spec.ofLog log).names[rid]? 

theorem run_append (ops₁ ops₂ : List Op) (r : Router) :
    run r (ops₁ ++ ops₂) =
      ((run (run r ops₁).1 ops₂).1, (run r ops₁).2 ++ (run (run r ops₁).1 ops₂).2) := by
  induction ops₁ generalizing r with
  | nil => rfl
  | cons op ops ih => simp only [List.cons_append, run, ih]

theorem ofLog_append (l₁ l₂ : List Entry) :
    Spec.ofLog (l₁ ++ l₂) = l₂.foldl (fun s e => s.next e.op e.ret) (Spec.ofLog l₁) := by
  simp [Spec.ofLog, List.foldl_append]

theorem startCount_append (rid : Nat) (l₁ l₂ : List Entry) :
    startCount rid (l₁ ++ l₂) = startCount rid l₁ + startCount rid l₂ := by
  simp [startCount, List.sum_append]

theorem startCount_single (rid : Nat) (op : Op) (ret : Ret) (evs : List Event) :
    startCount rid [⟨op, ret, evs⟩] = evs.count (.start rid) := by
  simp [startCount]

theorem connectCount_append (rid : Nat) (l₁ l₂ : List Entry) :
    connectCount rid (l₁ ++ l₂) = connectCount rid l₁ + connectCount rid l₂ := by
  simp [connectCount]

theorem count_start_filterMap (heap : List Route) (m : Dict RName Nat) (reason rid : Nat) :
    (m.filterMap (fun p => (heap[p.2]?).map fun ro => Event.stop ro.receiver reason)).count (.start rid) = 0 := by
  rw [List.count_eq_zero]
  intro h
  obtain ⟨p, -, hp⟩ := List.mem_filterMap.1 h
  cases hh : heap[p.2]? with
  | none => rw [hh] at hp; cases hp
  | some ro => rw [hh] at hp; cases hp

theorem count_start_map (l : List (RName × Nat)) (rid : Nat) :
    (l.map fun p => Event.start p.2).count (.start rid) = (l.map Prod.snd).count rid := by
  induction l with
  | nil => rfl
  | cons p l ih =>
    simp only [List.map_cons, List.count_cons, ih, beq_iff_eq, Event.start.injEq]

/-- In a table whose entries name their own keys, a route occurs at most once among the values. -/
theorem count_rid_le_one (heap : List Route) (m : Dict RName Nat) (hwf : Dict.WF m)
    (hr : ∀ n rid, Dict.get? m n = some rid → (heap[rid]?).map Route.localName = some n) (rid : Nat) :
    (m.map Prod.snd).count rid ≤ 1 := by
  induction m with
  | nil => simp
  | cons p d ih =>
    obtain ⟨k, v⟩ := p
    have hwf' : Dict.WF d := (List.nodup_cons.1 hwf).2
    have hk : k ∉ Dict.keys d := (List.nodup_cons.1 hwf).1
    have hr' : ∀ n rid, Dict.get? d n = some rid → (heap[rid]?).map Route.localName = some n := by
      intro n rid hg
      apply hr
      have : k ≠ n := by
        intro e; subst e
        rw [(Dict.get?_eq_none_iff d k).2 hk] at hg; cases hg
      simp only [Dict.get?, if_neg this]; exact hg
    have ih := ih hwf' hr'
    simp only [List.map_cons, List.count_cons, beq_iff_eq]
    split
    · rename_i e
      subst e
      have : (d.map Prod.snd).count v = 0 := by
        rw [List.count_eq_zero]
        intro hm
        obtain ⟨⟨k', v'⟩, hmem, rfl⟩ := List.mem_map.1 hm
        have h1 := Dict.get?_of_mem hwf' hmem
        have h2 := hr' k' v' h1
        have h3 := hr k v' (by simp [Dict.get?])
        rw [h2] at h3
        simp only [Option.some.injEq] at h3
        subst h3
        exact hk (List.mem_map.2 ⟨_, hmem, rfl⟩)
      omega
    · omega

/-- The invariant for C38, relating a history to the state it leads to. -/
structure StartInv (r : Router) (log : List Entry) : Prop where
  base : Inv r (Spec.ofLog log)
  hasStart : (∃ x ∈ log, x.op = .start ∧ x.ret = .unit) ↔ r.sender = true
  /-- nothing is started before the router is -/
  fresh : r.sender = false → ∀ rid, startCount rid log = 0
  /-- a route that is not connected has never been started -/
  unconnected : ∀ rid, isConnected r.heap rid = false → startCount rid log = 0
  upper : ∀ rid, startCount rid log ≤ connectCount rid log
  /-- connected routes have been connected -/
  connects : ∀ rid, isConnected r.heap rid = true → 1 ≤ connectCount rid log
  lower : ∀ rid, r.sender = true → isConnected r.heap rid = true → ¬ Displaced log rid → 1 ≤ startCount rid log
  /-- while fresh, all routes were bound before start, and the table holds the last route of each name -/
  bound : r.sender = false → boundBeforeStart log = r.heap.length
  started : boundBeforeStart log ≤ r.heap.length
  last : r.sender = false → ∀ m, r.active = some m → ∀ rid n, (r.heap[rid]?).map Route.localName = some n →
    (∀ j, rid < j → (r.heap[j]?).map Route.localName ≠ some n) → Dict.get? m n = some rid

theorem isConnected_append (heap : List Route) (rcv : Nat) (name : RName) (rid : Nat) :
    isConnected (heap ++ [⟨rcv, name, .unspecified⟩]) rid = isConnected heap rid := by
  unfold isConnected
  by_cases h : rid < heap.length
  · rw [List.getElem?_append_left h]
  · rw [List.getElem?_eq_none_iff.2 (by omega : heap.length ≤ rid)]
    by_cases e : rid = heap.length
    · subst e; simp
    · rw [List.getElem?_eq_none_iff.2 (by simp; omega)]

theorem isConnected_set (heap : List Route) (rid : Nat) (route : Route) (n : RName)
    (h : heap[rid]? = some route) (i : Nat) :
    isConnected (heap.set rid { route with remote := .to n }) i = (decide (i = rid) || isConnected heap i) := by
  have hlt : rid < heap.length := by
    by_contra hge; rw [List.getElem?_eq_none_iff.2 (by omega)] at h; cases h
  unfold isConnected
  rw [List.getElem?_set]
  by_cases e : rid = i
  · subst e; simp [hlt]
  · have : ¬ i = rid := fun x => e x.symm
    simp [e, this]

theorem boundBeforeStart_append_fresh (log : List Entry) (e : Entry)
    (h : ∀ x ∈ log, ¬ (x.op = .start ∧ x.ret = .unit)) :
    boundBeforeStart (log ++ [e]) = boundBeforeStart log + boundBeforeStart [e] := by
  induction log with
  | nil => simp [boundBeforeStart]
  | cons x log ih =>
    have ih := ih (fun y hy => h y (List.mem_cons_of_mem _ hy))
    have hx := h x (by simp)
    obtain ⟨op, ret, evs⟩ := x
    simp only [List.cons_append]
    cases op <;> cases ret <;> simp_all [boundBeforeStart] <;> omega

theorem boundBeforeStart_append_started (log : List Entry) (e : Entry)
    (h : ∃ x ∈ log, x.op = .start ∧ x.ret = .unit) :
    boundBeforeStart (log ++ [e]) = boundBeforeStart log := by
  induction log with
  | nil => simp at h
  | cons x log ih =>
    obtain ⟨op, ret, evs⟩ := x
    simp only [List.cons_append]
    by_cases hx : op = .start ∧ ret = .unit
    · obtain ⟨rfl, rfl⟩ := hx; rfl
    · have : ∃ x ∈ log, x.op = .start ∧ x.ret = .unit := by
        obtain ⟨y, hy, h1⟩ := h
        rcases List.mem_cons.1 hy with e | hy
        · subst e; exact absurd h1 hx
        · exact ⟨y, hy, h1⟩
      have ih := ih this
      cases op <;> cases ret <;> simp_all [boundBeforeStart]

theorem boundBeforeStart_single (e : Entry) : boundBeforeStart [e] ≤ 1 := by
  obtain ⟨op, ret, evs⟩ := e
  cases op <;> cases ret <;> simp [boundBeforeStart]

theorem connected_lt {heap : List Route} {rid : Nat} (h : isConnected heap rid = true) : rid < heap.length := by
  by_contra hge
  unfold isConnected at h
  rw [List.getElem?_eq_none_iff.2 (by omega)] at h
  cases h

theorem ofLog_names {r : Router} {log : List Entry} (h : Inv r (Spec.ofLog log)) (i : Nat) :
    (Spec.ofLog log).names[i]? = (r.heap[i]?).map Route.localName := by
  rw [← h.names, List.getElem?_map]

/-- A step that starts nothing and leaves the routes alone preserves the invariant. -/
theorem startInv_quiet {r r' : Router} {log : List Entry} {e : Entry} (h : StartInv r log)
    (hbase : Inv r' (Spec.ofLog (log ++ [e]))) (hheap : r'.heap = r.heap) (hsender : r'.sender = r.sender)
    (hev : ∀ rid, e.events.count (.start rid) = 0) (hb : boundBeforeStart [e] = 0)
    (hns : ¬ (e.op = .start ∧ e.ret = .unit)) (hact : r.sender = false → r'.active = r.active) :
    StartInv r' (log ++ [e]) := by
  have hsc : ∀ rid, startCount rid (log ++ [e]) = startCount rid log := by
    intro rid; rw [startCount_append]; simp [startCount, hev]
  have hbb : boundBeforeStart (log ++ [e]) = boundBeforeStart log := by
    by_cases hx : ∃ x ∈ log, x.op = .start ∧ x.ret = .unit
    · exact boundBeforeStart_append_started log e hx
    · rw [boundBeforeStart_append_fresh log e (fun x hx' h' => hx ⟨x, hx', h'⟩), hb, Nat.add_zero]
  have hcc : ∀ rid, connectCount rid log ≤ connectCount rid (log ++ [e]) := by
    intro rid; rw [connectCount_append]; omega
  have hdisp : ∀ rid, Displaced log rid → Displaced (log ++ [e]) rid := by
    intro rid ⟨j, h1, h2, h3⟩
    refine ⟨j, h1, by rw [hbb]; exact h2, ?_⟩
    rw [ofLog_names hbase, ofLog_names hbase, hheap, ← ofLog_names h.base, ← ofLog_names h.base]
    exact h3
  refine ⟨hbase, ?_, ?_, ?_, ?_, ?_, ?_, ?_, ?_, ?_⟩
  · rw [hsender, ← h.hasStart]
    constructor
    · rintro ⟨x, hx, hx'⟩
      rcases List.mem_append.1 hx with hx | hx
      · exact ⟨x, hx, hx'⟩
      · rw [List.mem_singleton] at hx; subst hx; exact absurd hx' hns
    · rintro ⟨x, hx, hx'⟩; exact ⟨x, List.mem_append_left _ hx, hx'⟩
  · intro hs rid; rw [hsc]; exact h.fresh (by rw [← hsender]; exact hs) rid
  · intro rid hc; rw [hsc]; exact h.unconnected rid (by rw [← hheap]; exact hc)
  · intro rid; rw [hsc]; exact Nat.le_trans (h.upper rid) (hcc rid)
  · intro rid hc; exact Nat.le_trans (h.connects rid (by rw [← hheap]; exact hc)) (hcc rid)
  · intro rid hs hc hd
    rw [hsc]
    exact h.lower rid (by rw [← hsender]; exact hs) (by rw [← hheap]; exact hc) (fun x => hd (hdisp rid x))
  · intro hs; rw [hbb, hheap]; exact h.bound (by rw [← hsender]; exact hs)
  · rw [hbb, hheap]; exact h.started
  · intro hs m hm
    rw [hsender] at hs
    rw [hact hs] at hm
    rw [hheap]; exact h.last hs m hm

/-- Binding a route preserves the invariant. -/
theorem startInv_bind {r r' : Router} {log : List Entry} {e : Entry} (h : StartInv r log)
    (hbase : Inv r' (Spec.ofLog (log ++ [e]))) (rcv : Nat) (name : RName)
    (hheap : r'.heap = r.heap ++ [⟨rcv, name, .unspecified⟩]) (hsender : r'.sender = r.sender)
    (hev : e.events = []) (hop : ∃ a b i n, e.op = .bind a b ∧ e.ret = .route i n)
    (hact : ∀ m, r'.active = some m → ∃ m', r.active = some m' ∧ m = Dict.set m' name r.heap.length) :
    StartInv r' (log ++ [e]) := by
  have hsc : ∀ rid, startCount rid (log ++ [e]) = startCount rid log := by
    intro rid; rw [startCount_append]; simp [startCount, hev]
  obtain ⟨a, b, i, nn, ho, hret⟩ := hop
  have hb1 : boundBeforeStart [e] = 1 := by
    obtain ⟨op, ret, evs⟩ := e
    simp only at ho hret; subst ho; subst hret; rfl
  have hcc : ∀ rid, connectCount rid log ≤ connectCount rid (log ++ [e]) := by
    intro rid; rw [connectCount_append]; omega
  have hcon : ∀ rid, isConnected r'.heap rid = isConnected r.heap rid := by
    intro rid; rw [hheap, isConnected_append]
  have hlen : r'.heap.length = r.heap.length + 1 := by rw [hheap]; simp
  refine ⟨hbase, ?_, ?_, ?_, ?_, ?_, ?_, ?_, ?_, ?_⟩
  · rw [hsender, ← h.hasStart]
    constructor
    · rintro ⟨x, hx, hx'⟩
      rcases List.mem_append.1 hx with hx | hx
      · exact ⟨x, hx, hx'⟩
      · rw [List.mem_singleton] at hx; subst hx; rw [ho] at hx'; exact absurd hx'.1 (by simp)
    · rintro ⟨x, hx, hx'⟩; exact ⟨x, List.mem_append_left _ hx, hx'⟩
  · intro hs rid; rw [hsc]; exact h.fresh (by rw [← hsender]; exact hs) rid
  · intro rid hc; rw [hsc]; exact h.unconnected rid (by rw [← hcon]; exact hc)
  · intro rid; rw [hsc]; exact Nat.le_trans (h.upper rid) (hcc rid)
  · intro rid hc; exact Nat.le_trans (h.connects rid (by rw [← hcon]; exact hc)) (hcc rid)
  · intro rid hs hc hd
    rw [hsc]
    rw [hsender] at hs
    rw [hcon] at hc
    refine h.lower rid hs hc (fun ⟨j, h1, h2, h3⟩ => hd ⟨j, h1, ?_, ?_⟩)
    · rw [boundBeforeStart_append_started log e (h.hasStart.2 hs)]; exact h2
    · have hst := h.started
      have hlt := connected_lt hc
      rw [ofLog_names hbase, ofLog_names hbase, hheap, List.getElem?_append_left (by omega),
        List.getElem?_append_left hlt, ← ofLog_names h.base, ← ofLog_names h.base]
      exact h3
  · intro hs
    rw [hsender] at hs
    have hno : ¬ ∃ x ∈ log, x.op = .start ∧ x.ret = .unit := by
      rw [h.hasStart, hs]; simp
    rw [boundBeforeStart_append_fresh log e (fun x hx h' => hno ⟨x, hx, h'⟩), h.bound hs, hb1, hlen]
  · by_cases hx : ∃ x ∈ log, x.op = .start ∧ x.ret = .unit
    · rw [boundBeforeStart_append_started log e hx]; have := h.started; omega
    · rw [boundBeforeStart_append_fresh log e (fun x hx' h' => hx ⟨x, hx', h'⟩)]
      have := h.started; omega
  · intro hs m hm rid n hn hj
    rw [hsender] at hs
    obtain ⟨m', hm', rfl⟩ := hact m hm
    rw [hheap] at hn hj
    by_cases hlt : rid < r.heap.length
    · have hne : name ≠ n := by
        intro e'; subst e'
        exact hj r.heap.length hlt (by simp)
      rw [List.getElem?_append_left hlt] at hn
      rw [Dict.get?_set_other _ _ _ _ hne]
      refine h.last hs m' hm' rid n hn (fun j hjl => ?_)
      by_cases hjlt : j < r.heap.length
      · have := hj j hjl
        rw [List.getElem?_append_left hjlt] at this; exact this
      · rw [List.getElem?_eq_none_iff.2 (by omega)]; simp
    · by_cases he : rid = r.heap.length
      · subst he
        simp at hn
        subst hn
        exact Dict.get?_set_same _ _ _
      · rw [List.getElem?_eq_none_iff.2 (by simp; omega)] at hn; simp at hn

theorem startInv_step (r : Router) (log : List Entry) (h : StartInv r log) (op : Op) :
    StartInv (step r op).1 (log ++ [⟨op, (step r op).2.2, (step r op).2.1⟩]) := by
  have hbase : Inv (step r op).1 (Spec.ofLog (log ++ [⟨op, (step r op).2.2, (step r op).2.1⟩])) := by
    rw [ofLog_append]; exact inv_step r _ h.base op
  have hp := h.base.phase
  cases op with
  | newId => exact startInv_quiet h hbase rfl rfl (fun _ => rfl) rfl (by simp) (fun _ => rfl)
  | bind rcv name =>
    have key : ∀ (r : Router), StartInv r log → ∀ (nm : RName) (nm' : Option RName),
        (∀ st, st = step r (.bind rcv (some nm)) → Inv st.1 (Spec.ofLog (log ++ [⟨.bind rcv nm', st.2.2, st.2.1⟩])) →
        StartInv st.1 (log ++ [⟨.bind rcv nm', st.2.2, st.2.1⟩])) := by
      intro r h nm nm' st hst hbase
      subst hst
      simp only [step, bindRoute] at hbase ⊢
      cases hro : r.routes with
      | some m =>
        simp only [hro] at hbase ⊢
        refine startInv_bind h hbase rcv nm rfl rfl rfl ⟨_, _, _, _, rfl, rfl⟩ ?_
        intro m' hm'
        simp only [Router.active, Option.some.injEq] at hm'
        exact ⟨m, by simp [Router.active, hro], hm'.symm⟩
      | none =>
        cases hu : r.unstarted with
        | some m =>
          simp only [hro, hu] at hbase ⊢
          refine startInv_bind h hbase rcv nm rfl rfl rfl ⟨_, _, _, _, rfl, rfl⟩ ?_
          intro m' hm'
          simp only [Router.active, Option.some.injEq, hro] at hm'
          exact ⟨m, by simp [Router.active, hro, hu], hm'.symm⟩
        | none =>
          simp only [hro, hu] at hbase ⊢
          exact startInv_quiet h hbase rfl rfl (fun _ => rfl) rfl (by simp) (fun _ => rfl)
    cases name with
    | some nm => exact key r h nm _ _ rfl hbase
    | none =>
      have h' : StartInv (createRouteIdentifier r).1 log := by
        obtain ⟨⟨a1, a2, a3, a4, a5⟩, b, c, d, e, f, g, i, j, k⟩ := h
        exact ⟨⟨a1, a2, a3, a4, a5⟩, b, c, d, e, f, g, i, j, k⟩
      exact key _ h' (some (createRouteIdentifier r).2) none (step r (.bind rcv none)) rfl hbase
  | connect rid n =>
    simp only [step, connectTo] at hbase ⊢
    cases hh : r.heap[rid]? with
    | none =>
      simp only [hh] at hbase ⊢
      exact startInv_quiet h hbase rfl rfl (fun _ => rfl) rfl (by simp) (fun _ => rfl)
    | some route =>
      simp only [hh, retUnit] at hbase ⊢
      have hs := set_remote r.heap rid route (.to n) hh
      have hcon := isConnected_set r.heap rid route n hh
      have hbb : ∀ evs, boundBeforeStart (log ++ [⟨.connect rid n, .unit, evs⟩]) = boundBeforeStart log := by
        intro evs
        by_cases hx : ∃ x ∈ log, x.op = .start ∧ x.ret = .unit
        · exact boundBeforeStart_append_started log _ hx
        · rw [boundBeforeStart_append_fresh log _ (fun x hx' h' => hx ⟨x, hx', h'⟩)]; rfl
      have hcc : ∀ i evs, connectCount i (log ++ [⟨.connect rid n, .unit, evs⟩]) =
          connectCount i log + if i = rid then 1 else 0 := by
        intro i evs
        rw [connectCount_append]
        by_cases e : i = rid
        · subst e; simp [connectCount]
        · have : ¬ rid = i := fun x => e x.symm
          simp [connectCount, e, this]
      refine ⟨hbase, ?_, ?_, ?_, ?_, ?_, ?_, ?_, ?_, ?_⟩
      · refine Iff.trans ?_ h.hasStart
        constructor
        · rintro ⟨x, hx, hx'⟩
          rcases List.mem_append.1 hx with hx | hx
          · exact ⟨x, hx, hx'⟩
          · rw [List.mem_singleton] at hx; subst hx; exact absurd hx'.1 (by simp)
        · rintro ⟨x, hx, hx'⟩; exact ⟨x, List.mem_append_left _ hx, hx'⟩
      · intro hsf i
        simp only at hsf
        rw [startCount_append, h.fresh hsf]; simp [startCount, hsf]
      · intro i hc
        simp only [hcon, Bool.or_eq_false_iff, decide_eq_false_iff_not] at hc
        rw [startCount_append, h.unconnected i hc.2]
        have : ¬ rid = i := fun x => hc.1 x.symm
        cases hsd : r.sender <;> simp [startCount, this]
      · intro i
        rw [startCount_append, hcc, startCount_single]
        have := h.upper i
        by_cases e : i = rid
        · subst e; cases hsd : r.sender <;> simp <;> omega
        · have e' : ¬ rid = i := fun x => e x.symm
          cases hsd : r.sender <;> simp [e, e'] <;> omega
      · intro i hc
        rw [hcc]
        simp only [hcon, Bool.or_eq_true, decide_eq_true_eq] at hc
        rcases hc with e | hc
        · simp [e]
        · have := h.connects i hc; omega
      · intro i hsd hc hd
        simp only at hsd
        rw [startCount_append]
        simp only [hcon, Bool.or_eq_true, decide_eq_true_eq] at hc
        rcases hc with e | hc
        · subst e; simp [startCount, hsd]
        · have : 1 ≤ startCount i log := by
            refine h.lower i hsd hc (fun ⟨j, h1, h2, h3⟩ => hd ⟨j, h1, ?_, ?_⟩)
            · rw [hbb]; exact h2
            · rw [ofLog_names hbase, ofLog_names hbase, (hs j).1, (hs i).1, ← ofLog_names h.base,
                ← ofLog_names h.base]
              exact h3
          omega
      · intro hsf; rw [hbb]; simp only [List.length_set]; exact h.bound hsf
      · rw [hbb]; simp only [List.length_set]; exact h.started
      · intro hsf m hm i n' hn' hj
        refine h.last hsf m hm i n' ?_ (fun j hjl => ?_)
        · rw [← (hs i).1]; exact hn'
        · rw [← (hs j).1]; exact hj j hjl
  | unbind rid =>
    simp only [step, unbind] at hbase ⊢
    cases hh : r.heap[rid]? with
    | none =>
      simp only [hh] at hbase ⊢
      exact startInv_quiet h hbase rfl rfl (fun _ => rfl) rfl (by simp) (fun _ => rfl)
    | some route =>
      cases hro : r.routes with
      | none =>
        simp only [hh, hro] at hbase ⊢
        exact startInv_quiet h hbase rfl rfl (fun _ => rfl) rfl (by simp) (fun _ => rfl)
      | some m =>
        simp only [hh, hro] at hbase ⊢
        split
        · rename_i hhas
          rw [if_pos hhas] at hbase
          refine startInv_quiet h hbase rfl rfl (fun _ => rfl) rfl (by simp) (fun hsf => ?_)
          revert hp
          cases (Spec.ofLog log).phase <;> simp [hro, hsf]
        · rename_i hhas
          rw [if_neg hhas] at hbase
          exact startInv_quiet h hbase rfl rfl (fun _ => rfl) rfl (by simp) (fun _ => rfl)
  | start =>
    simp only [step, startReceivingBoxes] at hbase ⊢
    cases hu : r.unstarted with
    | none =>
      simp only [hu] at hbase ⊢
      have hsd : r.sender = true := by
        revert hp
        cases (Spec.ofLog log).phase <;> simp [hu]
      exact startInv_quiet h hbase rfl hsd.symm (fun _ => rfl) rfl (by simp [retUnit]) (fun x => by rw [hsd] at x; cases x)
    | some m =>
      simp only [hu, retUnit] at hbase ⊢
      have hfr : r.routes = none ∧ r.sender = false := by
        revert hp
        cases (Spec.ofLog log).phase <;> simp [hu]
      have ha : r.active = some m := by simp [Router.active, hfr.1, hu]
      have hno : ¬ ∃ x ∈ log, x.op = .start ∧ x.ret = .unit := by
        rw [h.hasStart, hfr.2]; simp
      have hbb : ∀ evs, boundBeforeStart (log ++ [⟨.start, .unit, evs⟩]) = r.heap.length := by
        intro evs
        rw [boundBeforeStart_append_fresh log _ (fun x hx h' => hno ⟨x, hx, h'⟩), h.bound hfr.2]; rfl
      have hcnt : ∀ rid, startCount rid (log ++ [⟨.start, .unit,
          (m.filter fun p => isConnected r.heap p.2).map fun p => .start p.2⟩]) =
          ((m.filter fun p => isConnected r.heap p.2).map Prod.snd).count rid := by
        intro rid
        rw [startCount_append, h.fresh hfr.2 rid]
        simp [startCount, count_start_map]
      have hle : ∀ rid, ((m.filter fun p => isConnected r.heap p.2).map Prod.snd).count rid ≤
          (m.map Prod.snd).count rid := by
        intro rid
        exact (List.Sublist.map Prod.snd List.filter_sublist).count_le rid
      have hunc : ∀ rid, isConnected r.heap rid = false →
          ((m.filter fun p => isConnected r.heap p.2).map Prod.snd).count rid = 0 := by
        intro rid hc
        rw [List.count_eq_zero]
        intro hm
        obtain ⟨p, hp', rfl⟩ := List.mem_map.1 hm
        have := (List.mem_filter.1 hp').2
        rw [hc] at this; cases this
      refine ⟨hbase, ?_, ?_, ?_, ?_, ?_, ?_, ?_, ?_, ?_⟩
      · simp
      · intro x; cases x
      · intro rid hc; rw [hcnt]; exact hunc rid hc
      · intro rid
        rw [hcnt, connectCount_append]
        cases hc : isConnected r.heap rid with
        | false => rw [hunc rid hc]; omega
        | true =>
          have h1 := hle rid
          have h2 := count_rid_le_one r.heap m (h.base.wf m ha) (h.base.rids m ha) rid
          have h3 := h.connects rid hc
          omega
      · intro rid hc
        rw [connectCount_append]
        have := h.connects rid hc; omega
      · intro rid _ hc hd
        rw [hcnt]
        have hlt := connected_lt hc
        have hget : Dict.get? m (r.heap[rid].localName) = some rid := by
          refine h.last hfr.2 m ha rid _ (by rw [List.getElem?_eq_getElem hlt]; rfl) (fun j hj hjn => ?_)
          apply hd
          refine ⟨j, hj, ?_, ?_⟩
          · rw [hbb]
            by_contra hge
            rw [List.getElem?_eq_none_iff.2 (by omega)] at hjn; cases hjn
          · rw [ofLog_names hbase, ofLog_names hbase]
            simp only
            rw [hjn, List.getElem?_eq_getElem hlt]; rfl
        apply List.count_pos_iff.2
        exact List.mem_map.2 ⟨(r.heap[rid].localName, rid),
          List.mem_filter.2 ⟨Dict.mem_of_get? hget, hc⟩, rfl⟩
      · intro x; cases x
      · rw [hbb]
      · intro x; cases x
  | receive box =>
    simp only [step, ampBoxReceived] at hbase ⊢
    cases hro : r.routes with
    | none =>
      simp only [hro] at hbase ⊢
      exact startInv_quiet h hbase rfl rfl (fun _ => rfl) rfl (by simp) (fun _ => rfl)
    | some m =>
      simp only [hro] at hbase ⊢
      cases hg : Dict.get? m (Dict.get? box ROUTE) with
      | none =>
        simp only [hg] at hbase ⊢
        exact startInv_quiet h hbase rfl rfl (fun _ => rfl) rfl (by simp) (fun _ => rfl)
      | some rid =>
        simp only [hg] at hbase ⊢
        cases hh : r.heap[rid]? with
        | none =>
          simp only [hh] at hbase ⊢
          exact startInv_quiet h hbase rfl rfl (fun _ => rfl) rfl (by simp) (fun _ => rfl)
        | some ro =>
          simp only [hh] at hbase ⊢
          exact startInv_quiet h hbase rfl rfl (fun _ => by simp) rfl (by simp) (fun _ => rfl)
  | stop reason =>
    simp only [step, stopReceivingBoxes] at hbase ⊢
    cases hro : r.routes with
    | none =>
      simp only [hro] at hbase ⊢
      exact startInv_quiet h hbase rfl rfl (fun _ => rfl) rfl (by simp) (fun _ => rfl)
    | some m =>
      simp only [hro] at hbase ⊢
      refine startInv_quiet h hbase rfl rfl (fun _ => count_start_filterMap _ _ _ _) rfl (by simp) (fun hsf => ?_)
      revert hp
      cases (Spec.ofLog log).phase <;> simp [hro, hsf]
  | send rid box =>
    simp only [step, sendBox] at hbase ⊢
    cases hh : r.heap[rid]? with
    | none =>
      simp only [hh] at hbase ⊢
      exact startInv_quiet h hbase rfl rfl (fun _ => rfl) rfl (by simp) (fun _ => rfl)
    | some route =>
      simp only [hh] at hbase ⊢
      rcases hrem : route.remote with _ | n
      · simp only [hrem] at hbase ⊢
        exact startInv_quiet h hbase rfl rfl (fun _ => rfl) rfl (by simp) (fun _ => rfl)
      · simp only [hrem] at hbase ⊢
        cases hsd : r.sender with
        | false =>
          simp only [hsd] at hbase ⊢
          exact startInv_quiet h hbase rfl rfl (fun _ => rfl) rfl (by simp) (fun _ => rfl)
        | true =>
          simp only [hsd, if_true] at hbase ⊢
          exact startInv_quiet h hbase rfl rfl (fun _ => by simp) rfl (by simp) (fun _ => rfl)

theorem startInv_run (ops : List Op) (r : Router) (log : List Entry) (h : StartInv r log) :
    StartInv (run r ops).1 (log ++ (run r ops).2) := by
  induction ops generalizing r log with
  | nil => simpa [run] using h
  | cons op ops ih =>
    have := ih _ _ (startInv_step r log h op)
    simpa [run] using this

theorem startInv_init : StartInv Router.new [] := by
  refine ⟨inv_init, ?_, ?_, ?_, ?_, ?_, ?_, ?_, ?_, ?_⟩
  all_goals simp [Router.new, startCount, connectCount, boundBeforeStart, isConnected]

theorem startInv_reachable (ops : List Op) :
    StartInv (run Router.new ops).1 (run Router.new ops).2 := by
  simpa using startInv_run ops Router.new [] startInv_init

/-- **C38.** In any history, until the router has been started no route's receiver is started, and a route
that has not been connected is never started. -/
theorem start_needs_both (ops : List Op) (rid : Nat)
    (h : (∀ e ∈ (run Router.new ops).2, ¬ (e.op = .start ∧ e.ret = .unit)) ∨
      connectCount rid (run Router.new ops).2 = 0) :
    startCount rid (run Router.new ops).2 = 0 := by
  have inv := startInv_reachable ops
  rcases h with h | h
  · apply inv.fresh
    cases hs : (run Router.new ops).1.sender with
    | false => rfl
    | true =>
      obtain ⟨x, hx, hx'⟩ := inv.hasStart.2 hs
      exact absurd hx' (h x hx)
  · have := inv.upper rid; omega

/-- **C38.** In any history, a route is started at most as often as it is connected — so at most once if
`connectTo` is called once. -/
theorem start_at_most (ops : List Op) (rid : Nat) :
    startCount rid (run Router.new ops).2 ≤ connectCount rid (run Router.new ops).2 :=
  (startInv_reachable ops).upper rid

/-- **C38.** In any history in which the router has been started and `connectTo` was called exactly once
on an existing route, in whichever order, the route's receiver has been started exactly once — unless
another receiver took over the route's name before the router was started. -/
theorem start_exactly_once_partial (ops : List Op) (rid : Nat)
    (hstart : ∃ e ∈ (run Router.new ops).2, e.op = .start ∧ e.ret = .unit)
    (hone : connectCount rid (run Router.new ops).2 = 1)
    (hconn : isConnected (run Router.new ops).1.heap rid = true)
    (hd : ¬ Displaced (run Router.new ops).2 rid) :
    startCount rid (run Router.new ops).2 = 1 := by
  have inv := startInv_reachable ops
  have h1 := inv.upper rid
  have h2 := inv.lower rid (inv.hasStart.1 hstart) hconn hd
  omega

/-- **C38 (finding).** A route connected before the router starts, whose name is taken over by a second
route before the start, is never started. -/
theorem start_displaced_fails :
    startCount 0 (run Router.new [.bind 1 (some (some [97])), .connect 0 none,
      .bind 2 (some (some [97])), .start]).2 = 0 := by decide

/-- **C38 (finding).** Connecting a route again restarts its receiver, and so does connecting a route that
is already unbound or whose router has stopped. -/
theorem start_repeats_fails :
    startCount 0 (run Router.new [.start, .bind 1 none, .connect 0 none, .connect 0 none, .unbind 0,
      .connect 0 none, .stop 0, .connect 0 none]).2 = 4 := by decide

example : startCount 0 (run Router.new [.bind 1 none, .connect 0 (some [98]), .start]).2 = 1 := by decide
example : startCount 0 (run Router.new [.start, .bind 1 none, .connect 0 (some [98])]).2 = 1 := by decide

/-! ## C39 -/

/-- **C39.** Stopping a running router tells every currently bound receiver, once per binding and in
binding order, with the given reason; afterwards, in any continuation without success of a further start
(which cannot happen), no box is delivered: every box received raises `TypeError`. -/
theorem stop_notifies (ops : List Op) (reason : Nat)
    (hrun : (Spec.ofLog (run Router.new ops).2).phase = .running) :
    let r := (run Router.new ops).1
    let s := Spec.ofLog (run Router.new ops).2
    ∃ names : List RName, names.Nodup ∧ (∀ n, n ∈ names ↔ s.table n ≠ none) ∧
      (stopReceivingBoxes r reason).2.1 = (names.filterMap s.table).map (fun rcv => Event.stop rcv reason) ∧
      (stopReceivingBoxes r reason).2.2 = .ok () := by
  simp only
  obtain ⟨hp, hn, hwf, hr, ht⟩ := inv_reachable ops
  generalize (run Router.new ops).1 = r at *
  generalize Spec.ofLog (run Router.new ops).2 = s at *
  rw [hrun] at hp
  simp only at hp
  cases hro : r.routes with
  | none => exact absurd hro hp.1
  | some m =>
    have ha : r.active = some m := by simp [Router.active, hro]
    have hwf := hwf m ha
    have hr := hr m ha
    have ht := ht m ha
    refine ⟨Dict.keys m, hwf, ?_, ?_, ?_⟩
    · intro n
      rw [← ht n]
      have hk := Dict.get?_eq_none_iff m n
      cases hg : Dict.get? m n with
      | none => rw [hg] at hk; simp at hk; simp [hk]
      | some rid =>
        rw [hg] at hk; simp at hk
        have h3 := hr n rid hg
        cases hh : r.heap[rid]? with
        | none => rw [hh] at h3; cases h3
        | some ro => simp [hk, hh]
    · simp only [stopReceivingBoxes, hro]
      have : ∀ p ∈ m, ((r.heap[p.2]?).map fun ro => Event.stop ro.receiver reason) =
          (s.table p.1).map fun rcv => Event.stop rcv reason := by
        intro p hp'
        rw [← ht p.1, Dict.get?_of_mem hwf (show (p.1, p.2) ∈ m from hp')]
        simp only [Option.bind_some]
        cases r.heap[p.2]? <;> rfl
      rw [List.filterMap_congr this, Dict.keys, List.filterMap_map, List.map_filterMap]
      rfl
    · simp [stopReceivingBoxes, hro]

theorem stopped_stays (s : Spec) (r : Router) (h : Inv r s) (hs : s.phase = .stopped) (op : Op) :
    (s.next op (step r op).2.2).phase = .stopped ∧
      ∀ rcv b, Event.deliver rcv b ∉ (step r op).2.1 := by
  obtain ⟨hp, hn, hwf, hr, ht⟩ := h
  rw [hs] at hp
  simp only at hp
  cases op with
  | newId => exact ⟨hs, by simp [step, createRouteIdentifier]⟩
  | bind rcv n =>
    cases n <;> simp [step, bindRoute, createRouteIdentifier, hp, Spec.next, hs]
  | connect rid n =>
    simp only [step, connectTo]
    cases r.heap[rid]? with
    | none => simp [Spec.next, hs]
    | some ro => simp [Spec.next, hs]
  | unbind rid =>
    simp only [step, unbind, hp]
    cases r.heap[rid]? <;> simp [Spec.next, hs, retUnit]
  | start => simp [step, startReceivingBoxes, hp, Spec.next, hs, retUnit]
  | receive b => simp [step, ampBoxReceived, hp, Spec.next, hs, retUnit]
  | stop x => simp [step, stopReceivingBoxes, hp, Spec.next, hs, retUnit]
  | send rid b =>
    refine ⟨by simp [Spec.next, hs], ?_⟩
    simp only [step, sendBox]
    cases r.heap[rid]? with
    | none => simp
    | some ro =>
      simp only
      rcases ro.remote with _ | n
      · simp
      · simp only; split <;> simp

/-- **C39.** Once stopped, always stopped: in every continuation of a history that stopped the router no
box is ever delivered again. -/
theorem stopped_forever (ops more : List Op)
    (hstop : (Spec.ofLog (run Router.new ops).2).phase = .stopped) :
    (∀ e ∈ (run (run Router.new ops).1 more).2, ∀ rcv b, Event.deliver rcv b ∉ e.events) ∧
    ∀ box, (ampBoxReceived (run Router.new (ops ++ more)).1 box).2 = ([], .error .typeError) := by
  have gen : ∀ (more : List Op) (r : Router) (s : Spec), Inv r s → s.phase = .stopped →
      (∀ e ∈ (run r more).2, ∀ rcv b, Event.deliver rcv b ∉ e.events) ∧
      ((run r more).2.foldl (fun s e => s.next e.op e.ret) s).phase = .stopped := by
    intro more
    induction more with
    | nil => intro r s _ hs; exact ⟨by simp [run], hs⟩
    | cons op more ih =>
      intro r s h hs
      obtain ⟨h1, h2⟩ := stopped_stays s r h hs op
      obtain ⟨i1, i2⟩ := ih _ _ (inv_step r s h op) h1
      refine ⟨?_, by simpa [run] using i2⟩
      intro e he
      simp only [run, List.mem_cons] at he
      rcases he with he | he
      · subst he; exact h2
      · exact i1 e he
  obtain ⟨g1, g2⟩ := gen more _ _ (inv_reachable ops) hstop
  refine ⟨g1, fun box => ?_⟩
  have hph : (Spec.ofLog (run Router.new (ops ++ more)).2).phase = .stopped := by
    rw [run_append, ofLog_append]; exact g2
  rw [router_delivery (ops ++ more) box, hph]

example : (run Router.new [.start, .bind 7 (some (some [97])), .bind 8 none, .stop 3]).2.map Entry.events =
    [[], [], [], [.stop 7 3, .stop 8 3]] := by decide

/-! ## C40 -/

/-- The history passes no explicit route name that is a decimal numeral. -/
def NoNumeralNames (ops : List Op) : Prop :=
  ∀ rcv n, Op.bind rcv (some (some n)) ∈ ops → ∀ k, n ≠ natStr k

/-- **C40.** Provided no caller passes an explicit name that looks like a generated one, the identifier
generated next differs from every name ever bound and every identifier ever generated, so binding to it
displaces nobody. -/
theorem fresh_identifier_partial (ops : List Op) (h : NoNumeralNames ops) :
    let r := (run Router.new ops).1
    let log := (run Router.new ops).2
    some (createRouteIdentifier r).2 ∉ (Spec.ofLog log).names ∧
    (Spec.ofLog log).table (some (createRouteIdentifier r).2) = none ∧
    ∀ e ∈ log, e.ret ≠ .name (createRouteIdentifier r).2 := by
  have gen : ∀ (ops : List Op) (r : Router) (s : Spec), NoNumeralNames ops →
      (∀ k, r.counter ≤ k → some (natStr k) ∉ s.names ∧ s.table (some (natStr k)) = none) →
      (∀ k, (run r ops).1.counter ≤ k →
        some (natStr k) ∉ ((run r ops).2.foldl (fun s e => s.next e.op e.ret) s).names ∧
        ((run r ops).2.foldl (fun s e => s.next e.op e.ret) s).table (some (natStr k)) = none) ∧
      (r.counter ≤ (run r ops).1.counter) ∧
      ∀ k, (run r ops).1.counter ≤ k → ∀ e ∈ (run r ops).2, e.ret ≠ .name (natStr k) := by
    intro ops
    induction ops with
    | nil => intro r s _ h; exact ⟨h, Nat.le_refl _, by simp [run]⟩
    | cons op ops ih =>
      intro r s hno h
      have hno' : NoNumeralNames ops := fun a b c => hno a b (List.mem_cons_of_mem _ c)
      have stepfact : (∀ k, (step r op).1.counter ≤ k →
          some (natStr k) ∉ (s.next op (step r op).2.2).names ∧
          (s.next op (step r op).2.2).table (some (natStr k)) = none) ∧
          r.counter ≤ (step r op).1.counter ∧
          ∀ k, (step r op).1.counter ≤ k → (step r op).2.2 ≠ .name (natStr k) := by
        cases op with
        | newId =>
          refine ⟨fun k hk => h k ?_, ?_, ?_⟩
          · simp only [step, createRouteIdentifier] at hk; omega
          · simp only [step, createRouteIdentifier]; omega
          · intro k hk he
            simp only [step, createRouteIdentifier, Ret.name.injEq] at he hk
            have := natStr_inj he; omega
        | bind rcv n =>
          cases n with
          | none =>
            refine ⟨?_, ?_, ?_⟩
            · intro k hk
              have hk' : r.counter + 1 ≤ k := by
                simp only [step, bindRoute, createRouteIdentifier] at hk
                cases hro : r.routes <;> cases hu : r.unstarted <;> simp [hro, hu] at hk <;> exact hk
              obtain ⟨a, b⟩ := h k (by omega)
              have hne : natStr k ≠ natStr r.counter := fun e => by have := natStr_inj e; omega
              simp only [step, bindRoute, createRouteIdentifier]
              cases hro : r.routes <;> cases hu : r.unstarted <;>
                simp [Spec.next, a, b, update, hne]
            · simp only [step, bindRoute, createRouteIdentifier]
              cases hro : r.routes <;> cases hu : r.unstarted <;> simp
            · intro k _
              simp only [step, bindRoute, createRouteIdentifier]
              cases hro : r.routes <;> cases hu : r.unstarted <;> simp
          | some nm =>
            have hc : (step r (.bind rcv (some nm))).1.counter = r.counter := by
              simp only [step, bindRoute]
              cases hro : r.routes <;> cases hu : r.unstarted <;> rfl
            refine ⟨?_, by omega, ?_⟩
            · intro k hk
              obtain ⟨a, b⟩ := h k (by omega)
              have hne : some (natStr k) ≠ nm := by
                intro e; subst e
                exact hno rcv (natStr k) (by simp) k rfl
              simp only [step, bindRoute]
              cases hro : r.routes <;> cases hu : r.unstarted <;>
                simp [Spec.next, a, b, update, hne]
            · intro k _
              simp only [step, bindRoute]
              cases hro : r.routes <;> cases hu : r.unstarted <;> simp
        | connect rid n =>
          have : (step r (.connect rid n)).1.counter = r.counter := by
            simp only [step, connectTo]; split <;> rfl
          refine ⟨fun k hk => by simpa [Spec.next] using h k (by omega), by omega, ?_⟩
          intro k _
          simp only [step, connectTo]; split <;> simp [retUnit]
        | unbind rid =>
          have : (step r (.unbind rid)).1.counter = r.counter := by
            simp only [step, unbind]; split
            · rfl
            · split
              · rfl
              · split <;> rfl
          refine ⟨?_, by omega, ?_⟩
          · intro k hk
            obtain ⟨a, b⟩ := h k (by omega)
            cases (step r (.unbind rid)).2.2 with
            | unit =>
              simp only [Spec.next]
              cases s.names[rid]? with
              | none => exact ⟨a, b⟩
              | some n => simp [update, a, b]
            | name _ => exact ⟨a, b⟩
            | route _ _ => exact ⟨a, b⟩
            | raised _ => exact ⟨a, b⟩
          · intro k _
            simp only [step]
            cases (unbind r rid).2.2 <;> simp [retUnit]
        | start =>
          have : (step r .start).1.counter = r.counter := by
            simp only [step, startReceivingBoxes]; split <;> rfl
          refine ⟨?_, by omega, ?_⟩
          · intro k hk
            obtain ⟨a, b⟩ := h k (by omega)
            cases (step r .start).2.2 <;> exact ⟨a, b⟩
          · intro k _
            simp only [step]
            cases (startReceivingBoxes r).2.2 <;> simp [retUnit]
        | receive b =>
          have : (step r (.receive b)).1.counter = r.counter := by
            simp only [step, ampBoxReceived]; split
            · rfl
            · split
              · rfl
              · split <;> rfl
          refine ⟨fun k hk => by simpa [Spec.next] using h k (by omega), by omega, ?_⟩
          intro k _
          simp only [step]
          cases (ampBoxReceived r b).2.2 <;> simp [retUnit]
        | stop x =>
          have : (step r (.stop x)).1.counter = r.counter := by
            simp only [step, stopReceivingBoxes]; split <;> rfl
          refine ⟨?_, by omega, ?_⟩
          · intro k hk
            obtain ⟨a, b⟩ := h k (by omega)
            cases (step r (.stop x)).2.2 <;> exact ⟨a, b⟩
          · intro k _
            simp only [step]
            cases (stopReceivingBoxes r x).2.2 <;> simp [retUnit]
        | send rid b =>
          have : (step r (.send rid b)).1.counter = r.counter := by
            simp only [step, sendBox]; split
            · rfl
            · split
              · rfl
              · split <;> rfl
          refine ⟨fun k hk => by simpa [Spec.next] using h k (by omega), by omega, ?_⟩
          intro k _
          simp only [step]
          cases (sendBox r rid b).2.2 <;> simp [retUnit]
      obtain ⟨s1, s2, s3⟩ := stepfact
      obtain ⟨i1, i2, i3⟩ := ih _ _ hno' s1
      refine ⟨by simpa [run] using i1, by simp only [run]; omega, ?_⟩
      intro k hk e he
      simp only [run, List.mem_cons] at he hk
      rcases he with he | he
      · subst he; exact s3 k (by omega)
      · exact i3 k hk e he
  obtain ⟨g1, _, g3⟩ := gen ops Router.new Spec.init h (by intro k _; simp [Spec.init])
  have := g1 _ (Nat.le_refl _)
  exact ⟨this.1, this.2, g3 _ (Nat.le_refl _)⟩

/-- **C40 (refuted in general).** A caller that binds the explicit name `'0'` loses its traffic to the
next caller that asks for a generated identifier. -/
theorem fresh_identifier_fails :
    let ops := [Op.start, .bind 1 (some (some [48])), .bind 2 none]
    (run Router.new ops).2.map Entry.ret = [.unit, .route 0 (some [48]), .route 1 (some [48])] ∧
    (ampBoxReceived (run Router.new ops).1 [(ROUTE, [48])]).2.1 = [.deliver 2 []] := by decide

example : NoNumeralNames [.start, .bind 1 (some (some [97])), .bind 2 none, .bind 3 none] := by
  intro rcv n h k e
  simp at h
  obtain ⟨_, rfl⟩ := h
  have := natStr_isDigit k 97 (by rw [← e]; simp)
  revert this; decide

end Verif.Router
