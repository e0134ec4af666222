import Verif.Lemmas.RouteSetup
/-!
# C114: routes set up the documented way are connected in pairs

The specification is read off the log (`sentOf`, `gotOf`, `StartedFirst`, in `Verif/Lemmas/RouteSetup.lean`), the operations
(`asked`: the routes of the client given to `connect`), and the attributes of the route objects at both ends.
-/
namespace Verif.RouteSetup
open Verif.Py Verif.Router

/-! ## Specification -/

/-- Route `i` of the client and route `j` of the server name each other. -/
def Paired (s : Sys) (i j : Nat) : Prop :=
  ∃ ri rj, s.client.heap[i]? = some ri ∧ s.server.heap[j]? = some rj ∧
    ri.remote = .to rj.localName ∧ rj.remote = .to ri.localName

/-- Route `j` of the server was made for route `i` of the client, which may not know it yet. -/
def MadeFor (s : Sys) (i j : Nat) : Prop :=
  ∃ ri rj, s.client.heap[i]? = some ri ∧ s.server.heap[j]? = some rj ∧
    rj.remote = .to ri.localName ∧ (ri.remote = .unspecified ∨ ri.remote = .to rj.localName)

/-- `route.remoteRouteName` was set. -/
def Connected (r : Router) (i : Nat) : Prop := ∃ ri n, r.heap[i]? = some ri ∧ ri.remote = .to n

/-- What is on its way to a name. -/
def onWay (name : RName) (boxes : List Box) : List Box :=
  boxes.filterMap fun b => if Dict.get? b ROUTE = name then some (Dict.erase b ROUTE) else none

theorem mk_conn {rem : List Remote} {i : Nat} {n : RName} :
    (∃ ri, (mkR rem).heap[i]? = some ri ∧ ri.remote = .to n) ↔ rem[i]? = some (.to n) := by
  rw [mk_get]
  constructor
  · rintro ⟨ri, h1, h2⟩
    obtain ⟨x, hx, rfl⟩ := Option.map_eq_some_iff.1 h1
    rw [hx, ← h2]
  · intro h
    exact ⟨⟨i, nm i, .to n⟩, by rw [h]; rfl, rfl⟩

theorem connected_iff {rem : List Remote} {i : Nat} :
    Connected (mkR rem) i ↔ ∃ n, rem[i]? = some (.to n) := by
  constructor
  · rintro ⟨ri, n, h1, h2⟩
    exact ⟨n, mk_conn.1 ⟨ri, h1, h2⟩⟩
  · rintro ⟨n, h⟩
    obtain ⟨ri, h1, h2⟩ := mk_conn.2 h
    exact ⟨ri, n, h1, h2⟩

section
variable {q : Prop} {a : Abs} {s : Sys}

theorem SInv.connC (h : SInv q a s) {i : Nat} (hi : i ≠ 0) :
    Connected s.client i ↔ i ∈ a.cs.take a.d := by
  rw [h.client, connected_iff, take_mem]
  constructor
  · rintro ⟨n, hn⟩
    exact h.c2 i n hi hn
  · rintro ⟨t, ht, e⟩
    have htl : t < a.ss.length := by have := h.dw; have := h.ws; omega
    exact ⟨_, h.c1 t i a.ss[t] ht e (by simp [htl])⟩

theorem SInv.connS (h : SInv q a s) {j : Nat} (hj : j ≠ 0) :
    Connected s.server j ↔ j ∈ a.ss := by
  rw [h.server, connected_iff]
  constructor
  · rintro ⟨n, hn⟩
    exact h.v2 j n hj hn
  · intro hm
    obtain ⟨t, e⟩ := List.mem_iff_getElem?.1 hm
    have htl : t < a.cs.length := by
      have := h.sc; have := (List.getElem?_eq_some_iff.1 e).1; omega
    exact ⟨_, h.v1 t a.cs[t] j (by simp [htl]) e⟩

theorem SInv.made (h : SInv q a s) {i j : Nat} (hi : i ≠ 0) :
    MadeFor s i j ↔ ∃ t : Nat, a.cs[t]? = some i ∧ a.ss[t]? = some j := by
  constructor
  · rintro ⟨ri, rj, h1, h2, h3, h4⟩
    rw [h.client, mk_get] at h1
    rw [h.server] at h2
    obtain ⟨x, hx, rfl⟩ := Option.map_eq_some_iff.1 h1
    have hv : a.v[j]? = some (.to (nm i)) := mk_conn.1 ⟨rj, h2, h3⟩
    have hj : j ≠ 0 := by
      rintro rfl
      rw [h.v0] at hv
      simp only [Option.some.injEq, Remote.to.injEq] at hv
      exact hi (nm_inj (i := 0) hv).symm
    obtain ⟨t, e⟩ := List.mem_iff_getElem?.1 (h.v2 j _ hj hv)
    have htl : t < a.cs.length := by
      have := h.sc; have := (List.getElem?_eq_some_iff.1 e).1; omega
    have hc : a.cs[t]? = some a.cs[t] := by simp [htl]
    have := h.v1 t _ j hc e
    rw [hv] at this
    simp only [Option.some.injEq, Remote.to.injEq] at this
    rw [← nm_inj this] at hc
    exact ⟨t, hc, e⟩
  · rintro ⟨t, hc, e⟩
    have hir := h.crange i (List.mem_of_getElem? hc)
    have hv := h.v1 t i j hc e
    refine ⟨⟨i, nm i, a.c[i]⟩, ⟨j, nm j, .to (nm i)⟩, by rw [h.client, mk_get]; simp [hir.2],
      by rw [h.server, mk_get, hv]; rfl, rfl, ?_⟩
    simp only
    by_cases ht : t < a.d
    · have := (List.getElem?_eq_some_iff.1 (h.c1 t i j ht hc e)).2
      exact .inr this
    · cases hx : a.c[i] with
      | unspecified => exact .inl rfl
      | «to» n =>
        obtain ⟨t', ht', e'⟩ := h.c2 i n hi (by rw [← hx]; simp [hir.2])
        exact absurd (nodup_idx h.cnodup e' hc ▸ ht') ht

theorem SInv.onWayU (h : SInv q a s) {j : Nat} (hj : j ≠ 0) : onWay (nm j) s.up = dataU j a.us := by
  have key : ∀ us : List UMsg, (∀ j p, .data j p ∈ us → 0 < j ∧ ROUTE ∉ Dict.keys p) →
      onWay (nm j) (us.map encU) = dataU j us := by
    intro us
    induction us with
    | nil => intro _; rfl
    | cons m us ih =>
      intro hm
      have ih := ih (fun j p hp => hm j p (List.mem_cons_of_mem _ hp))
      cases m with
      | req t i =>
        have e : Dict.get? (encU (.req t i)) ROUTE = none := by
          simp [encU, Dict.get?, COMMAND, ROUTE, ASK, NAME]
        have e' : ¬ (none : RName) = nm j := fun e' => hj (nm_inj (i := 0) e').symm
        rw [List.map_cons, onWay, List.filterMap_cons, e, if_neg e']
        simp only
        rw [← onWay, ih]
        simp [dataU]
      | data k p =>
        have hk := hm k p List.mem_cons_self
        have e : Dict.get? (encU (.data k p)) ROUTE = nm k := getROUTE_data p k hk.1
        rw [List.map_cons, onWay, List.filterMap_cons, e]
        by_cases ek : k = j
        · subst ek
          rw [if_pos rfl]
          simp only
          rw [← onWay, ih]
          have : Dict.erase (encU (.data k p)) ROUTE = p := erase_set_absent p _ hk.2
          rw [this]
          simp [dataU]
        · have ek' : ¬ nm k = nm j := fun e' => ek (nm_inj e')
          rw [if_neg ek']
          simp only
          rw [← onWay, ih]
          simp [dataU, ek]
  rw [h.up]
  exact key a.us (fun j p hp => ⟨(h.srange j (h.du j p hp).1).1, (h.du j p hp).2⟩)

theorem SInv.onWayD (h : SInv q a s) {i : Nat} (hi : i ≠ 0) : onWay (nm i) s.down = dataD i a.ds := by
  have key : ∀ ds : List DMsg, (∀ i p, .data i p ∈ ds → 0 < i ∧ ROUTE ∉ Dict.keys p) →
      onWay (nm i) (ds.map encD) = dataD i ds := by
    intro ds
    induction ds with
    | nil => intro _; rfl
    | cons m ds ih =>
      intro hm
      have ih := ih (fun j p hp => hm j p (List.mem_cons_of_mem _ hp))
      cases m with
      | ans t j =>
        have e : Dict.get? (encD (.ans t j)) ROUTE = none := by
          simp [encD, Dict.get?, ANSWER, ROUTE, NAME]
        have e' : ¬ (none : RName) = nm i := fun e' => hi (nm_inj (i := 0) e').symm
        rw [List.map_cons, onWay, List.filterMap_cons, e, if_neg e']
        simp only
        rw [← onWay, ih]
        simp [dataD]
      | data k p =>
        have hk := hm k p List.mem_cons_self
        have e : Dict.get? (encD (.data k p)) ROUTE = nm k := getROUTE_data p k hk.1
        rw [List.map_cons, onWay, List.filterMap_cons, e]
        by_cases ek : k = i
        · subst ek
          rw [if_pos rfl]
          simp only
          rw [← onWay, ih]
          have : Dict.erase (encD (.data k p)) ROUTE = p := erase_set_absent p _ hk.2
          rw [this]
          simp [dataD]
        · have ek' : ¬ nm k = nm i := fun e' => ek (nm_inj e')
          rw [if_neg ek']
          simp only
          rw [← onWay, ih]
          simp [dataD, ek]
  rw [h.down]
  refine key a.ds (fun i p hp => ?_)
  obtain ⟨⟨t, _, e⟩, h2⟩ := h.dd i p hp
  exact ⟨(h.crange i (List.mem_of_getElem? e)).1, h2⟩

end

/-! ## The theorems -/

variable {ops : List Op}

/-- **C114.** At either end no two routes have the same local name. -/
theorem names_distinct (hf : ∀ op ∈ ops, Fine op) {r : Router}
    (hr : r = (run init ops).client ∨ r = (run init ops).server) {i j : Nat} {ri rj : Route}
    (hi : r.heap[i]? = some ri) (hj : r.heap[j]? = some rj) (e : ri.localName = rj.localName) : i = j := by
  obtain ⟨a, hw, hc, h⟩ := run_inv ops hf
  have : ∃ rem, r = mkR rem := by
    rcases hr with rfl | rfl
    · exact ⟨_, h.client⟩
    · exact ⟨_, h.server⟩
  obtain ⟨rem, rfl⟩ := this
  rw [mk_get] at hi hj
  obtain ⟨x, _, rfl⟩ := Option.map_eq_some_iff.1 hi
  obtain ⟨y, _, rfl⟩ := Option.map_eq_some_iff.1 hj
  exact nm_inj e

/-- **C114.** Every connected route of the client was asked for, and is paired with exactly one route of the server. -/
theorem client_paired (hf : ∀ op ∈ ops, Fine op) {i : Nat} (hi : i ≠ 0)
    (hc : Connected (run init ops).client i) :
    i ∈ asked 1 ops ∧ ∃ j, j ≠ 0 ∧ Paired (run init ops) i j ∧ ∀ j', MadeFor (run init ops) i j' → j' = j := by
  obtain ⟨a, hw, hcs, h⟩ := run_inv ops hf
  obtain ⟨t, ht, e⟩ := take_mem.1 ((h.connC hi).1 hc)
  have htl : t < a.ss.length := by have := h.dw; omega
  have hj : a.ss[t]? = some a.ss[t] := by simp [htl]
  have hjr := h.srange _ (List.mem_of_getElem? hj)
  refine ⟨by rw [← hcs]; exact List.mem_of_getElem? e, a.ss[t], by omega, ?_, ?_⟩
  · refine ⟨⟨i, nm i, .to (nm a.ss[t])⟩, ⟨a.ss[t], nm a.ss[t], .to (nm i)⟩, ?_, ?_, rfl, rfl⟩
    · rw [h.client, mk_get, h.c1 t i _ ht e hj]; rfl
    · rw [h.server, mk_get, h.v1 t i _ e hj]; rfl
  · intro j' hm
    obtain ⟨t', e', hj'⟩ := (h.made hi).1 hm
    rw [nodup_idx h.cnodup e' e, hj] at hj'
    exact (Option.some.inj hj').symm

/-- **C114.** Every connected route of the server was made for exactly one route of the client, one that was asked for;
that route is not connected yet or is connected to it. -/
theorem server_paired (hf : ∀ op ∈ ops, Fine op) {j : Nat} (hj : j ≠ 0)
    (hc : Connected (run init ops).server j) :
    ∃ i, i ∈ asked 1 ops ∧ MadeFor (run init ops) i j ∧ ∀ i', i' ≠ 0 → MadeFor (run init ops) i' j → i' = i := by
  obtain ⟨a, hw, hcs, h⟩ := run_inv ops hf
  obtain ⟨t, e⟩ := List.mem_iff_getElem?.1 ((h.connS hj).1 hc)
  have htl : t < a.cs.length := by
    have := h.sc; have := (List.getElem?_eq_some_iff.1 e).1; omega
  have hi : a.cs[t]? = some a.cs[t] := by simp [htl]
  have hir := h.crange _ (List.mem_of_getElem? hi)
  refine ⟨a.cs[t], by rw [← hcs]; exact List.mem_of_getElem? hi, (h.made (by omega)).2 ⟨t, hi, e⟩, ?_⟩
  intro i' hi' hm
  obtain ⟨t', e', hj'⟩ := (h.made hi').1 hm
  rw [nodup_idx h.snodup hj' e, hi] at e'
  exact (Option.some.inj e').symm

/-- **C114.** What the client sends through a route reaches the receiver of the route made for it, all of it, once and in
order, and whatever the partner sends comes back to the route's own receiver; the rest is still on its way. -/
theorem flow_exact (hf : ∀ op ∈ ops, Fine op) {i j : Nat} (hi : i ≠ 0) (hm : MadeFor (run init ops) i j) :
    (∀ rj, (run init ops).server.heap[j]? = some rj →
      sentOf .client i (run init ops).log =
        gotOf .server j (run init ops).log ++ onWay rj.localName (run init ops).up) ∧
    (∀ ri, (run init ops).client.heap[i]? = some ri →
      sentOf .server j (run init ops).log =
        gotOf .client i (run init ops).log ++ onWay ri.localName (run init ops).down) := by
  obtain ⟨a, hw, hcs, h⟩ := run_inv ops hf
  obtain ⟨t, e, hj⟩ := (h.made hi).1 hm
  have hjr := h.srange _ (List.mem_of_getElem? hj)
  constructor
  · intro rj hr
    rw [h.server, mk_get] at hr
    obtain ⟨x, _, rfl⟩ := Option.map_eq_some_iff.1 hr
    rw [h.onWayU (by omega)]
    exact h.flowU t i j e hj
  · intro ri hr
    rw [h.client, mk_get] at hr
    obtain ⟨x, _, rfl⟩ := Option.map_eq_some_iff.1 hr
    rw [h.onWayD hi]
    exact h.flowD t i j e hj

/-- **C114.** A receiver that is given anything belongs to a route made by the handshake: at the server to a connected
route, at the client to one for which the server has made a partner. -/
theorem nothing_else (hf : ∀ op ∈ ops, Fine op) :
    (∀ j, gotOf .server j (run init ops).log ≠ [] → j ≠ 0 ∧ Connected (run init ops).server j) ∧
    (∀ i, gotOf .client i (run init ops).log ≠ [] → i ≠ 0 ∧ ∃ j, MadeFor (run init ops) i j) := by
  obtain ⟨a, hw, hcs, h⟩ := run_inv ops hf
  constructor
  · intro j hj
    have := h.l2 j hj
    have hr := h.srange j this
    exact ⟨by omega, (h.connS (by omega)).2 this⟩
  · intro i hi
    obtain ⟨t, ht, e⟩ := h.l4 i hi
    have hr := h.crange i (List.mem_of_getElem? e)
    exact ⟨by omega, a.ss[t], (h.made (by omega)).2 ⟨t, e, by simp [ht]⟩⟩

open Classical in
/-- **C114.** A receiver is started once, when its route is connected, and not otherwise. -/
theorem started_once (hf : ∀ op ∈ ops, Fine op) {i : Nat} (hi : i ≠ 0) :
    (run init ops).log.count (.started .client i) = (if Connected (run init ops).client i then 1 else 0) ∧
    (run init ops).log.count (.started .server i) = (if Connected (run init ops).server i then 1 else 0) := by
  obtain ⟨a, hw, hcs, h⟩ := run_inv ops hf
  rw [h.st1 i, h.st2 i]
  constructor
  · by_cases e : i ∈ a.cs.take a.d
    · rw [if_pos e, if_pos ((h.connC hi).2 e)]
    · rw [if_neg e, if_neg (fun x => e ((h.connC hi).1 x))]
  · by_cases e : i ∈ a.ss
    · rw [if_pos e, if_pos ((h.connS hi).2 e)]
    · rw [if_neg e, if_neg (fun x => e ((h.connS hi).1 x))]

/-- **C114.** No exception is raised at either end except `RouteNotConnected`, and no receiver is stopped. -/
theorem raised_only (hf : ∀ op ∈ ops, Fine op) :
    (∀ side e, .raised side e ∈ (run init ops).log → e = .other "RouteNotConnected") ∧
    (∀ side i, .stopped side i ∉ (run init ops).log) := by
  obtain ⟨a, hw, hcs, h⟩ := run_inv ops hf
  exact ⟨h.raised, h.unstopped⟩

/-- **C114.** Sending through a route puts one box on the wire, or, if the route is not connected, raises
`RouteNotConnected` and puts none. -/
theorem send_exact (hf : ∀ op ∈ ops, Fine op) {i : Nat} {box : Box} (hi : i ≠ 0)
    (hl : i < (run init ops).client.heap.length) :
    let s := run init ops
    let s' := run init (ops ++ [.send .client i box])
    (Connected s.client i → s'.up.length = s.up.length + 1 ∧ s'.log = s.log ++ [.sent .client i box]) ∧
    (¬ Connected s.client i → s'.up = s.up ∧ s'.log = s.log ++ [.raised .client (.other "RouteNotConnected")]) ∧
    s'.down = s.down ∧ s'.pending = s.pending := by
  obtain ⟨a, hw, hcs, h⟩ := run_inv ops hf
  have e0 : run init (ops ++ [.send .client i box]) = step (run init ops) (.send .client i box) := by
    simp [run]
  rw [e0]
  generalize run init ops = s at *
  intro s0 s'
  have hl' : i < a.c.length := by rw [h.client, mk_len] at hl; exact hl
  obtain ⟨x, hx⟩ : ∃ x, a.c[i]? = some x := ⟨a.c[i], by simp [hl']⟩
  cases x with
  | unspecified =>
    have e : s' = { s with log := s.log ++ [.raised .client (.other "RouteNotConnected")] } := by
      show step s _ = _
      rw [step, h.client, mk_len, if_pos ⟨by omega, hl'⟩, sendVia_un box hx]
      simp [h.client]
    have hn : ¬ Connected s0.client i := by
      show ¬ Connected s.client i
      rw [h.client, connected_iff]
      rintro ⟨n, hn⟩
      rw [hx] at hn; cases hn
    exact ⟨fun hc => absurd hc hn, fun _ => by rw [e]; exact ⟨rfl, rfl⟩, by rw [e], by rw [e]⟩
  | «to» n =>
    obtain ⟨t, ht, hi'⟩ := h.c2 i n hi hx
    have htl : t < a.ss.length := by have := h.dw; omega
    have hj : a.ss[t]? = some a.ss[t] := by simp [htl]
    have hjr := h.srange _ (List.mem_of_getElem? hj)
    have e : s' = { s with up := s.up ++ [Dict.set box ROUTE (natStr (a.ss[t] - 1))]
                           log := s.log ++ [.sent .client i box] } := by
      show step s _ = _
      rw [step, h.client, mk_len, if_pos ⟨by omega, hl'⟩, sendVia_to box hjr.1 (h.c1 t i _ ht hi' hj)]
    have hn : Connected s0.client i := by
      show Connected s.client i
      rw [h.client, connected_iff]
      exact ⟨n, hx⟩
    exact ⟨fun _ => by rw [e]; exact ⟨by simp [s0], rfl⟩, fun hc => absurd hn hc, by rw [e], by rw [e]⟩

/-- **C114.** The same at the server: sending through a route puts one box on the wire, or, if the route is not connected, raises
`RouteNotConnected` and puts none. -/
theorem send_exact_server (hf : ∀ op ∈ ops, Fine op) {i : Nat} {box : Box} (hi : i ≠ 0)
    (hl : i < (run init ops).server.heap.length) :
    let s := run init ops
    let s' := run init (ops ++ [.send .server i box])
    (Connected s.server i → s'.down.length = s.down.length + 1 ∧ s'.log = s.log ++ [.sent .server i box]) ∧
    (¬ Connected s.server i → s'.down = s.down ∧ s'.log = s.log ++ [.raised .server (.other "RouteNotConnected")]) ∧
    s'.up = s.up ∧ s'.pending = s.pending := by
  obtain ⟨a, hw, hcs, h⟩ := run_inv ops hf
  have e0 : run init (ops ++ [.send .server i box]) = step (run init ops) (.send .server i box) := by
    simp [run]
  rw [e0]
  generalize run init ops = s at *
  intro s0 s'
  have hl' : i < a.v.length := by rw [h.server, mk_len] at hl; exact hl
  obtain ⟨x, hx⟩ : ∃ x, a.v[i]? = some x := ⟨a.v[i], by simp [hl']⟩
  cases x with
  | unspecified =>
    have e : s' = { s with log := s.log ++ [.raised .server (.other "RouteNotConnected")] } := by
      show step s _ = _
      rw [step, h.server, mk_len, if_pos ⟨by omega, hl'⟩, sendVia_un box hx]
      simp [h.server]
    have hn : ¬ Connected s0.server i := by
      show ¬ Connected s.server i
      rw [h.server, connected_iff]
      rintro ⟨n, hn⟩
      rw [hx] at hn; cases hn
    exact ⟨fun hc => absurd hc hn, fun _ => by rw [e]; exact ⟨rfl, rfl⟩, by rw [e], by rw [e]⟩
  | «to» n =>
    obtain ⟨t, hj⟩ := List.mem_iff_getElem?.1 (h.v2 i n hi hx)
    have htl : t < a.cs.length := by
      have := h.sc; have := (List.getElem?_eq_some_iff.1 hj).1; omega
    have hi' : a.cs[t]? = some a.cs[t] := by simp [htl]
    have hir := h.crange _ (List.mem_of_getElem? hi')
    have e : s' = { s with down := s.down ++ [Dict.set box ROUTE (natStr (a.cs[t] - 1))]
                           log := s.log ++ [.sent .server i box] } := by
      show step s _ = _
      rw [step, h.server, mk_len, if_pos ⟨by omega, hl'⟩, sendVia_to box hir.1 (h.v1 t _ i hi' hj)]
    have hn : Connected s0.server i := by
      show Connected s.server i
      rw [h.server, connected_iff]
      exact ⟨n, hx⟩
    exact ⟨fun _ => by rw [e]; exact ⟨by simp [s0], rfl⟩, fun hc => absurd hn hc, by rw [e], by rw [e]⟩

/-- **C114.** At the server a receiver is given nothing before it was started. -/
theorem server_started_first (hf : ∀ op ∈ ops, Fine op) : StartedFirst .server (run init ops).log := by
  obtain ⟨a, hw, hcs, h⟩ := run_inv ops hf
  exact h.sf

/-- **C114 (partial).** At the client a receiver is given nothing before it was started, if the receivers of the server
send nothing from inside `startReceivingBoxes`. -/
theorem client_started_first_partial (hf : ∀ op ∈ ops, Fine op) (hq : ∀ op ∈ ops, Quiet op) :
    StartedFirst .client (run init ops).log := by
  obtain ⟨a, hw, hcs, h⟩ := run_inv ops hf
  exact h.cf hq

/-- **C114 (finding).** A receiver of the server that sends a box from `startReceivingBoxes` — as `CountClient` of
`route_client.py` does at its end — has it on the wire before the answer, and the receiver of the client is given it
before it was started. -/
theorem client_started_first_fails :
    let ops : List Op := [.connect, .toServer [[([120], [121])]], .toClient []]
    (∀ op ∈ ops, Fine op) ∧ ¬ StartedFirst .client (run init ops).log ∧
    (run init ops).log = [.started .server 1, .sent .server 1 [([120], [121])], .got .client 1 [([120], [121])]] := by
  have e : (run init [.connect, .toServer [[([120], [121])]], .toClient []]).log =
      [.started .server 1, .sent .server 1 [([120], [121])], .got .client 1 [([120], [121])]] := by decide +kernel
  refine ⟨?_, ?_, e⟩
  · intro op hop
    simp only [List.mem_cons, List.not_mem_nil, or_false] at hop
    rcases hop with rfl | rfl | rfl
    · trivial
    · intro b hb
      simp only [List.mem_singleton] at hb
      subst hb
      decide
    · intro b hb; cases hb
  · intro hs
    have := hs [.started .server 1, .sent .server 1 [([120], [121])]] 1 [([120], [121])] [] e
    simp at this

/-- **C114.** When nothing is on its way, every call was answered, every route asked for is connected, and everything sent
was received. -/
theorem drained (hf : ∀ op ∈ ops, Fine op) (hu : (run init ops).up = []) (hd : (run init ops).down = []) :
    (run init ops).pending = [] ∧
    ∀ i ∈ asked 1 ops, i ≠ 0 ∧ Connected (run init ops).client i ∧
      ∀ j, MadeFor (run init ops) i j →
        gotOf .server j (run init ops).log = sentOf .client i (run init ops).log ∧
        gotOf .client i (run init ops).log = sentOf .server j (run init ops).log := by
  obtain ⟨a, hw, hcs, h⟩ := run_inv ops hf
  have hus : a.us = [] := by
    have := h.up; rw [hu] at this
    exact List.map_eq_nil_iff.1 this.symm
  have hds : a.ds = [] := by
    have := h.down; rw [hd] at this
    exact List.map_eq_nil_iff.1 this.symm
  have h1 := h.reqs
  rw [hus] at h1
  have h1' := (List.drop_eq_nil_iff.1 h1.symm)
  have h2 := h.anss
  rw [hds, hw, List.take_length] at h2
  have h2' := (List.drop_eq_nil_iff.1 h2.symm)
  simp only [List.length_zipIdx] at h1' h2'
  have hdc : a.cs.length ≤ a.d := by omega
  refine ⟨?_, ?_⟩
  · rw [h.pending, List.drop_eq_nil_iff.2 (by simpa using hdc)]; rfl
  · intro i hi
    rw [← hcs] at hi
    have hir := h.crange i hi
    refine ⟨by omega, (h.connC (by omega)).2 (by rw [List.take_of_length_le hdc]; exact hi), ?_⟩
    intro j hm
    obtain ⟨t, e, hj⟩ := (h.made (by omega)).1 hm
    have hfu := h.flowU t i j e hj
    have hfd := h.flowD t i j e hj
    rw [hus] at hfu
    rw [hds] at hfd
    exact ⟨by rw [hfu]; simp [dataU], by rw [hfd]; simp [dataD]⟩

/-- The deliveries that bring everything over: first what is on its way to the server, then what is on its way back. -/
def deliveries (s : Sys) : List Op :=
  List.replicate s.up.length (.toServer []) ++
    List.replicate (run s (List.replicate s.up.length (.toServer []))).down.length (.toClient [])

theorem drain_up {q : Prop} : ∀ (n : Nat) {a : Abs} {s : Sys}, SInv q a s → a.w = a.ss.length → a.us.length = n →
    ∃ a', a'.w = a'.ss.length ∧ a'.us = [] ∧ SInv q a' (run s (List.replicate n (.toServer []))) := by
  intro n
  induction n with
  | zero => intro a s h hw hn; exact ⟨a, hw, List.length_eq_zero_iff.1 hn, h⟩
  | succ n ih =>
    intro a s h hw hn
    obtain ⟨a', h1, _, _, h4, h5⟩ := toServer_inv h hw [] (by simp)
    exact ih (h5.weaken (fun x => ⟨x, rfl⟩)) h1 (by rw [h4, List.length_tail]; omega)

theorem drain_down {q : Prop} : ∀ (n : Nat) {a : Abs} {s : Sys}, SInv q a s → a.w = a.ss.length → a.ds.length = n →
    a.us = [] →
    ∃ a', a'.us = [] ∧ a'.ds = [] ∧ SInv q a' (run s (List.replicate n (.toClient []))) := by
  intro n
  induction n with
  | zero => intro a s h hw hn hu; exact ⟨a, hu, List.length_eq_zero_iff.1 hn, h⟩
  | succ n ih =>
    intro a s h hw hn hu
    obtain ⟨a', h1, _, _, h4, h5, h6⟩ := toClient_inv h hw [] (by simp)
    exact ih h6 h1 (by rw [h4, List.length_tail]; omega) (by rw [h5 rfl]; exact hu)

/-- **C114.** From any state the deliveries alone bring everything over, so every route asked for gets connected. -/
theorem all_connected (hf : ∀ op ∈ ops, Fine op) :
    let s := run init (ops ++ deliveries (run init ops))
    s.up = [] ∧ s.down = [] ∧ s.pending = [] ∧ ∀ i ∈ asked 1 ops, Connected s.client i := by
  obtain ⟨a, hw, hcs, h⟩ := run_inv ops hf
  intro s
  have es : s = run (run (run init ops) (List.replicate (run init ops).up.length (.toServer [])))
      (List.replicate (run (run init ops) (List.replicate (run init ops).up.length (.toServer []))).down.length
        (.toClient [])) := by
    simp [s, run, deliveries, List.foldl_append]
  have hul : a.us.length = (run init ops).up.length := by rw [h.up]; simp
  obtain ⟨a₁, hw₁, hu₁, h₁⟩ := drain_up _ h hw hul
  have hdl : a₁.ds.length =
      (run (run init ops) (List.replicate (run init ops).up.length (.toServer []))).down.length := by rw [h₁.down]; simp
  obtain ⟨a₂, hu₂, hd₂, h₂⟩ := drain_down _ h₁ hw₁ hdl hu₁
  rw [← es] at h₂
  have hup : s.up = [] := by rw [h₂.up, hu₂]; rfl
  have hdown : s.down = [] := by rw [h₂.down, hd₂]; rfl
  have hf' : ∀ op ∈ ops ++ deliveries (run init ops), Fine op := by
    intro op hop
    rcases List.mem_append.1 hop with hop | hop
    · exact hf op hop
    · rcases List.mem_append.1 hop with hop | hop
      · rw [List.eq_of_mem_replicate hop]; intro b hb; cases hb
      · rw [List.eq_of_mem_replicate hop]; intro b hb; cases hb
  obtain ⟨hp, hall⟩ := drained hf' hup hdown
  refine ⟨hup, hdown, hp, fun i hi => ?_⟩
  have : ∀ (l l' : List Op) (n : Nat), i ∈ asked n l → i ∈ asked n (l ++ l') := by
    intro l l'
    induction l with
    | nil => intro n h; cases h
    | cons op l ih =>
      intro n h
      cases op with
      | connect =>
        rcases List.mem_cons.1 h with h | h
        · exact List.mem_cons.2 (.inl h)
        · exact List.mem_cons.2 (.inr (ih _ h))
      | bind side => cases side <;> exact ih _ h
      | send _ _ _ => exact ih _ h
      | toServer _ => exact ih _ h
      | toClient _ => exact ih _ h
  exact (hall i (this _ _ _ hi)).2.1

/-! ## Losing the connection -/

theorem failAll_exact : ∀ (l : List (Str × Nat)) (r : Router) (m : Dict RName Nat), r.routes = some m →
    (∀ p ∈ l, ∃ ro, r.heap[p.2]? = some ro ∧ ro.localName = nm p.2 ∧ nm p.2 ∈ Dict.keys m) →
    (l.map Prod.snd).Nodup → Dict.WF m →
    ∃ m', failAll r l = ({ r with routes := some m' }, []) ∧ m'.length + l.length = m.length ∧
      ∀ x, x ∈ Dict.keys m' ↔ x ∈ Dict.keys m ∧ ∀ p ∈ l, x ≠ nm p.2 := by
  intro l
  induction l with
  | nil =>
    intro r m hm _ _ _
    exact ⟨m, by rw [failAll, ← hm], rfl, fun x => by simp⟩
  | cons p l ih =>
    intro r m hm hl hn hwf
    obtain ⟨tag, rid⟩ := p
    obtain ⟨ro, h1, h2, h3⟩ := hl (tag, rid) List.mem_cons_self
    simp only at h1 h2 h3
    have hhas : Dict.has m (nm rid) = true := (Dict.has_iff m (nm rid)).2 h3
    have hu : unbind r rid = ({ r with routes := some (Dict.erase m (nm rid)) }, [], .ok ()) := by
      rw [unbind, h1]
      simp only
      rw [hm]
      simp only
      rw [h2, if_pos hhas]
    simp only [List.map_cons, List.nodup_cons] at hn
    have hlen : (Dict.erase m (nm rid)).length + 1 = m.length := by
      have key : ∀ d : Dict RName Nat, nm rid ∈ Dict.keys d → (Dict.erase d (nm rid)).length + 1 = d.length := by
        intro d
        induction d with
        | nil => intro h; cases h
        | cons x d ih =>
          intro h
          obtain ⟨k, v⟩ := x
          by_cases e : k = nm rid
          · rw [Dict.erase, if_pos e]; rfl
          · rw [Dict.erase, if_neg e]
            have : nm rid ∈ Dict.keys d := by
              simp only [Dict.keys, List.map_cons, List.mem_cons] at h
              rcases h with h | h
              · exact absurd h.symm e
              · exact h
            simp [ih this]
      exact key m h3
    have hk : ∀ x, x ∈ Dict.keys (Dict.erase m (nm rid)) ↔ x ∈ Dict.keys m ∧ x ≠ nm rid := by
      intro x
      rw [← Dict.has_iff, ← Dict.has_iff, Dict.has, Dict.has]
      by_cases e : x = nm rid
      · subst e; rw [Dict.get?_erase_same hwf]; simp
      · rw [Dict.get?_erase_other _ _ _ (fun e' => e e'.symm)]; simp [e]
    obtain ⟨m', e1, e2, e3⟩ := ih { r with routes := some (Dict.erase m (nm rid)) } _ rfl
      (fun p hp => by
        obtain ⟨ro', g1, g2, g3⟩ := hl p (List.mem_cons_of_mem _ hp)
        refine ⟨ro', g1, g2, (hk _).2 ⟨g3, fun e => ?_⟩⟩
        have := nm_inj e
        exact hn.1 (List.mem_map.2 ⟨p, hp, this⟩))
      hn.2 (Dict.WF.erase hwf _)
    refine ⟨m', ?_, ?_, ?_⟩
    · rw [failAll, hu]
      simp only
      rw [e1]
    · simp only [List.length_cons]; omega
    · intro x
      rw [e3, hk]
      simp only [List.mem_cons, forall_eq_or_imp]
      exact ⟨fun h => ⟨h.1.1, h.1.2, h.2⟩, fun h => ⟨⟨h.1, h.2.1⟩, h.2.2⟩⟩

theorem stopLoop_quiet (n : Nat) (r : Router) (hr : tableSize r = n) :
    ∀ items : List (RName × Nat), stopLoop n r [] items = (r, items.map fun p => .stopped .client p.2, true) := by
  intro items
  induction items with
  | nil => rw [stopLoop, if_pos hr]; rfl
  | cons p items ih =>
    obtain ⟨k, rid⟩ := p
    rw [stopLoop, if_pos hr]
    by_cases e : rid = 0
    · simp only [if_pos e, failAll]
      rw [ih]; rfl
    · simp only [if_neg e]
      rw [ih]; rfl

/-- **C114.** When the connection is lost and no call is outstanding, every receiver bound at the client is stopped, once,
in the order they were bound. -/
theorem lose_exact (hf : ∀ op ∈ ops, Fine op) (hp : (run init ops).pending = []) :
    (lose (run init ops)).log = (run init ops).log ++
      (List.range (run init ops).client.heap.length).map (.stopped .client) ∧
    (lose (run init ops)).client.routes = none := by
  obtain ⟨a, hw, hcs, h⟩ := run_inv ops hf
  have hr : (run init ops).client.routes = some (tbl a.c.length) := by rw [h.client]; rfl
  have hs : tableSize (run init ops).client = (tbl a.c.length).length := by rw [tableSize, hr]
  rw [lose, hr]
  simp only
  rw [hp, stopLoop_quiet _ _ hs]
  simp only
  rw [h.client, mk_len]
  exact ⟨by simp [tbl, List.map_map, Function.comp_def], by trivial⟩

/-- **C114 (finding).** When the connection is lost and a call of `connect` is outstanding, its errback takes the route out
of the dictionary over which `stopReceivingBoxes` is iterating: `RuntimeError`.  No receiver but the AMP protocol itself is
told that the connection is gone — however many connected routes there are — and the router keeps its routes. -/
theorem lose_fails (hf : ∀ op ∈ ops, Fine op) (hp : (run init ops).pending ≠ []) :
    (lose (run init ops)).log =
      (run init ops).log ++ [.stopped .client 0, .raised .client .runtimeError] ∧
    (lose (run init ops)).client.routes ≠ none := by
  obtain ⟨a, hw, hcs, h⟩ := run_inv ops hf
  have hc : 0 < a.c.length := (List.getElem?_eq_some_iff.1 h.c0).1
  have hr : (run init ops).client.routes = some (tbl a.c.length) := by rw [h.client]; rfl
  have hs : tableSize (run init ops).client = (tbl a.c.length).length := by rw [tableSize, hr]
  have hmem : ∀ p ∈ (run init ops).pending, p.2 ∈ a.cs := by
    intro p hp
    rw [h.pending] at hp
    obtain ⟨⟨i, t⟩, hx, rfl⟩ := List.mem_map.1 hp
    have hm := List.mem_of_mem_drop hx
    exact List.fst_mem_of_mem_zipIdx hm
  have hnd : ((run init ops).pending.map Prod.snd).Nodup := by
    have : (run init ops).pending.map Prod.snd = a.cs.drop a.d := by
      rw [h.pending, List.map_map]
      have e : (Prod.snd ∘ fun p : Nat × Nat => (natStr p.2, p.1)) = Prod.fst := rfl
      rw [e, List.map_drop, List.zipIdx_map_fst]
    rw [this]
    exact h.cnodup.sublist (List.drop_sublist _ _)
  obtain ⟨m', e1, e2, _⟩ := failAll_exact (run init ops).pending (run init ops).client (tbl a.c.length) hr
    (fun p hp => by
      have hrg := h.crange _ (hmem p hp)
      refine ⟨⟨p.2, nm p.2, a.c[p.2]⟩, by rw [h.client, mk_get]; simp [hrg.2], rfl, ?_⟩
      exact (tbl_keys _ _).2 ⟨p.2, hrg.2, rfl⟩)
    hnd (tbl_wf _)
  have hplen : 0 < (run init ops).pending.length := List.length_pos_iff.2 hp
  obtain ⟨k, hk⟩ : ∃ k, a.c.length = k + 1 := ⟨a.c.length - 1, by omega⟩
  have ht : ∃ rest, tbl a.c.length = (none, 0) :: rest := by
    rw [hk, tbl, List.range_succ_eq_map]
    exact ⟨_, rfl⟩
  obtain ⟨rest, ht⟩ := ht
  have hne : ¬ tableSize { (run init ops).client with routes := some m' } = (tbl a.c.length).length := by
    show ¬ m'.length = _
    omega
  have hloop : stopLoop (tbl a.c.length).length (run init ops).client (run init ops).pending (tbl a.c.length) =
      ({ (run init ops).client with routes := some m' }, [.stopped .client 0, .raised .client .runtimeError], false) := by
    have hrest : ∀ used, ¬ tableSize { (run init ops).client with routes := some m' } = used →
        stopLoop used { (run init ops).client with routes := some m' } [] rest =
        ({ (run init ops).client with routes := some m' }, [.raised .client .runtimeError], false) := by
      intro used hne
      cases rest with
      | nil => rw [stopLoop, if_neg hne]
      | cons p rest => obtain ⟨k, v⟩ := p; rw [stopLoop, if_neg hne]
    generalize hu : (tbl a.c.length).length = used at *
    rw [ht, stopLoop, if_pos hs]
    simp only [if_true]
    rw [e1]
    simp only
    rw [hrest used hne]
    rfl
  rw [lose, hr]
  simp only
  rw [hloop]
  exact ⟨rfl, fun e => by cases e⟩

/-! ## Concrete cases -/

/-- Two routes with an unconnected one between them at the server: the names at the two ends differ. -/
example :
    let s := run init [.connect, .connect, .toServer [], .bind .server, .toServer [], .toClient [], .toClient [],
      .send .client 2 [([120], [121])], .toServer [], .send .server 3 [([122], [122])], .toClient []]
    s.client.heap = [⟨0, none, .to none⟩, ⟨1, some [48], .to (some [48])⟩, ⟨2, some [49], .to (some [50])⟩] ∧
    s.server.heap = [⟨0, none, .to none⟩, ⟨1, some [48], .to (some [48])⟩, ⟨2, some [49], .unspecified⟩,
      ⟨3, some [50], .to (some [49])⟩] ∧
    gotOf .server 3 s.log = [[([120], [121])]] ∧ gotOf .client 2 s.log = [[([122], [122])]] := by decide +kernel

/-- A connected route, and one outstanding call, when the connection is lost. -/
example :
    let s := run init [.connect, .toServer [], .toClient [], .connect]
    s.pending ≠ [] ∧ (lose s).log = [.started .server 1, .started .client 1, .stopped .client 0,
      .raised .client .runtimeError] := by decide +kernel

/-- The same without the outstanding call. -/
example : (lose (run init [.connect, .toServer [], .toClient []])).log =
    [.started .server 1, .started .client 1, .stopped .client 0, .stopped .client 1] := by decide +kernel

example : asked 1 [.bind .client, .connect, .bind .server, .connect] = [2, 3] := rfl

end Verif.RouteSetup
