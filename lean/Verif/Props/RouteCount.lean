import Verif.Model.RouteCount
import Verif.Props.RouteSetup
/-!
# C142: the documented counters count for each client by itself
-/
namespace Verif.RouteCount
open Verif.Py Verif.Router Verif.RouteSetup

/-- The answer to call number `k` of a client: its number, and how many calls there were up to it. -/
def answer (k : Nat) : Box := [(ANSWER, natStr k), (VALUE, natStr (k + 1))]

/-- The calls that route `i` of the client has made. -/
def calls (a : App) (i : Nat) : Nat :=
  match a.clients i with
  | none => 0
  | some c => c.calls

theorem request_fine (k : Nat) : ROUTE ∉ Dict.keys (request k) := by
  simp [request, Dict.keys, ROUTE, COMMAND, ASK]

theorem answer_fine (k : Nat) : ROUTE ∉ Dict.keys (answer k) := by
  simp [answer, Dict.keys, ROUTE, ANSWER, VALUE]

/-! ## What a delivery adds to the log -/

theorem sendVia_ok {side : Side} {r : Router} {rid : Nat} {ro : Route} {n : RName} (h1 : r.heap[rid]? = some ro)
    (h2 : ro.remote = .to n) (h3 : r.sender = true) (b : Box) : (sendVia side r rid b).2 = [.sent side rid b] := by
  simp [sendVia, sendBox, h1, h2, h3]

theorem sendMany_ok {side : Side} {r : Router} {rid : Nat} {ro : Route} {n : RName} (h1 : r.heap[rid]? = some ro)
    (h2 : ro.remote = .to n) (h3 : r.sender = true) (bs : List Box) :
    (sendMany side r rid bs).2 = bs.map (.sent side rid) := by
  induction bs with
  | nil => rfl
  | cons b bs ih =>
    rw [sendMany]
    have := sendVia_ok (side := side) h1 h2 h3 b
    simp only [List.map_cons, ← ih, this, List.singleton_append]

/-- The log only grows, by one of these. -/
theorem toServer_log (s : Sys) : ∃ l, (toServer s []).log = s.log ++ l ∧
    (l = [] ∨ (∃ rid, l = [.started .server rid]) ∨ (∃ e, l = [.raised .server e]) ∨ ∃ rid b, l = [.got .server rid b]) := by
  have hn : ∀ s tag name, ∃ l, (newRoute s tag name []).log = s.log ++ l ∧
      (l = [] ∨ (∃ rid, l = [.started .server rid]) ∨ (∃ e, l = [.raised .server e]) ∨ ∃ rid b, l = [.got .server rid b]) := by
    intro s tag name
    unfold newRoute
    split
    · split
      · simp only [sendMany]
        split
        · exact ⟨_, by simp; rfl, .inr (.inl ⟨_, rfl⟩)⟩
        · exact ⟨_, rfl, .inr (.inr (.inl ⟨_, rfl⟩))⟩
      · exact ⟨_, rfl, .inr (.inr (.inl ⟨_, rfl⟩))⟩
    · exact ⟨_, rfl, .inr (.inr (.inl ⟨_, rfl⟩))⟩
    · exact ⟨_, rfl, .inr (.inr (.inl ⟨_, rfl⟩))⟩
  unfold toServer
  split
  · exact ⟨[], by simp, .inl rfl⟩
  · dsimp only
    split
    · split
      · unfold serverProto
        split
        · split
          · exact hn _ _ _
          · exact ⟨_, rfl, .inr (.inr (.inl ⟨_, rfl⟩))⟩
        · exact ⟨_, rfl, .inr (.inr (.inl ⟨_, rfl⟩))⟩
      · exact ⟨_, rfl, .inr (.inr (.inr ⟨_, _, rfl⟩))⟩
    · exact ⟨_, rfl, .inr (.inr (.inl ⟨_, rfl⟩))⟩
    · exact ⟨[], by simp, .inl rfl⟩

theorem toClient_log (s : Sys) (bs : List Box) : ∃ l, (toClient s bs).log = s.log ++ l ∧
    (l = [] ∨ (∃ rid, l = .started .client rid :: bs.map (.sent .client rid)) ∨ (∃ e, l = [.raised .client e]) ∨
      ∃ rid b, l = [.got .client rid b]) := by
  have hn : ∀ s rid name, ∃ l, (answered s rid name bs).log = s.log ++ l ∧
      (l = [] ∨ (∃ rid, l = .started .client rid :: bs.map (.sent .client rid)) ∨ (∃ e, l = [.raised .client e]) ∨
        ∃ rid b, l = [.got .client rid b]) := by
    intro s rid name
    unfold answered
    split
    · rename_i r _ _ hc
      have : ∃ ro : Route, r.heap[rid]? = some ro ∧ ro.remote = .to (some name) ∧ r.sender = true := by
        unfold connectTo at hc
        split at hc
        · cases hc
        · rename_i route hr
          simp only [Prod.mk.injEq] at hc
          obtain ⟨rfl, h2, -⟩ := hc
          refine ⟨{ route with remote := .to (some name) }, ?_, rfl, ?_⟩
          · have := (List.getElem?_eq_some_iff.1 hr).1
            simp [this]
          · by_contra h
            rw [if_neg h] at h2
            cases h2
      obtain ⟨ro, h1, h2, h3⟩ := this
      have := sendMany_ok (side := .client) h1 h2 h3 bs
      refine ⟨.started .client rid :: bs.map (.sent .client rid), ?_, .inr (.inl ⟨_, rfl⟩)⟩
      simp [this]
    · exact ⟨_, rfl, .inr (.inr (.inl ⟨_, rfl⟩))⟩
  unfold toClient
  split
  · exact ⟨[], by simp, .inl rfl⟩
  · dsimp only
    split
    · split
      · unfold clientProto
        split
        · split
          · exact hn _ _ _
          · exact ⟨_, rfl, .inr (.inr (.inl ⟨_, rfl⟩))⟩
        · exact ⟨_, rfl, .inr (.inr (.inl ⟨_, rfl⟩))⟩
      · exact ⟨_, rfl, .inr (.inr (.inr ⟨_, _, rfl⟩))⟩
    · exact ⟨_, rfl, .inr (.inr (.inl ⟨_, rfl⟩))⟩
    · exact ⟨[], by simp, .inl rfl⟩

/-! ## The invariant -/

/-- What the log says about every route of either end, and the protocols know. -/
structure Inv (a : App) : Prop where
  ops : ∃ ops, (∀ op ∈ ops, Fine op) ∧ (∀ op ∈ ops, Quiet op) ∧ a.sys = RouteSetup.run RouteSetup.init ops
  sentC : ∀ i, sentOf .client i a.sys.log = (List.range (calls a i)).map request
  sentS : ∀ j, sentOf .server j a.sys.log = (List.range (gotOf .server j a.sys.log).length).map answer
  counter : ∀ j, a.counters j = (gotOf .server j a.sys.log).length
  started : ∀ i, a.clients i ≠ none ↔ .started .client i ∈ a.sys.log
  client : ∀ i c, a.clients i = some c →
    c.shown = (List.range (gotOf .client i a.sys.log).length).map (fun k => (k, natStr (k + 1))) ∧
    c.waiting = ((List.range c.calls).drop (gotOf .client i a.sys.log).length).map fun k => (natStr k, k)
  unhandled : a.unhandled = []

theorem inv_new : Inv App.new where
  ops := ⟨[], by simp, by simp, rfl⟩
  sentC _ := rfl
  sentS _ := rfl
  counter _ := rfl
  started i := by simp [App.new, RouteSetup.init]
  client i c h := by cases h
  unhandled := rfl

theorem asked_ge (ops : List RouteSetup.Op) : ∀ n, ∀ i ∈ asked n ops, n ≤ i := by
  induction ops with
  | nil => intro n i h; cases h
  | cons op ops ih =>
    intro n i h
    cases op with
    | connect =>
      rw [asked, List.mem_cons] at h
      rcases h with rfl | h
      · exact Nat.le_refl _
      · have := ih _ i h; omega
    | bind side =>
      cases side with
      | client => rw [asked] at h; have := ih _ i h; omega
      | server => rw [asked] at h; exact ih _ i h; all_goals simp
    | send side rid box => exact ih _ i h
    | toServer burst => exact ih _ i h
    | toClient burst => exact ih _ i h

/-- Steps that add nothing of interest to the log. -/
theorem Inv.quiet {a : App} (h : Inv a) {op : RouteSetup.Op} (hf : Fine op) (hq : Quiet op) (l : List Ev)
    (hl : (RouteSetup.step a.sys op).log = a.sys.log ++ l)
    (hp : l = [] ∨ (∃ rid, l = [.started .server rid]) ∨ ∃ side e, l = [.raised side e]) :
    Inv { a with sys := RouteSetup.step a.sys op } := by
  have hs : ∀ side i, sentOf side i l = [] ∧ gotOf side i l = [] ∧ .started .client i ∉ l := by
    intro side i
    rcases hp with rfl | ⟨r, rfl⟩ | ⟨sd, e, rfl⟩ <;> simp [sentOf, gotOf]
  have h1 : ∀ side i, sentOf side i (RouteSetup.step a.sys op).log = sentOf side i a.sys.log := by
    intro side i; rw [hl, sentOf_append, (hs side i).1, List.append_nil]
  have h2 : ∀ side i, gotOf side i (RouteSetup.step a.sys op).log = gotOf side i a.sys.log := by
    intro side i; rw [hl, gotOf_append, (hs side i).2.1, List.append_nil]
  obtain ⟨ops, o1, o2, o3⟩ := h.ops
  refine ⟨⟨ops ++ [op], ?_, ?_, ?_⟩, ?_, ?_, ?_, ?_, ?_, h.unhandled⟩
  · intro x hx; rcases List.mem_append.1 hx with hx | hx
    · exact o1 x hx
    · rw [List.mem_singleton.1 hx]; exact hf
  · intro x hx; rcases List.mem_append.1 hx with hx | hx
    · exact o2 x hx
    · rw [List.mem_singleton.1 hx]; exact hq
  · simp [o3, RouteSetup.run]
  · intro i; rw [h1]; exact h.sentC i
  · intro j; rw [h1, h2]; exact h.sentS j
  · intro j; rw [h2]; exact h.counter j
  · intro i
    rw [hl, List.mem_append, h.started i]
    have := (hs .client i).2.2
    constructor
    · exact .inl
    · rintro (x | x)
      · exact x
      · exact absurd x this
  · intro i c hc; rw [h2]; exact h.client i c hc

/-- What a route of the server has been given is the beginning of what a client has asked. -/
theorem Inv.requests {s : Sys} {ops} (o1 : ∀ op ∈ ops, Fine op) (o3 : s = RouteSetup.run RouteSetup.init ops) {f : Nat → Nat}
    (hs : ∀ i, sentOf .client i s.log = (List.range (f i)).map request) {j : Nat} (hj : gotOf .server j s.log ≠ []) :
    j ≠ 0 ∧ Connected s.server j ∧ ∃ i n, i ≠ 0 ∧ MadeFor s i j ∧ n ≤ f i ∧ gotOf .server j s.log = (List.range n).map request := by
  subst o3
  obtain ⟨h0, hc⟩ := (nothing_else o1).1 j hj
  obtain ⟨i, hi, hm, -⟩ := server_paired o1 h0 hc
  have hi0 : i ≠ 0 := by have := asked_ge ops 1 i hi; omega
  obtain ⟨ri, rj, -, hrj, -⟩ := id hm
  have hflow := (flow_exact o1 hi0 hm).1 rj hrj
  rw [hs i] at hflow
  refine ⟨h0, hc, i, (gotOf .server j (RouteSetup.run RouteSetup.init ops).log).length, hi0, hm, ?_, ?_⟩
  · have := congrArg List.length hflow
    simp only [List.length_map, List.length_range, List.length_append] at this
    omega
  · have h1 := congrArg (List.take (gotOf .server j (RouteSetup.run RouteSetup.init ops).log).length) hflow
    rw [List.take_left] at h1
    rw [← h1, ← List.map_take, List.take_range]
    have := congrArg List.length hflow
    simp only [List.length_map, List.length_range, List.length_append] at this
    congr 2
    simp only [List.length_map, List.length_range]

theorem run_snoc (ops : List RouteSetup.Op) (op : RouteSetup.Op) :
    RouteSetup.run RouteSetup.init (ops ++ [op]) = RouteSetup.step (RouteSetup.run RouteSetup.init ops) op := by
  simp [RouteSetup.run]

theorem mem_snoc {P : RouteSetup.Op → Prop} {ops : List RouteSetup.Op} {op : RouteSetup.Op} (h : ∀ x ∈ ops, P x) (h' : P op) :
    ∀ x ∈ ops ++ [op], P x := by
  intro x hx; rcases List.mem_append.1 hx with hx | hx
  · exact h x hx
  · rw [List.mem_singleton.1 hx]; exact h'

theorem got_sent_one (side side' : Side) (i j : Nat) (b : Box) :
    sentOf side i [.got side' j b] = [] ∧ gotOf side i [.sent side' j b] = [] ∧
    gotOf side i [.got side' j b] = (if side' = side ∧ j = i then [b] else []) ∧
    sentOf side i [.sent side' j b] = (if side' = side ∧ j = i then [b] else []) := by
  refine ⟨rfl, rfl, ?_, ?_⟩ <;> by_cases h : side' = side ∧ j = i <;> simp [gotOf, sentOf, h]

/-- The server is given a request and answers it. -/
theorem Inv.served {a : App} (h : Inv a) {rid : Nat} {b : Box}
    (hl : (RouteSetup.step a.sys (.toServer [])).log = a.sys.log ++ [.got .server rid b]) :
    Inv (serve { a with sys := RouteSetup.step a.sys (.toServer []) } (.got .server rid b)) := by
  obtain ⟨ops, o1, o2, o3⟩ := h.ops
  generalize hs : RouteSetup.step a.sys (.toServer []) = s at hl ⊢
  have f1 : ∀ op ∈ ops ++ [RouteSetup.Op.toServer []], Fine op := mem_snoc o1 (fun b hb => by cases hb)
  have q1 : ∀ op ∈ ops ++ [RouteSetup.Op.toServer []], Quiet op := mem_snoc o2 rfl
  have e1 : s = RouteSetup.run RouteSetup.init (ops ++ [.toServer []]) := by rw [run_snoc, ← o3, hs]
  have hsC : ∀ i, sentOf .client i s.log = (List.range (calls a i)).map request := by
    intro i; rw [hl, sentOf_append, (got_sent_one _ _ _ _ _).1, List.append_nil]; exact h.sentC i
  have hg : ∀ side i, gotOf side i s.log = gotOf side i a.sys.log ++ if Side.server = side ∧ rid = i then [b] else [] := by
    intro side i; rw [hl, gotOf_append, (got_sent_one _ _ _ _ _).2.2.1]
  have hne : gotOf .server rid s.log ≠ [] := by rw [hg]; simp
  obtain ⟨h0, hc, i, n, hi, hm, hn, hreq⟩ := Inv.requests f1 e1 hsC hne
  have hb : b = request (gotOf .server rid a.sys.log).length := by
    have e := hg .server rid
    rw [hreq] at e
    simp only [and_self, if_true] at e
    have hl := congrArg List.length e
    simp only [List.length_map, List.length_range, List.length_append, List.length_singleton] at hl
    rw [hl, List.range_succ, List.map_append] at e
    have := List.append_inj_right e (by simp)
    simpa using this.symm
  subst hb
  have hlen : rid < s.server.heap.length := by
    obtain ⟨ri, n, hx, -⟩ := hc
    exact (List.getElem?_eq_some_iff.1 hx).1
  have hget : Dict.get? (request (gotOf .server rid a.sys.log).length) COMMAND = some COUNT ∧
      Dict.get? (request (gotOf .server rid a.sys.log).length) ASK = some (natStr (gotOf .server rid a.sys.log).length) := by
    constructor <;> simp [request, Dict.get?, COMMAND, ASK]
  have hstep : (RouteSetup.step s (.send .server rid (answer (gotOf .server rid a.sys.log).length))).log =
      s.log ++ [.sent .server rid (answer (gotOf .server rid a.sys.log).length)] := by
    have := send_exact_server (box := answer (gotOf .server rid a.sys.log).length) f1 h0 (by rw [← e1]; exact hlen)
    dsimp only at this
    rw [run_snoc (ops ++ [RouteSetup.Op.toServer []]), ← e1] at this
    exact (this.1 hc).2
  have hserve : serve { a with sys := s } (.got .server rid (request (gotOf .server rid a.sys.log).length)) =
      { a with sys := RouteSetup.step s (.send .server rid (answer (gotOf .server rid a.sys.log).length))
               counters := setCounter a.counters rid ((gotOf .server rid a.sys.log).length + 1) } := by
    simp only [serve, hget.1, hget.2, if_true, h.counter rid]
    rfl
  rw [hserve]
  generalize hs' : RouteSetup.step s (.send .server rid (answer (gotOf .server rid a.sys.log).length)) = s' at hstep
  have hg' : ∀ side i, gotOf side i s'.log = gotOf side i a.sys.log ++
      if Side.server = side ∧ rid = i then [request (gotOf .server rid a.sys.log).length] else [] := by
    intro side i; rw [hstep, gotOf_append, (got_sent_one _ _ _ _ _).2.1, List.append_nil, hg]
  have hs2 : ∀ side i, sentOf side i s'.log = sentOf side i a.sys.log ++
      if Side.server = side ∧ rid = i then [answer (gotOf .server rid a.sys.log).length] else [] := by
    intro side i
    rw [hstep, sentOf_append, (got_sent_one _ _ _ _ _).2.2.2, hl, sentOf_append, (got_sent_one _ _ _ _ _).1, List.append_nil]
  refine ⟨⟨ops ++ [.toServer []] ++ [.send .server rid (answer (gotOf .server rid a.sys.log).length)],
    mem_snoc (op := .send .server rid _) f1 (answer_fine _), mem_snoc (op := .send .server rid _) q1 trivial, by rw [run_snoc, ← e1, hs']⟩, ?_, ?_, ?_, ?_, ?_, h.unhandled⟩
  · intro i; rw [hs2, if_neg (by simp), List.append_nil]; exact h.sentC i
  · intro j
    rw [hs2, hg', h.sentS j]
    by_cases e : rid = j
    · subst e; simp [List.range_succ]
    · simp [e]
  · intro j
    rw [hg']
    by_cases e : rid = j
    · subst e; simp [setCounter]
    · have := h.counter j
      simp [setCounter, e, Ne.symm e, this]
  · intro i
    rw [hstep, hl, h.started i]
    simp
  · intro i c hci
    rw [hg']
    simpa using h.client i c hci

theorem started_le (ops : List RouteSetup.Op) (hf : ∀ op ∈ ops, Fine op) (i : Nat) :
    (RouteSetup.run RouteSetup.init ops).log.count (.started .client i) ≤ 1 ∧
    (.started .client i ∈ (RouteSetup.run RouteSetup.init ops).log →
      i ≠ 0 ∧ Connected (RouteSetup.run RouteSetup.init ops).client i) := by
  obtain ⟨a, hw, hcs, h⟩ := run_inv ops hf
  rw [h.st1 i]
  constructor
  · split <;> omega
  · intro hm
    have := List.count_pos_iff.2 hm
    rw [h.st1 i] at this
    split at this
    · rename_i hi
      have h0 : i ≠ 0 := by have := h.crange i (List.mem_of_mem_take hi); omega
      exact ⟨h0, (h.connC h0).2 hi⟩
    · omega

theorem sent_many (i rid : Nat) (bs : List Box) :
    sentOf .client i (bs.map (.sent .client rid)) = (if rid = i then bs else []) ∧
    sentOf .server i (bs.map (.sent .client rid)) = [] ∧ (∀ side, gotOf side i (bs.map (.sent .client rid)) = []) := by
  induction bs with
  | nil => simp [sentOf, gotOf]
  | cons b bs ih =>
    obtain ⟨h1, h2, h3⟩ := ih
    refine ⟨?_, ?_, fun side => ?_⟩
    · rw [List.map_cons, ← List.singleton_append, sentOf_append, h1, (got_sent_one _ _ _ _ _).2.2.2]
      by_cases e : rid = i <;> simp [e]
    · rw [List.map_cons, ← List.singleton_append, sentOf_append, h2, (got_sent_one _ _ _ _ _).2.2.2]
      simp
    · rw [List.map_cons, ← List.singleton_append, gotOf_append, h3 side, (got_sent_one _ _ _ _ _).2.1]
      rfl

theorem foldl_sent (n rid : Nat) (bs : List Box) (a : App) : (bs.map (Ev.sent .client rid)).foldl (receive n) a = a := by
  induction bs generalizing a with
  | nil => rfl
  | cons b bs ih => rw [List.map_cons, List.foldl_cons]; exact ih a

/-- A client is started. -/
theorem Inv.begun {a : App} (h : Inv a) {rid n : Nat}
    (hl : (RouteSetup.step a.sys (.toClient ((List.range n).map request))).log =
      a.sys.log ++ (.started .client rid :: ((List.range n).map request).map (.sent .client rid))) :
    Inv { a with sys := RouteSetup.step a.sys (.toClient ((List.range n).map request))
                 clients := setClient a.clients rid (startedWith n) } := by
  obtain ⟨ops, o1, o2, o3⟩ := h.ops
  generalize hs : RouteSetup.step a.sys (.toClient ((List.range n).map request)) = s at hl ⊢
  have f1 : ∀ op ∈ ops ++ [RouteSetup.Op.toClient ((List.range n).map request)], Fine op := mem_snoc o1 (fun b hb => by
    obtain ⟨k, -, rfl⟩ := List.mem_map.1 hb
    exact request_fine k)
  have q1 : ∀ op ∈ ops ++ [RouteSetup.Op.toClient ((List.range n).map request)], Quiet op := mem_snoc o2 trivial
  have e1 : s = RouteSetup.run RouteSetup.init (ops ++ [.toClient ((List.range n).map request)]) := by rw [run_snoc, ← o3, hs]
  have hnot : .started .client rid ∉ a.sys.log := by
    intro hm
    have h1 := (started_le _ f1 rid).1
    rw [← e1, hl, List.count_append, List.count_cons_self] at h1
    have := List.count_pos_iff.2 hm
    omega
  have hnone : a.clients rid = none := by
    by_contra hx
    exact hnot ((h.started rid).1 hx)
  have hcalls : calls a rid = 0 := by unfold calls; rw [hnone]
  have hgot0 : gotOf .client rid a.sys.log = [] := by
    by_contra hx
    have hsf := client_started_first_partial o1 o2
    rw [← o3] at hsf
    obtain ⟨b, hb⟩ := List.exists_mem_of_ne_nil _ hx
    unfold gotOf at hb
    obtain ⟨ev, hev, hb⟩ := List.mem_filterMap.1 hb
    split at hb
    · split at hb
      · rename_i hh
        obtain ⟨rfl, rfl⟩ := hh
        obtain ⟨l1, l2, hl12⟩ := List.append_of_mem hev
        have := hsf l1 _ _ l2 hl12
        exact hnot (by rw [hl12]; exact List.mem_append_left _ this)
      · cases hb
    · cases hb
  have hsent : ∀ side i, sentOf side i s.log = sentOf side i a.sys.log ++
      if side = .client ∧ rid = i then (List.range n).map request else [] := by
    intro side i
    rw [hl, sentOf_append, ← List.singleton_append, sentOf_append]
    cases side with
    | client =>
      rw [(sent_many i rid _).1]
      by_cases e : rid = i <;> simp [e, sentOf]
    | server =>
      rw [(sent_many i rid _).2.1]
      simp [sentOf]
  have hgot : ∀ side i, gotOf side i s.log = gotOf side i a.sys.log := by
    intro side i
    rw [hl, gotOf_append, ← List.singleton_append, gotOf_append, (sent_many i rid _).2.2 side]
    simp [gotOf]
  refine ⟨⟨_, f1, q1, e1⟩, ?_, ?_, ?_, ?_, ?_, h.unhandled⟩
  · intro i
    rw [hsent, h.sentC i]
    by_cases e : rid = i
    · subst e
      rw [hcalls]
      simp [calls, setClient, startedWith]
    · rw [if_neg (by simp [e]), List.append_nil]
      simp [calls, setClient, Ne.symm e]
  · intro j; rw [hsent, hgot, h.sentS j]; simp
  · intro j; rw [hgot]; exact h.counter j
  · intro i
    rw [hl]
    by_cases e : rid = i
    · subst e; simp [setClient]
    · have := h.started i
      simp only [setClient, Ne.symm e, if_false]
      rw [this]
      simp [Ne.symm e]
  · intro i c hc
    rw [hgot]
    by_cases e : rid = i
    · subst e
      simp only [setClient, if_true, Option.some.injEq] at hc
      subst hc
      rw [hgot0]
      simp [startedWith]
    · simp only [setClient, Ne.symm e, if_false] at hc
      exact h.client i c hc

/-- A client has had no more answers than it has made calls. -/
theorem Inv.got_le {a : App} (h : Inv a) (rid : Nat) : (gotOf .client rid a.sys.log).length ≤ calls a rid := by
  by_cases hne : gotOf .client rid a.sys.log = []
  · rw [hne]; exact Nat.zero_le _
  · obtain ⟨ops, o1, o2, o3⟩ := h.ops
    obtain ⟨h0, j, hm⟩ := (nothing_else o1).2 rid (by rw [← o3]; exact hne)
    obtain ⟨ri, rj, hri, hrj, -⟩ := id hm
    have hflow := flow_exact o1 h0 hm
    rw [← o3] at hflow hri hrj
    have hU := congrArg List.length (hflow.1 rj hrj)
    have hD := congrArg List.length (hflow.2 ri hri)
    rw [h.sentC rid] at hU
    rw [h.sentS j] at hD
    simp only [List.length_map, List.length_range, List.length_append] at hU hD
    omega

theorem erase_head {κ ν : Type} [DecidableEq κ] (k : κ) (v : ν) (d : Dict κ ν) : Dict.erase ((k, v) :: d) k = d := by
  simp [Dict.erase]

/-- A client is given an answer. -/
theorem Inv.told {a : App} (h : Inv a) {rid n : Nat} {b : Box}
    (hl : (RouteSetup.step a.sys (.toClient ((List.range n).map request))).log = a.sys.log ++ [.got .client rid b]) :
    Inv (receive n { a with sys := RouteSetup.step a.sys (.toClient ((List.range n).map request)) } (.got .client rid b)) := by
  obtain ⟨ops, o1, o2, o3⟩ := h.ops
  generalize hs : RouteSetup.step a.sys (.toClient ((List.range n).map request)) = s at hl ⊢
  have f1 : ∀ op ∈ ops ++ [RouteSetup.Op.toClient ((List.range n).map request)], Fine op := mem_snoc o1 (fun b hb => by
    obtain ⟨k, -, rfl⟩ := List.mem_map.1 hb
    exact request_fine k)
  have q1 : ∀ op ∈ ops ++ [RouteSetup.Op.toClient ((List.range n).map request)], Quiet op := mem_snoc o2 trivial
  have e1 : s = RouteSetup.run RouteSetup.init (ops ++ [.toClient ((List.range n).map request)]) := by rw [run_snoc, ← o3, hs]
  have hsent : ∀ side i, sentOf side i s.log = sentOf side i a.sys.log := by
    intro side i; rw [hl, sentOf_append, (got_sent_one _ _ _ _ _).1, List.append_nil]
  have hg : ∀ side i, gotOf side i s.log = gotOf side i a.sys.log ++ if Side.client = side ∧ rid = i then [b] else [] := by
    intro side i; rw [hl, gotOf_append, (got_sent_one _ _ _ _ _).2.2.1]
  have hne : gotOf .client rid s.log ≠ [] := by rw [hg]; simp
  have hstarted : .started .client rid ∈ a.sys.log := by
    have hsf := client_started_first_partial f1 q1
    rw [← e1] at hsf
    exact hsf a.sys.log rid b [] hl
  obtain ⟨c, hc⟩ := Option.ne_none_iff_exists'.1 ((h.started rid).2 hstarted)
  obtain ⟨h0, j, hm⟩ : rid ≠ 0 ∧ ∃ j, MadeFor s rid j := by
    have := (nothing_else f1).2 rid (by rw [← e1]; exact hne)
    rw [← e1] at this
    exact this
  obtain ⟨ri, rj, hri, hrj, -⟩ := id hm
  have hflow := flow_exact f1 h0 (by rw [← e1]; exact hm)
  rw [← e1] at hflow
  have hU := hflow.1 rj hrj
  have hD := hflow.2 ri hri
  have hcalls : calls a rid = c.calls := by unfold calls; rw [hc]
  rw [hsent, h.sentC rid, hcalls, hg .server j, if_neg (by simp), List.append_nil] at hU
  rw [hsent, h.sentS j, hg .client rid] at hD
  simp only [and_self, if_true] at hD
  generalize hgl : (gotOf .client rid a.sys.log).length = g at *
  have hlenU := congrArg List.length hU
  have hlenD := congrArg List.length hD
  simp only [List.length_map, List.length_range, List.length_append, List.length_singleton, hgl] at hlenU hlenD
  have hb : b = answer g := by
    have := congrArg (fun l => l[g]?) hD
    simp only [List.append_assoc, List.singleton_append] at this
    rw [List.getElem?_append_right (by omega), hgl, Nat.sub_self, List.getElem?_cons_zero, List.getElem?_map,
      List.getElem?_range (by omega)] at this
    simpa using this.symm
  subst hb
  obtain ⟨hshown, hwait⟩ := h.client rid c hc
  rw [hgl] at hshown hwait
  have hdrop : (List.range c.calls).drop g = g :: (List.range c.calls).drop (g + 1) := by
    rw [List.drop_eq_getElem_cons (by simp; omega)]
    simp
  have hwait' : c.waiting = (natStr g, g) :: ((List.range c.calls).drop (g + 1)).map fun k => (natStr k, k) := by
    rw [hwait, hdrop]; rfl
  have hget : Dict.get? (answer g) ANSWER = some (natStr g) ∧ Dict.get? (answer g) VALUE = some (natStr (g + 1)) := by
    constructor <;> simp [answer, Dict.get?, ANSWER, VALUE]
  have hgw : Dict.get? c.waiting (natStr g) = some g := by rw [hwait']; simp [Dict.get?]
  have hrec : receive n { a with sys := s } (.got .client rid (answer g)) =
      App.mk s a.counters (setClient a.clients rid
        ⟨c.calls, ((List.range c.calls).drop (g + 1)).map fun k => (natStr k, k), c.shown ++ [(g, natStr (g + 1))]⟩) a.unhandled := by
    simp only [receive, hc, hget.1, hget.2, hgw]
    rw [hwait', erase_head]
  rw [hrec]
  refine ⟨⟨_, f1, q1, e1⟩, ?_, ?_, ?_, ?_, ?_, h.unhandled⟩
  · intro i
    rw [hsent, h.sentC i]
    by_cases e : rid = i
    · subst e
      rw [hcalls]
      simp [calls, setClient]
    · simp [calls, setClient, Ne.symm e]
  · intro j; rw [hsent, hg, h.sentS j]; simp
  · intro j; rw [hg]; simpa using h.counter j
  · intro i
    rw [hl]
    by_cases e : rid = i
    · subst e; simp [setClient, hstarted]
    · have := h.started i
      simp only [setClient, Ne.symm e, if_false]
      rw [this]
      simp
  · intro i c' hc'
    rw [hg]
    by_cases e : rid = i
    · subst e
      simp only [setClient, if_true, Option.some.injEq] at hc'
      subst hc'
      simp [hgl, hshown, List.range_succ]
    · simp only [setClient, Ne.symm e, if_false] at hc'
      simpa [e] using h.client i c' hc'

/-- A client calls once more. -/
theorem Inv.called {a : App} (h : Inv a) (rid : Nat) : Inv (step a (.call rid)) := by
  cases hc : a.clients rid with
  | none => simp only [step, hc]; exact h
  | some c =>
    simp only [step, hc]
    obtain ⟨ops, o1, o2, o3⟩ := h.ops
    have hst : .started .client rid ∈ a.sys.log := (h.started rid).1 (by rw [hc]; simp)
    obtain ⟨h0, hconn⟩ := (started_le ops o1 rid).2 (by rw [← o3]; exact hst)
    have hlen : rid < (RouteSetup.run RouteSetup.init ops).client.heap.length := by
      obtain ⟨ri, n, hx, -⟩ := id hconn
      exact (List.getElem?_eq_some_iff.1 hx).1
    have hstep : (RouteSetup.step a.sys (.send .client rid (request c.calls))).log =
        a.sys.log ++ [.sent .client rid (request c.calls)] := by
      have := send_exact (box := request c.calls) o1 h0 hlen
      dsimp only at this
      rw [run_snoc ops, ← o3] at this
      rw [← o3] at hconn
      exact (this.1 hconn).2
    have f1 := mem_snoc (op := .send .client rid (request c.calls)) o1 (request_fine c.calls)
    have q1 := mem_snoc (op := .send .client rid (request c.calls)) o2 trivial
    have e1 : RouteSetup.step a.sys (.send .client rid (request c.calls)) =
      RouteSetup.run RouteSetup.init (ops ++ [.send .client rid (request c.calls)]) := by rw [run_snoc, ← o3]
    generalize RouteSetup.step a.sys (.send .client rid (request c.calls)) = s at hstep e1 ⊢
    have hsent : ∀ side i, sentOf side i s.log = sentOf side i a.sys.log ++
        if Side.client = side ∧ rid = i then [request c.calls] else [] := by
      intro side i; rw [hstep, sentOf_append, (got_sent_one _ _ _ _ _).2.2.2]
    have hg : ∀ side i, gotOf side i s.log = gotOf side i a.sys.log := by
      intro side i; rw [hstep, gotOf_append, (got_sent_one _ _ _ _ _).2.1, List.append_nil]
    have hcalls : calls a rid = c.calls := by unfold calls; rw [hc]
    refine ⟨⟨_, f1, q1, e1⟩, ?_, ?_, ?_, ?_, ?_, h.unhandled⟩
    · intro i
      rw [hsent, h.sentC i]
      by_cases e : rid = i
      · subst e
        rw [hcalls]
        simp [calls, setClient, List.range_succ]
      · simp [calls, setClient, Ne.symm e, e]
    · intro j; rw [hsent, hg, h.sentS j]; simp
    · intro j; rw [hg]; exact h.counter j
    · intro i
      rw [hstep]
      by_cases e : rid = i
      · subst e; simp [setClient, hst]
      · have := h.started i
        simp only [setClient, Ne.symm e, if_false]
        rw [this]
        simp
    · intro i c' hc'
      rw [hg]
      by_cases e : rid = i
      · subst e
        simp only [setClient, if_true, Option.some.injEq] at hc'
        subst hc'
        obtain ⟨h1, h2⟩ := h.client rid c hc
        refine ⟨h1, ?_⟩
        have hle : (gotOf .client rid a.sys.log).length ≤ c.calls := by
          rw [← hcalls]; exact h.got_le rid
        have hno : natStr c.calls ∉ Dict.keys c.waiting := by
          rw [h2]
          unfold Dict.keys
          rw [List.map_map]
          intro hm
          obtain ⟨k, hk, e⟩ := List.mem_map.1 hm
          have := natStr_inj e
          have hk := List.mem_range.1 (List.mem_of_mem_drop hk)
          omega
        simp only
        rw [Dict.set_of_not_mem _ hno, h2, List.range_succ, List.drop_append_of_le_length (by simpa using hle), List.map_append]
        rfl
      · simp only [setClient, Ne.symm e, if_false] at hc'
        exact h.client i c' hc'

theorem connect_log (s : Sys) : ∃ l, (connect s).log = s.log ++ l ∧ (l = [] ∨ ∃ e, l = [.raised .client e]) := by
  unfold connect
  split
  · split
    · exact ⟨[], by simp, .inl rfl⟩
    · exact ⟨_, rfl, .inr ⟨_, rfl⟩⟩
  · exact ⟨_, rfl, .inr ⟨_, rfl⟩⟩
  · exact ⟨_, rfl, .inr ⟨_, rfl⟩⟩

theorem Inv.step {a : App} (h : Inv a) (op : Op) : Inv (step a op) := by
  cases op with
  | connect =>
    obtain ⟨l, hl, hp⟩ := connect_log a.sys
    refine h.quiet (op := .connect) trivial trivial l hl ?_
    rcases hp with rfl | ⟨e, rfl⟩
    · exact .inl rfl
    · exact .inr (.inr ⟨_, _, rfl⟩)
  | bind side => cases side <;> exact h.quiet (op := .bind _) trivial trivial [] (by simp [RouteSetup.step]) (.inl rfl)
  | call rid => exact h.called rid
  | toServer =>
    obtain ⟨l, hl, hp⟩ := toServer_log a.sys
    have hl' : (RouteSetup.step a.sys (.toServer [])).log = a.sys.log ++ l := hl
    simp only [RouteCount.step, hl', List.drop_left]
    have hfine : Fine (.toServer []) := fun b hb => by cases hb
    rcases hp with rfl | ⟨rid, rfl⟩ | ⟨e, rfl⟩ | ⟨rid, b, rfl⟩
    · exact h.quiet hfine rfl _ hl' (.inl rfl)
    · exact h.quiet hfine rfl _ hl' (.inr (.inl ⟨_, rfl⟩))
    · exact h.quiet hfine rfl _ hl' (.inr (.inr ⟨_, _, rfl⟩))
    · exact h.served hl'
  | toClient n =>
    obtain ⟨l, hl, hp⟩ := toClient_log a.sys ((List.range n).map request)
    have hl' : (RouteSetup.step a.sys (.toClient ((List.range n).map request))).log = a.sys.log ++ l := hl
    simp only [RouteCount.step, hl', List.drop_left]
    have hfine : Fine (.toClient ((List.range n).map request)) := fun b hb => by
      obtain ⟨k, -, rfl⟩ := List.mem_map.1 hb
      exact request_fine k
    rcases hp with rfl | ⟨rid, rfl⟩ | ⟨e, rfl⟩ | ⟨rid, b, rfl⟩
    · exact h.quiet hfine trivial _ hl' (.inl rfl)
    · rw [List.foldl_cons, foldl_sent]
      exact h.begun hl'
    · exact h.quiet hfine trivial _ hl' (.inr (.inr ⟨_, _, rfl⟩))
    · exact h.told hl'

theorem inv_run (ops : List Op) : Inv (run ops) := by
  have : ∀ (ops : List Op) (a : App), Inv a → Inv (ops.foldl step a) := by
    intro ops
    induction ops with
    | nil => intro a h; exact h
    | cons op ops ih => intro a h; exact ih _ (h.step op)
  exact this ops _ inv_new

/-! ## C142 -/

/-- Whatever happens, what a client has been shown are the results of its first calls, in the order of the calls, and they are
1, 2, 3, …: neither the calls of other clients nor the order in which boxes arrive make a difference. The other calls it has made
are waiting for their answers. -/
theorem counted (ops : List Op) {i : Nat} {c : CountClient} (hc : (run ops).clients i = some c) :
    ∃ m ≤ c.calls, c.shown = (List.range m).map (fun k => (k, natStr (k + 1))) ∧
      c.waiting.map Prod.snd = (List.range c.calls).drop m := by
  have h := inv_run ops
  have hle := h.got_le i
  unfold calls at hle
  rw [hc] at hle
  obtain ⟨h1, h2⟩ := h.client i c hc
  refine ⟨_, hle, h1, ?_⟩
  rw [h2, List.map_map]
  exact List.map_id _

/-- Every box is understood. -/
theorem all_understood (ops : List Op) : (run ops).unhandled = [] := (inv_run ops).unhandled

/-- A `CountClient` is on exactly those routes of the client that are connected. -/
theorem client_iff_connected (ops : List Op) {i : Nat} (hi : i ≠ 0) :
    (run ops).clients i ≠ none ↔ Connected (run ops).sys.client i := by
  have h := inv_run ops
  obtain ⟨rops, o1, o2, o3⟩ := h.ops
  rw [h.started i, o3]
  refine ⟨fun hm => ((started_le rops o1 i).2 hm).2, fun hc => ?_⟩
  have := (started_once o1 hi).1
  rw [if_pos hc] at this
  exact List.count_pos_iff.1 (by omega)

/-- When nothing is on its way any more, every client has been shown the results of all its calls, and the counter that the server
made for it stands at their number. -/
theorem all_counted (ops : List Op) (hu : (run ops).sys.up = []) (hd : (run ops).sys.down = []) {i : Nat} {c : CountClient}
    (hc : (run ops).clients i = some c) :
    c.shown = (List.range c.calls).map (fun k => (k, natStr (k + 1))) ∧ c.waiting = [] ∧
    ∃ j, MadeFor (run ops).sys i j ∧ (∀ j', MadeFor (run ops).sys i j' → j' = j) ∧ (run ops).counters j = c.calls := by
  have h := inv_run ops
  generalize run ops = a at *
  obtain ⟨rops, o1, o2, o3⟩ := h.ops
  obtain ⟨h0, hconn⟩ := (started_le rops o1 i).2 (by rw [← o3, ← h.started i, hc]; simp)
  obtain ⟨hi, j, hj, hpair, hone⟩ := client_paired o1 h0 hconn
  have hm : MadeFor (RouteSetup.run RouteSetup.init rops) i j := by
    obtain ⟨ri, rj, a1, a2, a3, a4⟩ := hpair
    exact ⟨ri, rj, a1, a2, a4, .inr a3⟩
  obtain ⟨-, hdr⟩ := drained o1 (by rw [← o3]; exact hu) (by rw [← o3]; exact hd)
  obtain ⟨-, -, hdr⟩ := hdr i hi
  obtain ⟨d1, d2⟩ := hdr j hm
  rw [← o3] at d1 d2 hm hone
  rw [h.sentC i] at d1
  rw [h.sentS j, d1] at d2
  have hcalls : calls a i = c.calls := by unfold calls; rw [hc]
  rw [hcalls] at d1 d2
  obtain ⟨h1, h2⟩ := h.client i c hc
  simp only [d2, List.length_map, List.length_range] at h1 h2
  refine ⟨h1, by rw [h2]; simp, j, hm, hone, ?_⟩
  rw [h.counter j, d1]; simp

/-! ## Everything arrives -/

/-- A box is delivered. -/
def Delivery : Op → Prop
  | .toServer | .toClient _ => True
  | _ => False

theorem erase_length {κ ν : Type} [DecidableEq κ] (d : Dict κ ν) (k : κ) :
    (Dict.erase d k).length ≤ d.length ∧ (Dict.get? d k ≠ none → (Dict.erase d k).length < d.length) := by
  induction d with
  | nil => simp [Dict.erase, Dict.get?]
  | cons p d ih =>
    obtain ⟨k', v⟩ := p
    by_cases e : k' = k
    · subst e
      simp [Dict.erase]
    · simp only [Dict.erase, Dict.get?, e, if_false, List.length_cons]
      refine ⟨by omega, fun h => ?_⟩
      have := ih.2 h
      omega

theorem sendBox_wires (r : Router) (rid : Nat) (b : Box) : (wires (sendBox r rid b).2.1).length ≤ 1 := by
  unfold sendBox
  split
  · simp [wires]
  · split
    · simp [wires]
    · dsimp only
      split <;> simp [wires]

theorem sendVia_wires (side : Side) (r : Router) (rid : Nat) (b : Box) : (sendVia side r rid b).1.length ≤ 1 := by
  unfold sendVia
  split
  · rename_i es _ e
    have := sendBox_wires r rid b
    rw [e] at this
    exact this
  · simp

theorem newRoute_sizes (s : Sys) (tag name : Str) :
    (newRoute s tag name []).up = s.up ∧ (newRoute s tag name []).pending = s.pending ∧
    (newRoute s tag name []).down.length ≤ s.down.length + 1 := by
  unfold newRoute
  split
  · split
    · rename_i r _ _ _
      dsimp only [sendMany]
      split
      · rename_i rid _ _ _ _ _ es _ e
        have := sendBox_wires r 0 _ |>.trans_eq' (by rw [e])
        dsimp only at this
        simp only [List.append_nil, List.length_append]
        exact ⟨trivial, trivial, by omega⟩
      · exact ⟨rfl, rfl, by simp⟩
    · exact ⟨rfl, rfl, by simp⟩
  · exact ⟨rfl, rfl, by simp⟩
  · exact ⟨rfl, rfl, by simp⟩

theorem toServer_sizes (s : Sys) (hu : s.up ≠ []) :
    (toServer s []).up.length < s.up.length ∧ (toServer s []).pending = s.pending ∧
    (toServer s []).down.length ≤ s.down.length + 1 := by
  unfold toServer
  split
  · contradiction
  · rename_i w up e
    rw [e, List.length_cons]
    dsimp only
    split
    · split
      · unfold serverProto
        split
        · rename_i tag name _ _ _
          split
          · obtain ⟨h1, h2, h3⟩ := newRoute_sizes { s with up := up } tag name
            rw [h1, h2]
            exact ⟨Nat.lt_succ_self _, rfl, h3⟩
          · exact ⟨Nat.lt_succ_self _, rfl, by simp⟩
        · exact ⟨Nat.lt_succ_self _, rfl, by simp⟩
      · exact ⟨Nat.lt_succ_self _, rfl, by simp⟩
    · exact ⟨Nat.lt_succ_self _, rfl, by simp⟩
    · exact ⟨Nat.lt_succ_self _, rfl, by simp⟩

theorem toClient_sizes (s : Sys) (bs : List Box) (hd : s.down ≠ []) :
    (toClient s bs).pending.length < s.pending.length ∨
    ((toClient s bs).pending.length = s.pending.length ∧ (toClient s bs).up = s.up ∧
      (toClient s bs).down.length < s.down.length) := by
  unfold toClient
  split
  · contradiction
  · rename_i w down e
    rw [e, List.length_cons]
    dsimp only
    split
    · split
      · unfold clientProto
        split
        · rename_i tag _ _ _
          dsimp only
          split
          · rename_i rid hg
            have := (erase_length s.pending tag).2 (by rw [hg]; simp)
            left
            unfold answered
            split <;> exact this
          · exact .inr ⟨rfl, rfl, Nat.lt_succ_self _⟩
        · exact .inr ⟨rfl, rfl, Nat.lt_succ_self _⟩
      · exact .inr ⟨rfl, rfl, Nat.lt_succ_self _⟩
    · exact .inr ⟨rfl, rfl, Nat.lt_succ_self _⟩
    · exact .inr ⟨rfl, rfl, Nat.lt_succ_self _⟩

theorem serve_sizes (a : App) (ev : Ev) : (serve a ev).sys.up = a.sys.up ∧ (serve a ev).sys.pending = a.sys.pending ∧
    (serve a ev).sys.down.length ≤ a.sys.down.length + 1 := by
  unfold serve
  split
  · split
    · split
      · rename_i rid _ _ _ _ tag _ _ _
        dsimp only [RouteSetup.step]
        split
        · have := sendVia_wires .server a.sys.server rid [(ANSWER, tag), (VALUE, natStr (a.counters rid + 1))]
          simp only [List.length_append]
          exact ⟨trivial, trivial, by omega⟩
        · exact ⟨rfl, rfl, by omega⟩
      · exact ⟨rfl, rfl, by simp⟩
    · exact ⟨rfl, rfl, by simp⟩
  · exact ⟨rfl, rfl, by simp⟩

theorem receive_sys (n : Nat) (a : App) (ev : Ev) : (receive n a ev).sys = a.sys := by
  unfold receive
  split
  · rfl
  · split
    · split <;> rfl
    · rfl
  · rfl

theorem foldl_receive_sys (n : Nat) (l : List Ev) (a : App) : (l.foldl (receive n) a).sys = a.sys := by
  induction l generalizing a with
  | nil => rfl
  | cons ev l ih => rw [List.foldl_cons, ih, receive_sys]

/-- What every delivery makes less. -/
def weight (a : App) : Nat × Nat := (a.sys.pending.length, 3 * a.sys.up.length + a.sys.down.length)

theorem toServer_weight (a : App) (hu : a.sys.up ≠ []) :
    (step a .toServer).sys.pending = a.sys.pending ∧ (weight (step a .toServer)).2 < (weight a).2 := by
  obtain ⟨l, hl, hp⟩ := toServer_log a.sys
  obtain ⟨h1, h2, h3⟩ := toServer_sizes a.sys hu
  have hl' : (RouteSetup.step a.sys (.toServer [])).log = a.sys.log ++ l := hl
  have hlen : l.length ≤ 1 := by rcases hp with rfl | ⟨_, rfl⟩ | ⟨_, rfl⟩ | ⟨_, _, rfl⟩ <;> simp
  simp only [step, hl', List.drop_left, weight]
  match l, hlen with
  | [], _ =>
    simp only [List.foldl_nil, RouteSetup.step]
    exact ⟨h2, by omega⟩
  | [ev], _ =>
    simp only [List.foldl_cons, List.foldl_nil]
    obtain ⟨s1, s2, s3⟩ := serve_sizes { a with sys := RouteSetup.step a.sys (.toServer []) } ev
    rw [s1, s2]
    simp only [RouteSetup.step] at s3 ⊢
    exact ⟨h2, by omega⟩

theorem toClient_weight (a : App) (n : Nat) (hd : a.sys.down ≠ []) :
    (step a (.toClient n)).sys.pending.length < a.sys.pending.length ∨
    ((step a (.toClient n)).sys.pending.length = a.sys.pending.length ∧ (weight (step a (.toClient n))).2 < (weight a).2) := by
  simp only [step, weight, foldl_receive_sys]
  simp only [RouteSetup.step]
  rcases toClient_sizes a.sys ((List.range n).map request) hd with h | ⟨h1, h2, h3⟩
  · exact .inl h
  · exact .inr ⟨h1, by rw [h2]; omega⟩

theorem toServer_idle (a : App) (hu : a.sys.up = []) : step a .toServer = a := by
  have : RouteSetup.step a.sys (.toServer []) = a.sys := by simp only [RouteSetup.step, toServer, hu]
  simp [step, this]

theorem toClient_idle (a : App) (n : Nat) (hd : a.sys.down = []) : step a (.toClient n) = a := by
  have : RouteSetup.step a.sys (.toClient ((List.range n).map request)) = a.sys := by simp only [RouteSetup.step, toClient, hd]
  simp [step, this]

/-- Nothing is on its way. -/
def Idle (a : App) : Prop := a.sys.up = [] ∧ a.sys.down = []

/-- Deliveries that never leave one of the two directions for good. -/
def Fair (f : Nat → Op) : Prop :=
  (∀ k, Delivery (f k)) ∧ (∀ k, ∃ k' ≥ k, f k' = .toServer) ∧ ∀ k, ∃ k' ≥ k, ∃ n, f k' = .toClient n

theorem Fair.shift {f : Nat → Op} (h : Fair f) : Fair (fun k => f (k + 1)) := by
  refine ⟨fun k => h.1 _, fun k => ?_, fun k => ?_⟩
  · obtain ⟨k', h1, h2⟩ := h.2.1 (k + 1)
    exact ⟨k' - 1, by omega, by dsimp only; rw [Nat.sub_add_cancel (by omega)]; exact h2⟩
  · obtain ⟨k', h1, h2⟩ := h.2.2 (k + 1)
    exact ⟨k' - 1, by omega, by dsimp only; rw [Nat.sub_add_cancel (by omega)]; exact h2⟩

theorem range_succ_map {α : Type} (f : Nat → α) (k : Nat) :
    (List.range (k + 1)).map f = f 0 :: (List.range k).map fun i => f (i + 1) := by
  rw [List.range_succ_eq_map, List.map_cons, List.map_map]
  rfl

/-- Whether a delivery has an effect. -/
def Moves (a : App) : Op → Prop
  | .toServer => a.sys.up ≠ []
  | .toClient _ => a.sys.down ≠ []
  | _ => False

theorem fair_idle (p : Nat) : ∀ (w : Nat) (a : App) (f : Nat → Op), a.sys.pending.length = p → (weight a).2 = w → Fair f →
    ∃ k, Idle (((List.range k).map f).foldl step a) := by
  induction p using Nat.strongRecOn with
  | _ p ihp =>
  intro w
  induction w using Nat.strongRecOn with
  | _ w ihw =>
  intro a f hp hw hf
  have aux : ∀ (d : Nat) (f : Nat → Op), Fair f → Moves a (f d) → ∃ k, Idle (((List.range k).map f).foldl step a) := by
    have move : ∀ f : Nat → Op, Fair f → Moves a (f 0) → ∃ k, Idle (((List.range k).map f).foldl step a) := by
      intro f hf hm
      have key : ∃ k, Idle (((List.range k).map fun i => f (i + 1)).foldl step (step a (f 0))) := by
        cases h0 : f 0 with
        | toServer =>
          rw [h0] at hm
          obtain ⟨h1, h2⟩ := toServer_weight a hm
          exact ihw _ (by rw [← hw]; exact h2) _ _ (by rw [h1]; exact hp) rfl hf.shift
        | toClient n =>
          rw [h0] at hm
          rcases toClient_weight a n hm with h1 | ⟨h1, h2⟩
          · exact ihp _ (by rw [← hp]; exact h1) _ _ _ rfl rfl hf.shift
          · exact ihw _ (by rw [← hw]; exact h2) _ _ (by rw [h1]; exact hp) rfl hf.shift
        | connect => rw [h0] at hm; exact absurd hm id
        | bind side => rw [h0] at hm; exact absurd hm id
        | call rid => rw [h0] at hm; exact absurd hm id
      obtain ⟨k, hk⟩ := key
      exact ⟨k + 1, by rw [range_succ_map, List.foldl_cons]; exact hk⟩
    intro d
    induction d with
    | zero => exact move
    | succ d ih =>
      intro f hf hm
      by_cases h0 : Moves a (f 0)
      · exact move f hf h0
      · have hs : step a (f 0) = a := by
          have hd := hf.1 0
          cases e : f 0 with
          | toServer => rw [e] at h0; exact toServer_idle a (Decidable.not_not.1 h0)
          | toClient n => rw [e] at h0; exact toClient_idle a n (Decidable.not_not.1 h0)
          | connect => rw [e] at hd; exact absurd hd id
          | bind side => rw [e] at hd; exact absurd hd id
          | call rid => rw [e] at hd; exact absurd hd id
        obtain ⟨k, hk⟩ := ih (fun i => f (i + 1)) hf.shift hm
        exact ⟨k + 1, by rw [range_succ_map, List.foldl_cons, hs]; exact hk⟩
  by_cases hu : a.sys.up = []
  · by_cases hd : a.sys.down = []
    · exact ⟨0, hu, hd⟩
    · obtain ⟨k, -, n, e⟩ := hf.2.2 0
      exact aux k f hf (by rw [e]; exact hd)
  · obtain ⟨k, -, e⟩ := hf.2.1 0
    exact aux k f hf (by rw [e]; exact hu)

/-- After anything that has happened, let nothing more happen than deliveries, whatever numbers of calls the clients that are
started by them make, and neither direction be left for good. After some of them every client has been shown the results of all
its calls, 1 to their number in order. -/
theorem eventually_counted (ops : List Op) (f : Nat → Op) (hf : Fair f) :
    ∃ k, Idle (run (ops ++ (List.range k).map f)) ∧
      ∀ i c, (run (ops ++ (List.range k).map f)).clients i = some c →
        c.shown = (List.range c.calls).map (fun k => (k, natStr (k + 1))) ∧ c.waiting = [] := by
  obtain ⟨k, hk⟩ := fair_idle _ _ (run ops) f rfl rfl hf
  have e : ((List.range k).map f).foldl step (run ops) = run (ops ++ (List.range k).map f) := by
    unfold run; rw [List.foldl_append]
  rw [e] at hk
  refine ⟨k, hk, fun i c hc => ?_⟩
  obtain ⟨h1, h2, -⟩ := all_counted _ hk.1 hk.2 hc
  exact ⟨h1, h2⟩

/-- Two clients, one of which makes two calls and later a third, the other one. -/
def sample : List Op :=
  [.connect, .connect, .toServer, .toServer, .toClient 2, .toServer, .toClient 1, .toServer, .call 1, .toServer, .toServer,
   .toClient 0, .toClient 0, .toClient 0, .toClient 0]

example : ((run sample).clients 1).map (·.shown) = some [(0, natStr 1), (1, natStr 2), (2, natStr 3)] := by decide +kernel
example : ((run sample).clients 2).map (·.shown) = some [(0, natStr 1)] := by decide +kernel
example : ((run (sample.take 12)).clients 1).map (fun c => (c.calls, c.shown.length, c.waiting.length)) = some (3, 1, 2) := by
  decide +kernel
example : ((run sample).counters 1, (run sample).counters 2) = (3, 1) := by decide +kernel
example : (run sample).sys.up = [] ∧ (run sample).sys.down = [] := by decide +kernel
example : Fair fun k => if k % 2 = 0 then .toServer else .toClient 3 := by
  refine ⟨fun k => ?_, fun k => ⟨2 * k, by omega, by simp⟩, fun k => ⟨2 * k + 1, by omega, 3, ?_⟩⟩
  · dsimp only; split <;> trivial
  · simp [Nat.add_mod]

end Verif.RouteCount
