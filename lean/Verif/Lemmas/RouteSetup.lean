import Verif.Model.RouteSetup
import Verif.Props.Router
import Mathlib.Data.List.Nodup
/-!
# Helper lemmas for C114
-/
namespace Verif.RouteSetup
open Verif.Py Verif.Router

/-- What route `rid` sent. -/
def sentOf (side : Side) (rid : Nat) (log : List Ev) : List Box :=
  log.filterMap fun
    | .sent s r b => if s = side ∧ r = rid then some b else none
    | _ => none

/-- What the receiver of route `rid` was given. -/
def gotOf (side : Side) (rid : Nat) (log : List Ev) : List Box :=
  log.filterMap fun
    | .got s r b => if s = side ∧ r = rid then some b else none
    | _ => none

/-- Nothing was given to a receiver at this end before it was started. -/
def StartedFirst (side : Side) (log : List Ev) : Prop :=
  ∀ l₁ rid b l₂, log = l₁ ++ .got side rid b :: l₂ → .started side rid ∈ l₁

/-! ## Routers whose routes all keep the name they were given -/

/-- The local name of route number `i`. -/
def nm : Nat → RName
  | 0 => none
  | k + 1 => some (natStr k)

theorem nm_inj {i j : Nat} (h : nm i = nm j) : i = j := by
  cases i with
  | zero => cases j with
    | zero => rfl
    | succ j => cases h
  | succ i => cases j with
    | zero => cases h
    | succ j =>
      have := natStr_inj (Option.some.inj h)
      omega

def tbl (n : Nat) : Dict RName Nat := (List.range n).map fun i => (nm i, i)

/-- A started router, given by the remote names of its routes. -/
def mkR (rem : List Remote) : Router :=
  ⟨true, none, some (tbl rem.length), rem.length - 1, rem.mapIdx fun i x => ⟨i, nm i, x⟩⟩

theorem mk_len (rem) : (mkR rem).heap.length = rem.length := by simp [mkR]

theorem mk_get (rem : List Remote) (i : Nat) :
    (mkR rem).heap[i]? = (rem[i]?).map fun x => ⟨i, nm i, x⟩ := by
  simp [mkR, List.getElem?_mapIdx]

theorem tbl_succ (n : Nat) : tbl (n + 1) = tbl n ++ [(nm n, n)] := by
  simp [tbl, List.range_succ]

theorem tbl_keys (n : Nat) (x : RName) : x ∈ Dict.keys (tbl n) ↔ ∃ i, i < n ∧ x = nm i := by
  simp only [Dict.keys, tbl, List.map_map, List.mem_map, List.mem_range, Function.comp]
  exact ⟨fun ⟨i, h, e⟩ => ⟨i, h, e.symm⟩, fun ⟨i, h, e⟩ => ⟨i, h, e.symm⟩⟩

theorem tbl_set (n : Nat) : Dict.set (tbl n) (nm n) n = tbl (n + 1) := by
  rw [Dict.set_of_not_mem, tbl_succ]
  intro h
  obtain ⟨i, hi, e⟩ := (tbl_keys n _).1 h
  have := nm_inj e; omega

theorem tbl_wf (n : Nat) : Dict.WF (tbl n) := by
  show (((List.range n).map fun i => (nm i, i)).map Prod.fst).Nodup
  rw [List.map_map]
  refine List.Nodup.map ?_ List.nodup_range
  intro i j h
  exact nm_inj h

theorem tbl_get (n i : Nat) (h : i < n) : Dict.get? (tbl n) (nm i) = some i := by
  apply Dict.get?_of_mem (tbl_wf n)
  simp only [tbl, List.mem_map, List.mem_range]
  exact ⟨i, h, rfl⟩

theorem bind_mk (rem : List Remote) (h : rem ≠ []) :
    bindRoute (mkR rem) rem.length none =
      (mkR (rem ++ [.unspecified]), [], .ok (rem.length, nm rem.length)) := by
  obtain ⟨k, hk⟩ : ∃ k, rem.length = k + 1 := by
    cases rem with
    | nil => exact absurd rfl h
    | cons a l => exact ⟨l.length, rfl⟩
  have e : (some (natStr (rem.length - 1)) : RName) = nm rem.length := by rw [hk]; rfl
  have hl : (rem.mapIdx fun i x => (⟨i, nm i, x⟩ : Route)).length = rem.length := by simp
  simp only [bindRoute, createRouteIdentifier, mkR, e, hl, tbl_set]
  congr 1
  simp only [Router.mk.injEq, true_and]
  refine ⟨by simp, by simp; omega, ?_⟩
  simp [List.mapIdx_append]

theorem connect_mk (rem : List Remote) (i : Nat) (n : RName) (h : i < rem.length) :
    connectTo (mkR rem) i n = (mkR (rem.set i (.to n)), [.start i], .ok ()) := by
  have hg : (mkR rem).heap[i]? = some ⟨i, nm i, rem[i]⟩ := by rw [mk_get]; simp [h]
  rw [connectTo, hg]
  simp only [mkR, if_true]
  congr 1
  simp only [Router.mk.injEq, true_and, List.length_set]
  apply List.ext_getElem?
  intro k
  rw [List.getElem?_set, List.getElem?_mapIdx, List.getElem?_mapIdx, List.getElem?_set]
  by_cases e : i = k
  · subst e; simp [h]
  · simp [e]

theorem send_mk {rem : List Remote} {i j : Nat} (box : Box) (h : rem[i]? = some (.to (nm (j + 1)))) :
    sendBox (mkR rem) i box = (mkR rem, [.send (Dict.set box ROUTE (natStr j))], .ok ()) := by
  rw [sendBox, mk_get, h]
  rfl

theorem send_mk_none {rem : List Remote} {i : Nat} (box : Box) (h : rem[i]? = some (.to none)) :
    sendBox (mkR rem) i box = (mkR rem, [.send box], .ok ()) := by
  rw [sendBox, mk_get, h]
  rfl

theorem send_mk_un {rem : List Remote} {i : Nat} (box : Box) (h : rem[i]? = some .unspecified) :
    sendBox (mkR rem) i box = (mkR rem, [], .error (.other "RouteNotConnected")) := by
  rw [sendBox, mk_get, h]
  rfl

theorem recv_mk {rem : List Remote} {i : Nat} (box : Box) (hi : i < rem.length)
    (h : Dict.get? box ROUTE = nm i) :
    ampBoxReceived (mkR rem) box = (mkR rem, [.deliver i (Dict.erase box ROUTE)], .ok ()) := by
  have hg : (mkR rem).heap[i]? = some ⟨i, nm i, rem[i]⟩ := by rw [mk_get]; simp [hi]
  have ht : Dict.get? (tbl rem.length) (nm i) = some i := tbl_get _ _ hi
  rw [ampBoxReceived]
  show (match Dict.get? (tbl rem.length) (Dict.get? box ROUTE) with
    | none => _
    | some rid => _) = _
  rw [h, ht]
  show (match (mkR rem).heap[i]? with
    | none => _
    | some ro => _) = _
  rw [hg]

/-! ## The invariant -/

/-- What is on its way to the server: a request, numbered, for a route of the client, or a box for a route of the server. -/
inductive UMsg where
  | req (t i : Nat)
  | data (j : Nat) (p : Box)

/-- What is on its way to the client: the answer to a request, with the route of the server, or a box for a route of the
client. -/
inductive DMsg where
  | ans (t j : Nat)
  | data (i : Nat) (p : Box)

def encU : UMsg → Box
  | .req t i => [(COMMAND, NEWROUTE), (ASK, natStr t), (NAME, natStr (i - 1))]
  | .data j p => Dict.set p ROUTE (natStr (j - 1))

def encD : DMsg → Box
  | .ans t j => [(ANSWER, natStr t), (NAME, natStr (j - 1))]
  | .data i p => Dict.set p ROUTE (natStr (i - 1))

def reqs (us : List UMsg) : List (Nat × Nat) :=
  us.filterMap fun
    | .req t i => some (i, t)
    | _ => none

def anss (ds : List DMsg) : List (Nat × Nat) :=
  ds.filterMap fun
    | .ans t j => some (j, t)
    | _ => none

def dataU (j : Nat) (us : List UMsg) : List Box :=
  us.filterMap fun
    | .data j' p => if j' = j then some p else none
    | _ => none

def dataD (i : Nat) (ds : List DMsg) : List Box :=
  ds.filterMap fun
    | .data i' p => if i' = i then some p else none
    | _ => none

/-- The state in other words: the remote names of the routes at both ends, the boxes on their way, the routes of the
client that were asked for (in order), the routes the server made for them (in order), how many answers were written and
how many have arrived. -/
structure Abs where
  c : List Remote
  v : List Remote
  us : List UMsg
  ds : List DMsg
  cs : List Nat
  ss : List Nat
  w : Nat
  d : Nat

structure SInv (q : Prop) (a : Abs) (s : Sys) : Prop where
  client : s.client = mkR a.c
  server : s.server = mkR a.v
  up : s.up = a.us.map encU
  down : s.down = a.ds.map encD
  tags : s.tags = a.cs.length
  pending : s.pending = (a.cs.zipIdx.drop a.d).map fun p => (natStr p.2, p.1)
  dw : a.d ≤ a.w
  ws : a.w ≤ a.ss.length
  sc : a.ss.length ≤ a.cs.length
  reqs : reqs a.us = a.cs.zipIdx.drop a.ss.length
  anss : anss a.ds = (a.ss.take a.w).zipIdx.drop a.d
  cnodup : a.cs.Nodup
  snodup : a.ss.Nodup
  crange : ∀ i ∈ a.cs, 0 < i ∧ i < a.c.length
  srange : ∀ j ∈ a.ss, 0 < j ∧ j < a.v.length
  c0 : a.c[0]? = some (Remote.to none)
  v0 : a.v[0]? = some (Remote.to none)
  c1 : ∀ t i j : Nat, t < a.d → a.cs[t]? = some i → a.ss[t]? = some j → a.c[i]? = some (Remote.to (nm j))
  c2 : ∀ (i : Nat) (n : RName), i ≠ 0 → a.c[i]? = some (Remote.to n) → ∃ t, t < a.d ∧ a.cs[t]? = some i
  v1 : ∀ t i j : Nat, a.cs[t]? = some i → a.ss[t]? = some j → a.v[j]? = some (Remote.to (nm i))
  v2 : ∀ (j : Nat) (n : RName), j ≠ 0 → a.v[j]? = some (Remote.to n) → j ∈ a.ss
  du : ∀ j p, .data j p ∈ a.us → j ∈ a.ss ∧ ROUTE ∉ Dict.keys p
  dd : ∀ i p, .data i p ∈ a.ds → (∃ t, t < a.ss.length ∧ a.cs[t]? = some i) ∧ ROUTE ∉ Dict.keys p
  l1 : ∀ i, sentOf .client i s.log ≠ [] → ∃ t, t < a.d ∧ a.cs[t]? = some i
  l2 : ∀ j, gotOf .server j s.log ≠ [] → j ∈ a.ss
  l3 : ∀ j, sentOf .server j s.log ≠ [] → j ∈ a.ss
  l4 : ∀ i, gotOf .client i s.log ≠ [] → ∃ t, t < a.ss.length ∧ a.cs[t]? = some i
  flowU : ∀ t i j : Nat, a.cs[t]? = some i → a.ss[t]? = some j →
    sentOf .client i s.log = gotOf .server j s.log ++ dataU j a.us
  flowD : ∀ t i j : Nat, a.cs[t]? = some i → a.ss[t]? = some j →
    sentOf .server j s.log = gotOf .client i s.log ++ dataD i a.ds
  st1 : ∀ i, s.log.count (.started .client i) = if i ∈ a.cs.take a.d then 1 else 0
  st2 : ∀ j, s.log.count (.started .server j) = if j ∈ a.ss then 1 else 0
  raised : ∀ side e, .raised side e ∈ s.log → e = .other "RouteNotConnected"
  unstopped : ∀ side i, .stopped side i ∉ s.log
  sf : StartedFirst .server s.log
  cf : q → StartedFirst .client s.log
  cq : q → ∀ d₁ i p d₂, a.ds = d₁ ++ .data i p :: d₂ →
    i ∈ a.cs.take a.d ∨ ∃ t j, .ans t j ∈ d₁ ∧ a.cs[t]? = some i

/-! ## Small facts -/

theorem sentOf_append (side rid) (l l' : List Ev) :
    sentOf side rid (l ++ l') = sentOf side rid l ++ sentOf side rid l' := by simp [sentOf]

theorem gotOf_append (side rid) (l l' : List Ev) :
    gotOf side rid (l ++ l') = gotOf side rid l ++ gotOf side rid l' := by simp [gotOf]

theorem startedFirst_snoc {side} {l : List Ev} {e : Ev} (h : StartedFirst side l)
    (he : ∀ rid b, e = .got side rid b → .started side rid ∈ l) : StartedFirst side (l ++ [e]) := by
  intro l₁ rid b l₂ eq
  rcases List.eq_nil_or_concat l₂ with rfl | ⟨l₃, x, rfl⟩
  · obtain ⟨h1, h2⟩ := List.append_inj' eq rfl
    subst h1
    exact he rid b (by simpa using h2)
  · have eq' : l ++ [e] = (l₁ ++ Ev.got side rid b :: l₃) ++ [x] := by simpa using eq
    obtain ⟨h1, _⟩ := List.append_inj' eq' rfl
    exact h l₁ rid b l₃ h1

theorem take_mem {l : List Nat} {d i : Nat} : i ∈ l.take d ↔ ∃ t, t < d ∧ l[t]? = some i := by
  rw [List.mem_iff_getElem?]
  constructor
  · rintro ⟨t, h⟩
    rw [List.getElem?_take] at h
    by_cases e : t < d
    · rw [if_pos e] at h; exact ⟨t, e, h⟩
    · rw [if_neg e] at h; cases h
  · rintro ⟨t, e, h⟩
    exact ⟨t, by rw [List.getElem?_take, if_pos e]; exact h⟩

theorem nodup_idx {l : List Nat} (h : l.Nodup) {s t i : Nat} (hs : l[s]? = some i) (ht : l[t]? = some i) : s = t := by
  obtain ⟨h1, e1⟩ := List.getElem?_eq_some_iff.1 hs
  obtain ⟨h2, e2⟩ := List.getElem?_eq_some_iff.1 ht
  exact (List.Nodup.getElem_inj_iff h).1 (e1.trans e2.symm)

/-- `log` grew by one event that is neither a start nor a stop, nor an exception of any other kind. -/
def Plain : Ev → Prop
  | .sent _ _ _ => True
  | .got _ _ _ => True
  | .raised _ e => e = .other "RouteNotConnected"
  | _ => False

theorem count_plain {l : List Ev} {e : Ev} (h : Plain e) (side i) :
    (l ++ [e]).count (.started side i) = l.count (.started side i) := by
  rw [List.count_append]
  cases e <;> simp_all [Plain]

section steps
variable {q : Prop} {a : Abs} {s : Sys}

theorem SInv.raised_plain (h : SInv q a s) {e : Ev} (hp : Plain e) :
    ∀ side x, .raised side x ∈ s.log ++ [e] → x = .other "RouteNotConnected" := by
  intro side x hx
  rcases List.mem_append.1 hx with hx | hx
  · exact h.raised side x hx
  · simp only [List.mem_singleton] at hx
    subst hx; exact hp

theorem SInv.unstopped_plain (h : SInv q a s) {e : Ev} (hp : Plain e) :
    ∀ side i, .stopped side i ∉ s.log ++ [e] := by
  intro side x hx
  rcases List.mem_append.1 hx with hx | hx
  · exact h.unstopped side x hx
  · simp only [List.mem_singleton] at hx
    subst hx; exact hp

/-- A send refused. -/
theorem SInv.refuse (h : SInv q a s) (side : Side) :
    SInv q a { s with log := s.log ++ [.raised side (.other "RouteNotConnected")] } := by
  have hs : ∀ x i, sentOf x i (s.log ++ [.raised side (.other "RouteNotConnected")]) = sentOf x i s.log := by
    intro x i; simp [sentOf]
  have hg : ∀ x i, gotOf x i (s.log ++ [.raised side (.other "RouteNotConnected")]) = gotOf x i s.log := by
    intro x i; simp [gotOf]
  have hp : Plain (.raised side (.other "RouteNotConnected")) := rfl
  exact { h with
    l1 := fun i hi => h.l1 i (by rwa [hs] at hi)
    l2 := fun i hi => h.l2 i (by rwa [hg] at hi)
    l3 := fun i hi => h.l3 i (by rwa [hs] at hi)
    l4 := fun i hi => h.l4 i (by rwa [hg] at hi)
    flowU := fun t i j hi hj => by rw [hs, hg]; exact h.flowU t i j hi hj
    flowD := fun t i j hi hj => by rw [hs, hg]; exact h.flowD t i j hi hj
    st1 := fun i => by rw [count_plain hp]; exact h.st1 i
    st2 := fun i => by rw [count_plain hp]; exact h.st2 i
    raised := h.raised_plain hp
    unstopped := h.unstopped_plain hp
    sf := startedFirst_snoc h.sf (fun _ _ e => by cases e)
    cf := fun hq => startedFirst_snoc (h.cf hq) (fun _ _ e => by cases e) }

/-- A box sent by the client. -/
theorem SInv.sendC (h : SInv q a s) {t i j : Nat} {p : Box} (ht : t < a.d) (hi : a.cs[t]? = some i)
    (hj : a.ss[t]? = some j) (hp : ROUTE ∉ Dict.keys p) :
    SInv q { a with us := a.us ++ [.data j p] }
      { s with up := s.up ++ [Dict.set p ROUTE (natStr (j - 1))], log := s.log ++ [.sent .client i p] } := by
  have hjs : j ∈ a.ss := List.mem_of_getElem? hj
  have hg : ∀ x k, gotOf x k (s.log ++ [.sent .client i p]) = gotOf x k s.log := by
    intro x k; simp [gotOf]
  have hss : ∀ k, sentOf .server k (s.log ++ [.sent .client i p]) = sentOf .server k s.log := by
    intro k; simp [sentOf]
  have hpl : Plain (.sent .client i p) := trivial
  exact { h with
    up := by rw [List.map_append, h.up]; rfl
    reqs := by rw [← h.reqs]; simp [RouteSetup.reqs]
    du := fun k x hk => by
      rcases List.mem_append.1 hk with hk | hk
      · exact h.du k x hk
      · simp only [List.mem_singleton, UMsg.data.injEq] at hk
        obtain ⟨rfl, rfl⟩ := hk
        exact ⟨hjs, hp⟩
    l1 := fun k hk => by
      by_cases e : k = i
      · subst e; exact ⟨t, ht, hi⟩
      · apply h.l1 k
        have : ¬ i = k := fun e' => e e'.symm
        simpa [sentOf, this] using hk
    l2 := fun k hk => h.l2 k (by rwa [hg] at hk)
    l3 := fun k hk => h.l3 k (by rwa [hss] at hk)
    l4 := fun k hk => h.l4 k (by rwa [hg] at hk)
    flowU := fun t' i' j' hi' hj' => by
      rw [hg, sentOf_append, h.flowU t' i' j' hi' hj', List.append_assoc]
      congr 1
      by_cases e : t' = t
      · subst e
        rw [hi] at hi'; rw [hj] at hj'
        cases hi'; cases hj'
        simp [dataU, sentOf]
      · have e1 : ¬ i = i' := fun e1 => e (nodup_idx h.cnodup (e1 ▸ hi') hi)
        have e2 : ¬ j = j' := fun e1 => e (nodup_idx h.snodup (e1 ▸ hj') hj)
        simp [dataU, sentOf, e1, e2]
    flowD := fun t' i' j' hi' hj' => by rw [hss, hg]; exact h.flowD t' i' j' hi' hj'
    st1 := fun i => by rw [count_plain hpl]; exact h.st1 i
    st2 := fun i => by rw [count_plain hpl]; exact h.st2 i
    raised := h.raised_plain hpl
    unstopped := h.unstopped_plain hpl
    sf := startedFirst_snoc h.sf (fun _ _ e => by cases e)
    cf := fun hq => startedFirst_snoc (h.cf hq) (fun _ _ e => by cases e) }

/-- A box sent by the server. -/
theorem SInv.sendS (h : SInv q a s) {t i j : Nat} {p : Box} (hi : a.cs[t]? = some i)
    (hj : a.ss[t]? = some j) (hp : ROUTE ∉ Dict.keys p) (hw : q → a.w = a.ss.length) :
    SInv q { a with ds := a.ds ++ [.data i p] }
      { s with down := s.down ++ [Dict.set p ROUTE (natStr (i - 1))], log := s.log ++ [.sent .server j p] } := by
  have hjs : j ∈ a.ss := List.mem_of_getElem? hj
  have htl : t < a.ss.length := (List.getElem?_eq_some_iff.1 hj).1
  have hg : ∀ x k, gotOf x k (s.log ++ [.sent .server j p]) = gotOf x k s.log := by
    intro x k; simp [gotOf]
  have hss : ∀ k, sentOf .client k (s.log ++ [.sent .server j p]) = sentOf .client k s.log := by
    intro k; simp [sentOf]
  have hpl : Plain (.sent .server j p) := trivial
  exact { h with
    down := by rw [List.map_append, h.down]; rfl
    anss := by rw [← h.anss]; simp [RouteSetup.anss]
    dd := fun k x hk => by
      rcases List.mem_append.1 hk with hk | hk
      · exact h.dd k x hk
      · simp only [List.mem_singleton, DMsg.data.injEq] at hk
        obtain ⟨rfl, rfl⟩ := hk
        exact ⟨⟨t, htl, hi⟩, hp⟩
    l1 := fun k hk => h.l1 k (by rwa [hss] at hk)
    l2 := fun k hk => h.l2 k (by rwa [hg] at hk)
    l3 := fun k hk => by
      by_cases e : k = j
      · subst e; exact hjs
      · apply h.l3 k
        have : ¬ j = k := fun e' => e e'.symm
        simpa [sentOf, this] using hk
    l4 := fun k hk => h.l4 k (by rwa [hg] at hk)
    flowU := fun t' i' j' hi' hj' => by rw [hss, hg]; exact h.flowU t' i' j' hi' hj'
    flowD := fun t' i' j' hi' hj' => by
      rw [hg, sentOf_append, h.flowD t' i' j' hi' hj', List.append_assoc]
      congr 1
      by_cases e : t' = t
      · subst e
        rw [hi] at hi'; rw [hj] at hj'
        cases hi'; cases hj'
        simp [dataD, sentOf]
      · have e1 : ¬ i = i' := fun e1 => e (nodup_idx h.cnodup (e1 ▸ hi') hi)
        have e2 : ¬ j = j' := fun e1 => e (nodup_idx h.snodup (e1 ▸ hj') hj)
        simp [dataD, sentOf, e1, e2]
    st1 := fun i => by rw [count_plain hpl]; exact h.st1 i
    st2 := fun i => by rw [count_plain hpl]; exact h.st2 i
    raised := h.raised_plain hpl
    unstopped := h.unstopped_plain hpl
    sf := startedFirst_snoc h.sf (fun _ _ e => by cases e)
    cf := fun hq => startedFirst_snoc (h.cf hq) (fun _ _ e => by cases e)
    cq := fun hq d₁ k x d₂ e => by
      rcases List.eq_nil_or_concat d₂ with rfl | ⟨d₃, y, rfl⟩
      · obtain ⟨h1, h2⟩ := List.append_inj' e rfl
        simp only [List.cons.injEq, DMsg.data.injEq, and_true] at h2
        obtain ⟨rfl, rfl⟩ := h2
        subst h1
        by_cases htd : t < a.d
        · exact .inl (take_mem.2 ⟨t, htd, hi⟩)
        · refine .inr ⟨t, j, ?_, hi⟩
          have : (j, t) ∈ RouteSetup.anss a.ds := by
            rw [h.anss, hw hq, List.take_length, List.mem_iff_getElem?]
            refine ⟨t - a.d, ?_⟩
            rw [List.getElem?_drop, show a.d + (t - a.d) = t by omega, List.getElem?_zipIdx, hj]
            simp
          simp only [RouteSetup.anss, List.mem_filterMap] at this
          obtain ⟨m, hm, e⟩ := this
          cases m with
          | ans t' j' => simp at e; obtain ⟨rfl, rfl⟩ := e; exact hm
          | data _ _ => simp at e
      · have e' : a.ds ++ [DMsg.data i p] = (d₁ ++ DMsg.data k x :: d₃) ++ [y] := by simpa using e
        obtain ⟨h1, _⟩ := List.append_inj' e' rfl
        exact h.cq hq d₁ k x d₃ h1 }

/-- A route bound at the client and not connected. -/
theorem SInv.bindC (h : SInv q a s) :
    SInv q { a with c := a.c ++ [.unspecified] } { s with client := mkR (a.c ++ [.unspecified]) } := by
  have hlt : ∀ {i x}, a.c[i]? = some x → i < a.c.length := fun e => (List.getElem?_eq_some_iff.1 e).1
  exact { h with
    client := rfl
    crange := fun i hi => ⟨(h.crange i hi).1, by have := (h.crange i hi).2; simp; omega⟩
    c0 := by rw [List.getElem?_append_left (hlt h.c0)]; exact h.c0
    c1 := fun t i j ht hi hj => by
      have := h.c1 t i j ht hi hj
      rw [List.getElem?_append_left (hlt this)]; exact this
    c2 := fun i n hi hn => by
      by_cases e : i < a.c.length
      · rw [List.getElem?_append_left e] at hn; exact h.c2 i n hi hn
      · rw [List.getElem?_append_right (by omega)] at hn
        rcases k : i - a.c.length with _ | k' <;> rw [k] at hn <;> simp at hn }

/-- A route bound at the server and not connected. -/
theorem SInv.bindS (h : SInv q a s) :
    SInv q { a with v := a.v ++ [.unspecified] } { s with server := mkR (a.v ++ [.unspecified]) } := by
  have hlt : ∀ {i x}, a.v[i]? = some x → i < a.v.length := fun e => (List.getElem?_eq_some_iff.1 e).1
  exact { h with
    server := rfl
    srange := fun i hi => ⟨(h.srange i hi).1, by have := (h.srange i hi).2; simp; omega⟩
    v0 := by rw [List.getElem?_append_left (hlt h.v0)]; exact h.v0
    v1 := fun t i j hi hj => by
      have := h.v1 t i j hi hj
      rw [List.getElem?_append_left (hlt this)]; exact this
    v2 := fun i n hi hn => by
      by_cases e : i < a.v.length
      · rw [List.getElem?_append_left e] at hn; exact h.v2 i n hi hn
      · rw [List.getElem?_append_right (by omega)] at hn
        rcases k : i - a.v.length with _ | k' <;> rw [k] at hn <;> simp at hn }

/-- A route asked for. -/
theorem SInv.ask (h : SInv q a s) :
    SInv q { a with c := a.c ++ [.unspecified], us := a.us ++ [.req a.cs.length a.c.length], cs := a.cs ++ [a.c.length] }
      { s with client := mkR (a.c ++ [.unspecified])
               up := s.up ++ [encU (.req a.cs.length a.c.length)]
               tags := s.tags + 1
               pending := Dict.set s.pending (natStr s.tags) a.c.length } := by
  have hb := h.bindC
  have hlt : ∀ {t i : Nat}, a.cs[t]? = some i → t < a.cs.length := fun e => (List.getElem?_eq_some_iff.1 e).1
  have hclen : 0 < a.c.length := (List.getElem?_eq_some_iff.1 h.c0).1
  have hext : ∀ {t i : Nat}, a.cs[t]? = some i → (a.cs ++ [a.c.length])[t]? = some i := fun e => by
    rw [List.getElem?_append_left (hlt e)]; exact e
  have hback : ∀ {t i : Nat}, t < a.ss.length → (a.cs ++ [a.c.length])[t]? = some i → a.cs[t]? = some i := fun ht e => by
    rw [List.getElem?_append_left (by have := h.sc; omega)] at e; exact e
  have hsl : ∀ {t j : Nat}, a.ss[t]? = some j → t < a.ss.length := fun e => (List.getElem?_eq_some_iff.1 e).1
  have hnew : a.c.length ∉ a.cs := fun e => by have := (h.crange _ e).2; omega
  have htake : ∀ n, n ≤ a.cs.length → (a.cs ++ [a.c.length]).take n = a.cs.take n := fun n hn =>
    List.take_append_of_le_length hn
  have hdw := h.dw; have hws := h.ws; have hsc := h.sc
  exact { hb with
    client := rfl
    up := by rw [List.map_append, h.up]; rfl
    tags := by simp [h.tags]
    pending := by
      rw [List.zipIdx_append, List.drop_append_of_le_length (by simp; omega), List.map_append, ← h.pending, h.tags,
        Dict.set_of_not_mem]
      · simp
      · rw [h.pending]
        intro e
        simp only [Dict.keys, List.map_map, List.mem_map, Function.comp] at e
        obtain ⟨⟨i, t⟩, hx, e⟩ := e
        have hm := List.mem_of_mem_drop hx
        have := natStr_inj e
        have hm' := List.mem_zipIdx hm
        simp at hm' this
        omega
    sc := by simp; omega
    reqs := by
      rw [List.zipIdx_append, List.drop_append_of_le_length (by simp; omega), ← h.reqs]
      simp [RouteSetup.reqs]
    cnodup := by
      rw [List.nodup_append]
      refine ⟨h.cnodup, List.nodup_singleton _, ?_⟩
      intro x hx y hy
      simp only [List.mem_singleton] at hy
      subst hy
      exact fun e => hnew (e ▸ hx)
    crange := fun i hi => by
      rcases List.mem_append.1 hi with hi | hi
      · exact hb.crange i hi
      · simp only [List.mem_singleton] at hi
        subst hi
        exact ⟨hclen, by simp⟩
    c1 := fun t i j ht hi hj => hb.c1 t i j ht (hback (hsl hj) hi) hj
    c2 := fun i n hi hn => by
      obtain ⟨t, ht, e⟩ := hb.c2 i n hi hn
      exact ⟨t, ht, hext e⟩
    v1 := fun t i j hi hj => h.v1 t i j (hback (hsl hj) hi) hj
    du := fun j p hm => by
      rcases List.mem_append.1 hm with hm | hm
      · exact h.du j p hm
      · simp at hm
    dd := fun i p hm => by
      obtain ⟨⟨t, ht, e⟩, hp⟩ := h.dd i p hm
      exact ⟨⟨t, ht, hext e⟩, hp⟩
    l1 := fun i hi => by
      obtain ⟨t, ht, e⟩ := h.l1 i hi
      exact ⟨t, ht, hext e⟩
    l4 := fun i hi => by
      obtain ⟨t, ht, e⟩ := h.l4 i hi
      exact ⟨t, ht, hext e⟩
    flowU := fun t i j hi hj => by
      rw [h.flowU t i j (hback (hsl hj) hi) hj]
      simp [dataU]
    flowD := fun t i j hi hj => h.flowD t i j (hback (hsl hj) hi) hj
    st1 := fun i => by rw [htake a.d (by omega)]; exact h.st1 i
    cq := fun hq d₁ i p d₂ e => by
      rw [htake a.d (by omega)]
      rcases h.cq hq d₁ i p d₂ e with h1 | ⟨t, j, h1, h2⟩
      · exact .inl h1
      · exact .inr ⟨t, j, h1, hext h2⟩ }

/-- The server takes a request and starts a receiver; the answer is not written yet. -/
theorem SInv.take (h : SInv q a s) {t i : Nat} {us : List UMsg} (hu : a.us = .req t i :: us) :
    t = a.ss.length ∧ a.cs[t]? = some i ∧
    SInv q { a with v := a.v ++ [.to (nm i)], us := us, ss := a.ss ++ [a.v.length] }
      { s with server := mkR (a.v ++ [.to (nm i)])
               up := us.map encU
               log := s.log ++ [.started .server a.v.length] } := by
  have hr := h.reqs
  rw [hu] at hr
  have hr' : (i, t) :: RouteSetup.reqs us = a.cs.zipIdx.drop a.ss.length := by rw [← hr]; simp [RouteSetup.reqs]
  have h0 : (a.cs.zipIdx.drop a.ss.length)[0]? = some (i, t) := by rw [← hr']; rfl
  rw [List.getElem?_drop, List.getElem?_zipIdx] at h0
  obtain ⟨x, hx, e⟩ := Option.map_eq_some_iff.1 h0
  simp only [Nat.add_zero, Nat.zero_add, Prod.mk.injEq] at e hx
  obtain ⟨rfl, rfl⟩ := e
  have hlt : a.ss.length < a.cs.length := (List.getElem?_eq_some_iff.1 hx).1
  have hvlen : 0 < a.v.length := (List.getElem?_eq_some_iff.1 h.v0).1
  have hnew : a.v.length ∉ a.ss := fun e => by have := (h.srange _ e).2; omega
  have hsl : ∀ {t j : Nat}, a.ss[t]? = some j → t < a.ss.length := fun e => (List.getElem?_eq_some_iff.1 e).1
  have hvl : ∀ {t : Nat} {j}, a.v[t]? = some j → t < a.v.length := fun e => (List.getElem?_eq_some_iff.1 e).1
  have hs : ∀ y k, sentOf y k (s.log ++ [.started .server a.v.length]) = sentOf y k s.log := by
    intro y k; simp [sentOf]
  have hg : ∀ y k, gotOf y k (s.log ++ [.started .server a.v.length]) = gotOf y k s.log := by
    intro y k; simp [gotOf]
  have hdU : ∀ j, dataU j a.us = dataU j us := fun j => by rw [hu]; simp [dataU]
  have hdw := h.dw; have hws := h.ws; have hsc := h.sc
  /- a pair before, or the new one -/
  have hcase : ∀ {t' i' j' : Nat}, a.cs[t']? = some i' → (a.ss ++ [a.v.length])[t']? = some j' →
      (a.ss[t']? = some j') ∨ (t' = a.ss.length ∧ i' = x ∧ j' = a.v.length) := by
    intro t' i' j' hi' hj'
    by_cases e : t' < a.ss.length
    · rw [List.getElem?_append_left e] at hj'; exact .inl hj'
    · rw [List.getElem?_append_right (by omega)] at hj'
      rcases k : t' - a.ss.length with _ | k'
      · have : t' = a.ss.length := by omega
        subst this
        rw [hx] at hi'
        simp at hj'
        exact .inr ⟨rfl, (Option.some.inj hi').symm, hj'.symm⟩
      · rw [k] at hj'; simp at hj'
  refine ⟨rfl, hx, ?_⟩
  exact { h with
    server := rfl
    up := rfl
    ws := by simp; omega
    sc := by simp; omega
    reqs := by
      have : RouteSetup.reqs us = (a.cs.zipIdx.drop a.ss.length).drop 1 := by rw [← hr']; rfl
      rw [this, List.drop_drop]
      simp
    anss := by
      rw [List.take_append_of_le_length hws]; exact h.anss
    snodup := by
      rw [List.nodup_append]
      refine ⟨h.snodup, List.nodup_singleton _, ?_⟩
      intro y hy z hz
      simp only [List.mem_singleton] at hz
      subst hz
      exact fun e => hnew (e ▸ hy)
    srange := fun j hj => by
      rcases List.mem_append.1 hj with hj | hj
      · exact ⟨(h.srange j hj).1, by have := (h.srange j hj).2; simp; omega⟩
      · simp only [List.mem_singleton] at hj
        subst hj
        exact ⟨hvlen, by simp⟩
    v0 := by rw [List.getElem?_append_left hvlen]; exact h.v0
    c1 := fun t i j ht hi hj => by
      have ht' : t < a.d := ht
      rw [List.getElem?_append_left (by omega)] at hj
      exact h.c1 t i j ht hi hj
    v1 := fun t i j hi hj => by
      rcases hcase hi hj with hj | ⟨rfl, rfl, rfl⟩
      · have := h.v1 t i j hi hj
        rw [List.getElem?_append_left (hvl this)]; exact this
      · simp
    v2 := fun j n hj hn => by
      by_cases e : j < a.v.length
      · rw [List.getElem?_append_left e] at hn
        exact List.mem_append_left _ (h.v2 j n hj hn)
      · rw [List.getElem?_append_right (by omega)] at hn
        rcases k : j - a.v.length with _ | k'
        · have : j = a.v.length := by omega
          subst this
          exact List.mem_append_right _ (List.mem_singleton.2 rfl)
        · rw [k] at hn; simp at hn
    du := fun j p hm => by
      have := h.du j p (by rw [hu]; exact List.mem_cons_of_mem _ hm)
      exact ⟨List.mem_append_left _ this.1, this.2⟩
    dd := fun i p hm => by
      obtain ⟨⟨t, ht, e⟩, hp⟩ := h.dd i p hm
      exact ⟨⟨t, by simp; omega, e⟩, hp⟩
    l1 := fun i hi => h.l1 i (by rwa [hs] at hi)
    l2 := fun j hj => List.mem_append_left _ (h.l2 j (by rwa [hg] at hj))
    l3 := fun j hj => List.mem_append_left _ (h.l3 j (by rwa [hs] at hj))
    l4 := fun i hi => by
      obtain ⟨t, ht, e⟩ := h.l4 i (by rwa [hg] at hi)
      exact ⟨t, by simp; omega, e⟩
    flowU := fun t i j hi hj => by
      rw [hs, hg, ← hdU]
      rcases hcase hi hj with hj | ⟨rfl, rfl, rfl⟩
      · exact h.flowU t i j hi hj
      · have e1 : sentOf .client i s.log = [] := by
          by_contra hne
          obtain ⟨t', ht', e⟩ := h.l1 i hne
          have := nodup_idx h.cnodup e hi
          omega
        have e2 : gotOf .server a.v.length s.log = [] := by
          by_contra hne
          exact hnew (h.l2 _ hne)
        have e3 : dataU a.v.length a.us = [] := by
          rw [dataU, List.filterMap_eq_nil_iff]
          intro m hm
          cases m with
          | req _ _ => rfl
          | data j p =>
            have : ¬ j = a.v.length := fun e => hnew (e ▸ (h.du j p hm).1)
            simp [this]
        rw [e1, e2, e3]; rfl
    flowD := fun t i j hi hj => by
      rw [hs, hg]
      rcases hcase hi hj with hj | ⟨rfl, rfl, rfl⟩
      · exact h.flowD t i j hi hj
      · have e1 : sentOf .server a.v.length s.log = [] := by
          by_contra hne
          exact hnew (h.l3 _ hne)
        have e2 : gotOf .client i s.log = [] := by
          by_contra hne
          obtain ⟨t', ht', e⟩ := h.l4 i hne
          have := nodup_idx h.cnodup e hi
          omega
        have e3 : dataD i a.ds = [] := by
          rw [dataD, List.filterMap_eq_nil_iff]
          intro m hm
          cases m with
          | ans _ _ => rfl
          | data i' p =>
            have : ¬ i' = i := fun e => by
              subst e
              obtain ⟨⟨t', ht', e⟩, _⟩ := h.dd i' p hm
              have := nodup_idx h.cnodup e hi
              omega
            simp [this]
        rw [e1, e2, e3]; rfl
    st1 := fun i => by
      rw [List.count_append, h.st1 i]
      simp
    st2 := fun j => by
      rw [List.count_append, h.st2 j]
      by_cases e : j = a.v.length
      · subst e
        simp [hnew]
      · have : ¬ a.v.length = j := fun e' => e e'.symm
        simp [e, this]
    raised := fun side e hm => by
      rcases List.mem_append.1 hm with hm | hm
      · exact h.raised side e hm
      · simp at hm
    unstopped := fun side e hm => by
      rcases List.mem_append.1 hm with hm | hm
      · exact h.unstopped side e hm
      · simp at hm
    sf := startedFirst_snoc h.sf (fun _ _ e => by cases e)
    cf := fun hq => startedFirst_snoc (h.cf hq) (fun _ _ e => by cases e) }

/-- The answer is written. -/
theorem SInv.answer (h : SInv q a s) {j : Nat} (hw : a.w + 1 = a.ss.length) (hj : a.ss[a.w]? = some j) :
    SInv q { a with ds := a.ds ++ [.ans a.w j], w := a.ss.length }
      { s with down := s.down ++ [encD (.ans a.w j)] } := by
  have hdw := h.dw
  exact { h with
    down := by rw [List.map_append, h.down]; rfl
    dw := by show a.d ≤ a.ss.length; omega
    ws := Nat.le_refl _
    anss := by
      have e : a.ss.take a.ss.length = a.ss.take a.w ++ [j] := by
        rw [← hw, List.take_add_one, hj]; rfl
      rw [e, List.zipIdx_append, List.drop_append_of_le_length (by simp; omega), ← h.anss]
      have : (a.ss.take a.w).length = a.w := by simp; omega
      simp [RouteSetup.anss, this]
    dd := fun i p hm => by
      rcases List.mem_append.1 hm with hm | hm
      · exact h.dd i p hm
      · simp at hm
    flowD := fun t i j' hi hj' => by
      rw [h.flowD t i j' hi hj']
      simp [dataD]
    cq := fun hq d₁ k x d₂ e => by
      rcases List.eq_nil_or_concat d₂ with rfl | ⟨d₃, y, rfl⟩
      · obtain ⟨h1, h2⟩ := List.append_inj' e rfl
        simp at h2
      · have e' : a.ds ++ [DMsg.ans a.w j] = (d₁ ++ DMsg.data k x :: d₃) ++ [y] := by simpa using e
        obtain ⟨h1, _⟩ := List.append_inj' e' rfl
        exact h.cq hq d₁ k x d₃ h1 }

/-- The server is given a box for one of its routes. -/
theorem SInv.gotS (h : SInv q a s) {j : Nat} {p : Box} {us : List UMsg} (hu : a.us = .data j p :: us) :
    SInv q { a with us := us } { s with up := us.map encU, log := s.log ++ [.got .server j p] } := by
  have hj := h.du j p (by rw [hu]; exact List.mem_cons_self)
  have hs : ∀ y k, sentOf y k (s.log ++ [.got .server j p]) = sentOf y k s.log := by
    intro y k; simp [sentOf]
  have hg : ∀ k, gotOf .client k (s.log ++ [.got .server j p]) = gotOf .client k s.log := by
    intro k; simp [gotOf]
  have hpl : Plain (.got .server j p) := trivial
  exact { h with
    up := rfl
    reqs := by rw [← h.reqs, hu]; simp [RouteSetup.reqs]
    du := fun k x hk => h.du k x (by rw [hu]; exact List.mem_cons_of_mem _ hk)
    l1 := fun k hk => h.l1 k (by rwa [hs] at hk)
    l2 := fun k hk => by
      by_cases e : k = j
      · subst e; exact hj.1
      · apply h.l2 k
        have : ¬ j = k := fun e' => e e'.symm
        simpa [gotOf, this] using hk
    l3 := fun k hk => h.l3 k (by rwa [hs] at hk)
    l4 := fun k hk => h.l4 k (by rwa [hg] at hk)
    flowU := fun t' i' j' hi' hj' => by
      rw [hs, h.flowU t' i' j' hi' hj', gotOf_append, List.append_assoc, hu]
      congr 1
      by_cases e : j = j' <;> simp [dataU, gotOf, e]
    flowD := fun t' i' j' hi' hj' => by rw [hs, hg]; exact h.flowD t' i' j' hi' hj'
    st1 := fun i => by rw [count_plain hpl]; exact h.st1 i
    st2 := fun i => by rw [count_plain hpl]; exact h.st2 i
    raised := h.raised_plain hpl
    unstopped := h.unstopped_plain hpl
    sf := startedFirst_snoc h.sf (fun k x e => by
      cases e
      have := h.st2 j
      rw [if_pos hj.1] at this
      exact List.count_pos_iff.1 (by omega))
    cf := fun hq => startedFirst_snoc (h.cf hq) (fun _ _ e => by cases e) }

/-- The client is given a box for one of its routes. -/
theorem SInv.gotC (h : SInv q a s) {i : Nat} {p : Box} {ds : List DMsg} (hd : a.ds = .data i p :: ds) :
    SInv q { a with ds := ds } { s with down := ds.map encD, log := s.log ++ [.got .client i p] } := by
  have hi := h.dd i p (by rw [hd]; exact List.mem_cons_self)
  have hs : ∀ y k, sentOf y k (s.log ++ [.got .client i p]) = sentOf y k s.log := by
    intro y k; simp [sentOf]
  have hg : ∀ k, gotOf .server k (s.log ++ [.got .client i p]) = gotOf .server k s.log := by
    intro k; simp [gotOf]
  have hpl : Plain (.got .client i p) := trivial
  exact { h with
    down := rfl
    anss := by rw [← h.anss, hd]; simp [RouteSetup.anss]
    dd := fun k x hk => h.dd k x (by rw [hd]; exact List.mem_cons_of_mem _ hk)
    l1 := fun k hk => h.l1 k (by rwa [hs] at hk)
    l2 := fun k hk => h.l2 k (by rwa [hg] at hk)
    l3 := fun k hk => h.l3 k (by rwa [hs] at hk)
    l4 := fun k hk => by
      by_cases e : k = i
      · subst e; exact hi.1
      · apply h.l4 k
        have : ¬ i = k := fun e' => e e'.symm
        simpa [gotOf, this] using hk
    flowU := fun t' i' j' hi' hj' => by rw [hs, hg]; exact h.flowU t' i' j' hi' hj'
    flowD := fun t' i' j' hi' hj' => by
      rw [hs, h.flowD t' i' j' hi' hj', gotOf_append, List.append_assoc, hd]
      congr 1
      by_cases e : i = i' <;> simp [dataD, gotOf, e]
    st1 := fun i => by rw [count_plain hpl]; exact h.st1 i
    st2 := fun i => by rw [count_plain hpl]; exact h.st2 i
    raised := h.raised_plain hpl
    unstopped := h.unstopped_plain hpl
    sf := startedFirst_snoc h.sf (fun _ _ e => by cases e)
    cf := fun hq => startedFirst_snoc (h.cf hq) (fun k x e => by
      cases e
      rcases h.cq hq [] i p ds hd with h1 | ⟨_, _, h1, _⟩
      · have := h.st1 i
        rw [if_pos h1] at this
        exact List.count_pos_iff.1 (by omega)
      · cases h1)
    cq := fun hq d₁ k x d₂ e => by
      rcases h.cq hq (.data i p :: d₁) k x d₂ (by have e' : ds = _ := e; rw [hd, e']; rfl) with h1 | ⟨t, j, h1, h2⟩
      · exact .inl h1
      · refine .inr ⟨t, j, ?_, h2⟩
        rcases List.mem_cons.1 h1 with h1 | h1
        · cases h1
        · exact h1 }

/-- The client takes an answer and connects its route. -/
theorem SInv.conn (h : SInv q a s) {t j : Nat} {ds : List DMsg} (hd : a.ds = .ans t j :: ds) :
    ∃ i, t = a.d ∧ a.d < a.w ∧ a.cs[t]? = some i ∧ a.ss[t]? = some j ∧ 0 < j ∧ i < a.c.length ∧
    Dict.get? s.pending (natStr t) = some i ∧
    SInv q { a with c := a.c.set i (.to (nm j)), ds := ds, d := a.d + 1 }
      { s with client := mkR (a.c.set i (.to (nm j)))
               down := ds.map encD
               pending := Dict.erase s.pending (natStr t)
               log := s.log ++ [.started .client i] } := by
  have hr := h.anss
  rw [hd] at hr
  have hr' : (j, t) :: RouteSetup.anss ds = (a.ss.take a.w).zipIdx.drop a.d := by rw [← hr]; simp [RouteSetup.anss]
  have h0 : ((a.ss.take a.w).zipIdx.drop a.d)[0]? = some (j, t) := by rw [← hr']; rfl
  rw [List.getElem?_drop, List.getElem?_zipIdx] at h0
  obtain ⟨x, hx, e⟩ := Option.map_eq_some_iff.1 h0
  simp only [Nat.add_zero, Nat.zero_add, Prod.mk.injEq] at e hx
  obtain ⟨rfl, rfl⟩ := e
  have hdw' : a.d < a.w := by
    have := (List.getElem?_eq_some_iff.1 hx).1
    simp at this; omega
  have hss : a.ss[a.d]? = some x := by
    rw [List.getElem?_take, if_pos hdw'] at hx; exact hx
  have hdw := h.dw; have hws := h.ws; have hsc := h.sc
  have hlt : a.d < a.cs.length := by omega
  obtain ⟨i, hi⟩ : ∃ i, a.cs[a.d]? = some i := ⟨a.cs[a.d], by simp [hlt]⟩
  have hir := h.crange i (List.mem_of_getElem? hi)
  have hxr := h.srange x (List.mem_of_getElem? hss)
  have hpend : s.pending = (natStr a.d, i) :: (a.cs.zipIdx.drop (a.d + 1)).map fun p => (natStr p.2, p.1) := by
    rw [h.pending, List.drop_eq_getElem_cons (by simpa using hlt), List.map_cons]
    congr 1
    have := (List.getElem?_eq_some_iff.1 hi).2
    simp [this]
  have hs : ∀ y k, sentOf y k (s.log ++ [.started .client i]) = sentOf y k s.log := by
    intro y k; simp [sentOf]
  have hg : ∀ y k, gotOf y k (s.log ++ [.started .client i]) = gotOf y k s.log := by
    intro y k; simp [gotOf]
  have hdD : ∀ j, dataD j a.ds = dataD j ds := fun j => by rw [hd]; simp [dataD]
  have hidx : ∀ {t' : Nat}, a.cs[t']? = some i → t' = a.d := fun e => nodup_idx h.cnodup e hi
  refine ⟨i, rfl, hdw', hi, hss, hxr.1, hir.2, by rw [hpend, Dict.get?, if_pos rfl], ?_⟩
  exact { h with
    client := rfl
    down := rfl
    pending := by rw [hpend, Dict.erase, if_pos rfl]
    dw := hdw'
    anss := by
      have : RouteSetup.anss ds = ((a.ss.take a.w).zipIdx.drop a.d).drop 1 := by rw [← hr']; rfl
      rw [this, List.drop_drop]
    crange := fun k hk => by rw [List.length_set]; exact h.crange k hk
    c0 := by
      rw [List.getElem?_set_ne (by omega)]; exact h.c0
    c1 := fun t' i' j' ht' hi' hj' => by
      by_cases e : t' = a.d
      · subst e
        rw [hi] at hi'; rw [hss] at hj'
        cases hi'; cases hj'
        rw [List.getElem?_set_self hir.2]
      · rw [List.getElem?_set_ne (fun e' : i = i' => e (hidx (by rw [e']; exact hi')))]
        exact h.c1 t' i' j' (by have : t' < a.d + 1 := ht'; omega) hi' hj'
    c2 := fun k n hk hn => by
      by_cases e : i = k
      · subst e; exact ⟨a.d, Nat.lt_succ_self _, hi⟩
      · rw [List.getElem?_set_ne e] at hn
        obtain ⟨t', ht', e'⟩ := h.c2 k n hk hn
        exact ⟨t', Nat.lt_succ_of_lt ht', e'⟩
    dd := fun k x hk => h.dd k x (by rw [hd]; exact List.mem_cons_of_mem _ hk)
    l1 := fun k hk => by
      obtain ⟨t', ht', e'⟩ := h.l1 k (by rwa [hs] at hk)
      exact ⟨t', Nat.lt_succ_of_lt ht', e'⟩
    l2 := fun k hk => h.l2 k (by rwa [hg] at hk)
    l3 := fun k hk => h.l3 k (by rwa [hs] at hk)
    l4 := fun k hk => h.l4 k (by rwa [hg] at hk)
    flowU := fun t' i' j' hi' hj' => by rw [hs, hg]; exact h.flowU t' i' j' hi' hj'
    flowD := fun t' i' j' hi' hj' => by rw [hs, hg, ← hdD]; exact h.flowD t' i' j' hi' hj'
    st1 := fun k => by
      rw [List.count_append, h.st1 k]
      have htk : a.cs.take (a.d + 1) = a.cs.take a.d ++ [i] := by rw [List.take_add_one, hi]; rfl
      rw [htk]
      have hni : i ∉ a.cs.take a.d := fun e => by
        obtain ⟨t', ht', e'⟩ := take_mem.1 e
        have := hidx e'; omega
      by_cases e : k = i
      · subst e; simp [hni]
      · have : ¬ i = k := fun e' => e e'.symm
        simp [e, this]
    st2 := fun k => by
      rw [List.count_append, h.st2 k]
      simp
    raised := fun side e hm => by
      rcases List.mem_append.1 hm with hm | hm
      · exact h.raised side e hm
      · simp at hm
    unstopped := fun side e hm => by
      rcases List.mem_append.1 hm with hm | hm
      · exact h.unstopped side e hm
      · simp at hm
    sf := startedFirst_snoc h.sf (fun _ _ e => by cases e)
    cf := fun hq => startedFirst_snoc (h.cf hq) (fun _ _ e => by cases e)
    cq := fun hq d₁ k y d₂ e => by
      have htk : a.cs.take (a.d + 1) = a.cs.take a.d ++ [i] := by rw [List.take_add_one, hi]; rfl
      rw [htk]
      rcases h.cq hq (.ans a.d x :: d₁) k y d₂ (by have e' : ds = _ := e; rw [hd, e']; rfl) with h1 | ⟨t', j', h1, h2⟩
      · exact .inl (List.mem_append_left _ h1)
      · rcases List.mem_cons.1 h1 with h1 | h1
        · cases h1
          rw [hi] at h2
          cases h2
          exact .inl (List.mem_append_right _ (List.mem_singleton.2 rfl))
        · exact .inr ⟨t', j', h1, h2⟩ }

end steps

/-! ## Every step keeps the invariant -/

/-- Boxes that applications send do not use the router's own key. -/
def Fine : Op → Prop
  | .send _ _ box => ROUTE ∉ Dict.keys box
  | .toServer burst => ∀ b ∈ burst, ROUTE ∉ Dict.keys b
  | .toClient burst => ∀ b ∈ burst, ROUTE ∉ Dict.keys b
  | _ => True

/-- The receivers of the server send nothing from inside `startReceivingBoxes`. -/
def Quiet : Op → Prop
  | .toServer burst => burst = []
  | _ => True

theorem SInv.weaken {q q' : Prop} {a s} (h : SInv q a s) (hq : q' → q) : SInv q' a s :=
  { h with cf := fun x => h.cf (hq x), cq := fun x => h.cq (hq x) }

theorem SInv.and {q r : Prop} {a s} (h : SInv q a s) : SInv (q ∧ r) a s := h.weaken (fun x => x.1)

theorem nm_pos {j : Nat} (h : 0 < j) : nm j = some (natStr (j - 1)) := by
  cases j with
  | zero => omega
  | succ j => rfl

theorem sendVia_to {side : Side} {rem : List Remote} {i j : Nat} (box : Box) (hj : 0 < j)
    (h : rem[i]? = some (.to (nm j))) :
    sendVia side (mkR rem) i box = ([Dict.set box ROUTE (natStr (j - 1))], [.sent side i box]) := by
  obtain ⟨k, rfl⟩ : ∃ k, j = k + 1 := ⟨j - 1, by omega⟩
  rw [sendVia, send_mk box h]
  rfl

theorem sendVia_un {side : Side} {rem : List Remote} {i : Nat} (box : Box)
    (h : rem[i]? = some .unspecified) :
    sendVia side (mkR rem) i box = ([], [.raised side (.other "RouteNotConnected")]) := by
  rw [sendVia, send_mk_un box h]

theorem sendMany_to {side : Side} {rem : List Remote} {i j : Nat} (hj : 0 < j)
    (h : rem[i]? = some (.to (nm j))) (bs : List Box) :
    sendMany side (mkR rem) i bs =
      (bs.map fun b => Dict.set b ROUTE (natStr (j - 1)), bs.map fun b => .sent side i b) := by
  induction bs with
  | nil => rfl
  | cons b bs ih => rw [sendMany, sendVia_to b hj h, ih]; rfl

theorem SInv.sendManyC {q : Prop} {t i j : Nat} (bs : List Box) (hp : ∀ b ∈ bs, ROUTE ∉ Dict.keys b) :
    ∀ {a : Abs} {s : Sys}, SInv q a s → t < a.d → a.cs[t]? = some i → a.ss[t]? = some j →
    SInv q { a with us := a.us ++ bs.map (.data j) }
      { s with up := s.up ++ bs.map fun b => Dict.set b ROUTE (natStr (j - 1))
               log := s.log ++ bs.map fun b => .sent .client i b } := by
  induction bs with
  | nil => intro a s h _ _ _; simpa using h
  | cons b bs ih =>
    intro a s h ht hi hj
    have := ih (fun b' hb' => hp b' (List.mem_cons_of_mem _ hb')) (h.sendC ht hi hj (hp b List.mem_cons_self)) ht hi hj
    simpa [List.append_assoc] using this

theorem SInv.sendManyS {q : Prop} {t i j : Nat} (bs : List Box) (hp : ∀ b ∈ bs, ROUTE ∉ Dict.keys b) :
    ∀ {a : Abs} {s : Sys}, SInv q a s → a.cs[t]? = some i → a.ss[t]? = some j → (q → bs ≠ [] → a.w = a.ss.length) →
    SInv q { a with ds := a.ds ++ bs.map (.data i) }
      { s with down := s.down ++ bs.map fun b => Dict.set b ROUTE (natStr (i - 1))
               log := s.log ++ bs.map fun b => .sent .server j b } := by
  induction bs with
  | nil => intro a s h _ _ _; simpa using h
  | cons b bs ih =>
    intro a s h hi hj hw
    have hw' : q → a.w = a.ss.length := fun hq => hw hq (by simp)
    have := ih (fun b' hb' => hp b' (List.mem_cons_of_mem _ hb')) (h.sendS hi hj (hp b List.mem_cons_self) hw') hi hj
      (fun hq _ => hw' hq)
    simpa [List.append_assoc] using this

theorem getROUTE_data (p : Box) (j : Nat) (h : 0 < j) : Dict.get? (Dict.set p ROUTE (natStr (j - 1))) ROUTE = nm j := by
  rw [Dict.get?_set_same, nm_pos h]

theorem connect_eq {q a s} (h : SInv q a s) :
    connect s = { s with client := mkR (a.c ++ [.unspecified])
                         up := s.up ++ [encU (.req a.cs.length a.c.length)]
                         tags := s.tags + 1
                         pending := Dict.set s.pending (natStr s.tags) a.c.length } := by
  have hc : 0 < a.c.length := (List.getElem?_eq_some_iff.1 h.c0).1
  have hne : a.c ≠ [] := fun e => by rw [e] at hc; exact absurd hc (by simp)
  have h0 : (a.c ++ [Remote.unspecified])[0]? = some (.to none) := by
    rw [List.getElem?_append_left hc]; exact h.c0
  rw [connect, h.client, mk_len, bind_mk a.c hne, nm_pos hc]
  simp only
  rw [send_mk_none _ h0, h.tags]
  rfl

theorem toServer_inv {q a s} (h : SInv q a s) (hw : a.w = a.ss.length) (burst : List Box)
    (hp : ∀ b ∈ burst, ROUTE ∉ Dict.keys b) :
    ∃ a', a'.w = a'.ss.length ∧ a'.cs = a.cs ∧ a'.c.length = a.c.length ∧ a'.us = a.us.tail ∧
      SInv (q ∧ burst = []) a' (toServer s burst) := by
  cases hu : a.us with
  | nil =>
    have : toServer s burst = s := by rw [toServer, h.up, hu]; rfl
    rw [this]
    exact ⟨a, hw, rfl, rfl, by rw [hu]; rfl, h.and⟩
  | cons m us =>
    have hup : s.up = encU m :: us.map encU := by rw [h.up, hu]; rfl
    cases m with
    | req t i =>
      obtain ⟨ht, hi, h1⟩ := h.take hu
      have hir := h.crange i (List.mem_of_getElem? hi)
      have hv : 0 < a.v.length := (List.getElem?_eq_some_iff.1 h.v0).1
      have hroute : Dict.get? (encU (.req t i)) ROUTE = nm 0 := by
        simp [encU, Dict.get?, COMMAND, ROUTE, ASK, NAME, nm]
      have herase : Dict.erase (encU (.req t i)) ROUTE = encU (.req t i) := by
        simp [encU, Dict.erase, COMMAND, ROUTE, ASK, NAME]
      have e1 : toServer s burst = newRoute { s with up := us.map encU } (natStr t) (natStr (i - 1)) burst := by
        rw [toServer, hup]
        simp only
        rw [h.server, recv_mk _ hv hroute, herase]
        simp only [if_true]
        rfl
      have e2 : toServer s burst =
          { s with server := mkR (a.v ++ [.to (nm i)])
                   up := us.map encU
                   down := s.down ++ (burst.map fun b => Dict.set b ROUTE (natStr (i - 1))) ++ [encD (.ans t a.v.length)]
                   log := s.log ++ [.started .server a.v.length] ++
                     burst.map fun b => .sent .server a.v.length b } := by
        rw [e1]
        have hc : 0 < a.v.length := hv
        have hne : a.v ≠ [] := fun e => by rw [e] at hc; exact absurd hc (by simp)
        have hset : (a.v ++ [Remote.unspecified]).set a.v.length (.to (nm i)) = a.v ++ [.to (nm i)] := by
          simp
        have h0 : (a.v ++ [Remote.to (nm i)])[0]? = some (.to none) := by
          rw [List.getElem?_append_left hc]; exact h.v0
        have hl : (a.v ++ [Remote.to (nm i)])[a.v.length]? = some (.to (nm i)) := by simp
        rw [newRoute]
        simp only
        rw [h.server, mk_len, bind_mk a.v hne, nm_pos hc]
        simp only
        rw [connect_mk _ _ _ (by simp), ← nm_pos hir.1, hset]
        simp only
        rw [sendMany_to hir.1 hl, send_mk_none _ h0]
        rfl
      subst ht
      have hss : (a.ss ++ [a.v.length])[a.ss.length]? = some a.v.length := by simp
      have h2 := (h1.weaken (fun x : q ∧ burst = [] => x.1)).sendManyS burst hp hi hss
        (fun x hb => absurd x.2 hb)
      have h3 := h2.answer (j := a.v.length) (by simp [hw]) (by rw [hw]; exact hss)
      rw [e2]
      refine ⟨_, ?_, ?_, ?_, ?_, by simpa only [hw] using h3⟩
      · rfl
      · rfl
      · rfl
      · rfl
    | data j p =>
      have hj := h.du j p (by rw [hu]; exact List.mem_cons_self)
      have hjr := h.srange j hj.1
      have e1 : toServer s burst = { s with up := us.map encU, log := s.log ++ [.got .server j p] } := by
        rw [toServer, hup]
        simp only
        rw [h.server, recv_mk (encU (.data j p)) hjr.2 (getROUTE_data p j hjr.1)]
        simp only
        rw [if_neg (by omega)]
        have : Dict.erase (encU (.data j p)) ROUTE = p := erase_set_absent p _ hj.2
        rw [this]
      rw [e1]
      exact ⟨{ a with us := us }, hw, rfl, rfl, rfl, (h.gotS hu).and⟩

theorem toClient_inv {q a s} (h : SInv q a s) (hw : a.w = a.ss.length) (burst : List Box)
    (hp : ∀ b ∈ burst, ROUTE ∉ Dict.keys b) :
    ∃ a', a'.w = a'.ss.length ∧ a'.cs = a.cs ∧ a'.c.length = a.c.length ∧ a'.ds = a.ds.tail ∧
      (burst = [] → a'.us = a.us) ∧ SInv q a' (toClient s burst) := by
  cases hd : a.ds with
  | nil =>
    have : toClient s burst = s := by rw [toClient, h.down, hd]; rfl
    rw [this]
    exact ⟨a, hw, rfl, rfl, by rw [hd]; rfl, fun _ => rfl, h⟩
  | cons m ds =>
    have hdown : s.down = encD m :: ds.map encD := by rw [h.down, hd]; rfl
    cases m with
    | ans t j =>
      obtain ⟨i, ht, hdw, hi, hj, hjp, hil, hpend, h1⟩ := h.conn hd
      have hv : 0 < a.c.length := (List.getElem?_eq_some_iff.1 h.c0).1
      have hroute : Dict.get? (encD (.ans t j)) ROUTE = nm 0 := by
        simp [encD, Dict.get?, ANSWER, ROUTE, NAME, nm]
      have herase : Dict.erase (encD (.ans t j)) ROUTE = encD (.ans t j) := by
        simp [encD, Dict.erase, ANSWER, ROUTE, NAME]
      have e2 : toClient s burst =
          { s with client := mkR (a.c.set i (.to (nm j)))
                   up := s.up ++ burst.map fun b => Dict.set b ROUTE (natStr (j - 1))
                   down := ds.map encD
                   pending := Dict.erase s.pending (natStr t)
                   log := s.log ++ [.started .client i] ++ burst.map fun b => .sent .client i b } := by
        rw [toClient, hdown]
        simp only
        rw [h.client, recv_mk _ hv hroute, herase]
        simp only [if_true]
        rw [clientProto]
        have g1 : Dict.get? (encD (.ans t j)) ANSWER = some (natStr t) := by simp [encD, Dict.get?]
        have g2 : Dict.get? (encD (.ans t j)) NAME = some (natStr (j - 1)) := by
          simp [encD, Dict.get?, ANSWER, NAME]
        rw [g1, g2]
        simp only
        rw [hpend]
        simp only
        rw [answered]
        simp only
        rw [connect_mk _ _ _ hil, ← nm_pos hjp]
        simp only
        rw [sendMany_to hjp (List.getElem?_set_self hil)]
      have h2 := h1.sendManyC (t := t) (i := i) (j := j) burst hp (by show t < a.d + 1; omega) hi hj
      rw [e2]
      refine ⟨_, ?_, ?_, ?_, ?_, ?_, h2⟩
      · exact hw
      · rfl
      · simp
      · rfl
      · intro e; subst e; simp
    | data i p =>
      have hi := h.dd i p (by rw [hd]; exact List.mem_cons_self)
      obtain ⟨⟨t, ht, hi1⟩, hi2⟩ := hi
      have hir := h.crange i (List.mem_of_getElem? hi1)
      have e1 : toClient s burst = { s with down := ds.map encD, log := s.log ++ [.got .client i p] } := by
        rw [toClient, hdown]
        simp only
        rw [h.client, recv_mk (encD (.data i p)) hir.2 (getROUTE_data p i hir.1)]
        simp only
        rw [if_neg (by omega)]
        have : Dict.erase (encD (.data i p)) ROUTE = p := erase_set_absent p _ hi2
        rw [this]
      rw [e1]
      exact ⟨{ a with ds := ds }, hw, rfl, rfl, rfl, fun _ => rfl, h.gotC hd⟩

/-- The routes of the client that the operations ask for; `n` is the number of the next route. -/
def asked (n : Nat) : List Op → List Nat
  | [] => []
  | .connect :: ops => n :: asked (n + 1) ops
  | .bind .client :: ops => asked (n + 1) ops
  | _ :: ops => asked n ops

theorem step_inv {q a s} (h : SInv q a s) (hw : a.w = a.ss.length) (op : Op) (hf : Fine op) :
    ∃ a', a'.w = a'.ss.length ∧ a'.cs = a.cs ++ asked a.c.length [op] ∧
      (∀ ops, asked a.c.length (op :: ops) = asked a.c.length [op] ++ asked a'.c.length ops) ∧
      SInv (q ∧ Quiet op) a' (step s op) := by
  have hc : 0 < a.c.length := (List.getElem?_eq_some_iff.1 h.c0).1
  have hne : a.c ≠ [] := fun e => by rw [e] at hc; exact absurd hc (by simp)
  have hv : 0 < a.v.length := (List.getElem?_eq_some_iff.1 h.v0).1
  have hnev : a.v ≠ [] := fun e => by rw [e] at hv; exact absurd hv (by simp)
  cases op with
  | connect =>
    have h1 := h.ask
    rw [← connect_eq h] at h1
    refine ⟨_, ?_, ?_, ?_, h1.and⟩
    · exact hw
    · rfl
    · intro ops; simp [asked]
  | bind side =>
    cases side with
    | client =>
      have e : step s (.bind .client) = { s with client := mkR (a.c ++ [.unspecified]) } := by
        rw [step, h.client, mk_len, bind_mk a.c hne]
      rw [e]
      refine ⟨_, ?_, ?_, ?_, h.bindC.and⟩
      · exact hw
      · simp [asked]
      · intro ops; simp [asked]
    | server =>
      have e : step s (.bind .server) = { s with server := mkR (a.v ++ [.unspecified]) } := by
        rw [step, h.server, mk_len, bind_mk a.v hnev]
      rw [e]
      refine ⟨_, ?_, ?_, ?_, h.bindS.and⟩
      · exact hw
      · simp [asked]
      · intro ops; simp [asked]
  | send side rid box =>
    cases side with
    | client =>
      by_cases hr : 0 < rid ∧ rid < a.c.length
      · obtain ⟨x, hx⟩ : ∃ x, a.c[rid]? = some x := ⟨a.c[rid], by simp [hr.2]⟩
        cases x with
        | unspecified =>
          have e : step s (.send .client rid box) =
              { s with log := s.log ++ [.raised .client (.other "RouteNotConnected")] } := by
            rw [step, h.client, mk_len, if_pos hr, sendVia_un box hx]
            simp [h.client]
          rw [e]
          exact ⟨a, hw, by simp [asked], fun ops => by simp [asked], (h.refuse .client).and⟩
        | «to» n =>
          obtain ⟨t, ht, hi⟩ := h.c2 rid n (by omega) hx
          have htl : t < a.ss.length := by have := h.dw; omega
          have hj : a.ss[t]? = some a.ss[t] := by simp [htl]
          have hjr := h.srange _ (List.mem_of_getElem? hj)
          have hto := h.c1 t rid _ ht hi hj
          have e : step s (.send .client rid box) =
              { s with up := s.up ++ [Dict.set box ROUTE (natStr (a.ss[t] - 1))]
                       log := s.log ++ [.sent .client rid box] } := by
            rw [step, h.client, mk_len, if_pos hr, sendVia_to box hjr.1 hto]
          rw [e]
          refine ⟨_, ?_, ?_, ?_, (h.sendC ht hi hj hf).and⟩
          · exact hw
          · simp [asked]
          · intro ops; simp [asked]
      · have e : step s (.send .client rid box) = s := by
          rw [step, h.client, mk_len, if_neg hr]
        rw [e]
        exact ⟨a, hw, by simp [asked], fun ops => by simp [asked], h.and⟩
    | server =>
      by_cases hr : 0 < rid ∧ rid < a.v.length
      · obtain ⟨x, hx⟩ : ∃ x, a.v[rid]? = some x := ⟨a.v[rid], by simp [hr.2]⟩
        cases x with
        | unspecified =>
          have e : step s (.send .server rid box) =
              { s with log := s.log ++ [.raised .server (.other "RouteNotConnected")] } := by
            rw [step, h.server, mk_len, if_pos hr, sendVia_un box hx]
            simp [h.server]
          rw [e]
          exact ⟨a, hw, by simp [asked], fun ops => by simp [asked], (h.refuse .server).and⟩
        | «to» n =>
          have hjs := h.v2 rid n (by omega) hx
          obtain ⟨t, hj⟩ := List.mem_iff_getElem?.1 hjs
          have htl : t < a.cs.length := by
            have := h.sc; have := (List.getElem?_eq_some_iff.1 hj).1; omega
          have hi : a.cs[t]? = some a.cs[t] := by simp [htl]
          have hir := h.crange _ (List.mem_of_getElem? hi)
          have hto := h.v1 t _ rid hi hj
          have e : step s (.send .server rid box) =
              { s with down := s.down ++ [Dict.set box ROUTE (natStr (a.cs[t] - 1))]
                       log := s.log ++ [.sent .server rid box] } := by
            rw [step, h.server, mk_len, if_pos hr, sendVia_to box hir.1 hto]
          rw [e]
          refine ⟨_, ?_, ?_, ?_, (h.sendS hi hj hf (fun _ => hw)).and⟩
          · exact hw
          · simp [asked]
          · intro ops; simp [asked]
      · have e : step s (.send .server rid box) = s := by
          rw [step, h.server, mk_len, if_neg hr]
        rw [e]
        exact ⟨a, hw, by simp [asked], fun ops => by simp [asked], h.and⟩
  | toServer burst =>
    obtain ⟨a', h1, h2, h3, _, h4⟩ := toServer_inv h hw burst hf
    exact ⟨a', h1, by rw [h2]; simp [asked], fun ops => by rw [h3]; simp [asked], h4⟩
  | toClient burst =>
    obtain ⟨a', h1, h2, h3, _, _, h4⟩ := toClient_inv h hw burst hf
    exact ⟨a', h1, by rw [h2]; simp [asked], fun ops => by rw [h3]; simp [asked], h4.and⟩

theorem init_inv : SInv True ⟨[.to none], [.to none], [], [], [], [], 0, 0⟩ init where
  client := by decide +kernel
  server := by decide +kernel
  up := rfl
  down := rfl
  tags := rfl
  pending := rfl
  dw := Nat.le_refl _
  ws := Nat.le_refl _
  sc := Nat.le_refl _
  reqs := rfl
  anss := rfl
  cnodup := List.nodup_nil
  snodup := List.nodup_nil
  crange := fun _ h => by cases h
  srange := fun _ h => by cases h
  c0 := rfl
  v0 := rfl
  c1 := fun _ _ _ h => by simp at h
  c2 := fun i n h e => by
    cases i with
    | zero => exact absurd rfl h
    | succ i => simp at e
  v1 := fun _ _ _ h => by simp at h
  v2 := fun i n h e => by
    cases i with
    | zero => exact absurd rfl h
    | succ i => simp at e
  du := fun _ _ h => by cases h
  dd := fun _ _ h => by cases h
  l1 := fun _ h => absurd rfl h
  l2 := fun _ h => absurd rfl h
  l3 := fun _ h => absurd rfl h
  l4 := fun _ h => absurd rfl h
  flowU := fun _ _ _ h => by simp at h
  flowD := fun _ _ _ h => by simp at h
  st1 := fun _ => rfl
  st2 := fun _ => rfl
  raised := fun _ _ h => by cases h
  unstopped := fun _ _ h => by cases h
  sf := fun l₁ _ _ _ e => by cases l₁ <;> cases e
  cf := fun _ l₁ _ _ _ e => by cases l₁ <;> cases e
  cq := fun _ d₁ _ _ _ e => by cases d₁ <;> cases e

theorem run_inv_from (ops : List Op) : ∀ {q a s}, SInv q a s → a.w = a.ss.length → (∀ op ∈ ops, Fine op) →
    ∃ a', a'.w = a'.ss.length ∧ a'.cs = a.cs ++ asked a.c.length ops ∧
      SInv (q ∧ ∀ op ∈ ops, Quiet op) a' (run s ops) := by
  induction ops with
  | nil =>
    intro q a s h hw _
    exact ⟨a, hw, by simp [asked], h.and⟩
  | cons op ops ih =>
    intro q a s h hw hf
    obtain ⟨a₁, hw₁, hc₁, ha₁, h₁⟩ := step_inv h hw op (hf op List.mem_cons_self)
    obtain ⟨a₂, hw₂, hc₂, h₂⟩ := ih h₁ hw₁ (fun o ho => hf o (List.mem_cons_of_mem _ ho))
    refine ⟨a₂, hw₂, by rw [hc₂, hc₁, ha₁ ops, List.append_assoc], ?_⟩
    exact h₂.weaken (fun x => ⟨⟨x.1, x.2 op List.mem_cons_self⟩, fun o ho => x.2 o (List.mem_cons_of_mem _ ho)⟩)

theorem run_inv (ops : List Op) (hf : ∀ op ∈ ops, Fine op) :
    ∃ a, a.w = a.ss.length ∧ a.cs = asked 1 ops ∧ SInv (∀ op ∈ ops, Quiet op) a (run init ops) := by
  obtain ⟨a, h1, h2, h3⟩ := run_inv_from ops init_inv rfl hf
  exact ⟨a, h1, h2, h3.weaken (fun x => ⟨trivial, x⟩)⟩

end Verif.RouteSetup
