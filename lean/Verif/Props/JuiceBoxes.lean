import Verif.Model.JuiceBoxes
/-!
# C110 — what sending each kind of juice box does, and when
-/
namespace Verif.JuiceBoxes
open Verif.Py
open Verif.Juice (Str Bytes Box serialize BODY)
open Verif.JuiceDispatch (VERSION_ARG)

variable {U : Uni}

/-! ## Effects come directly after the box that causes them -/

/-- `l` ends in the writing of `o`. -/
def EndsIn (l : List Ev) (o : Obj) : Prop := ∃ l' b, l = l' ++ [.wrote o b]

/-- Where an event may stand: `pre` is everything before it. -/
def Placed (pre : List Ev) : Ev → Prop
  | .wrote o b => serialize o.fields = .ok b
  | .lose o => o.kind = .quit ∧ EndsIn pre o
  | .connected o proto => o.kind = .switch proto ∧ EndsIn pre o
  | .version o v => o.kind = .negotiate ∧ (∃ s, Dict.get? o.fields VERSION_ARG = some s ∧ U.int s = some v) ∧ EndsIn pre o
  | .tls (some o) c v => (∃ f, o.kind = .tls c v f) ∧ EndsIn pre o
  | .tls none _ _ => True
  | .started o f => ∃ c v pre', o.kind = .tls c v (some f) ∧ pre = pre' ++ [.tls (some o) c v]
  | .raised _ => True

def Ordered (U : Uni) (l : List Ev) : Prop := ∀ pre e post, l = pre ++ e :: post → Placed (U := U) pre e

theorem Ordered.snoc {l : List Ev} (h : Ordered U l) {e : Ev} (he : Placed (U := U) l e) : Ordered U (l ++ [e]) := by
  intro pre x post hx
  rcases List.eq_nil_or_concat post with rfl | ⟨post', y, rfl⟩
  · have := List.append_inj' (hx : l ++ [e] = pre ++ [x]) rfl
    obtain ⟨rfl, h2⟩ := this
    cases h2
    exact he
  · have hx' : l ++ [e] = (pre ++ x :: post') ++ [y] := by rw [hx]; simp
    have := List.append_inj' hx' rfl
    exact h pre x post' this.1

/-- The peer never waits for TLS, and everything it did was in order. -/
structure Plain (U : Uni) (p : Peer) : Prop where
  direct : p.buffer = none
  ordered : Ordered U p.log

theorem Plain.say {p : Peer} (h : Plain U p) {e : Ev} (he : Placed (U := U) p.log e) : Plain U (p.say e) :=
  ⟨h.direct, h.ordered.snoc he⟩

theorem sendPacket_direct {p : Peer} (hb : p.buffer = none) (o : Obj) :
    (p.locked = true ∧ sendPacket p o = (false, p.say (.raised .assertionError))) ∨
    (∃ e, p.locked = false ∧ serialize o.fields = .error e ∧ sendPacket p o = (false, p.say (.raised e))) ∨
    (∃ b, p.locked = false ∧ serialize o.fields = .ok b ∧ sendPacket p o = (true, p.say (.wrote o b))) := by
  unfold sendPacket
  by_cases hl : p.locked = true
  · left; rw [if_pos hl]; exact ⟨hl, rfl⟩
  · right
    rw [if_neg hl, hb]
    have hl' : p.locked = false := by simpa using hl
    cases hs : serialize o.fields with
    | error e => left; exact ⟨e, hl', rfl, rfl⟩
    | ok b => right; exact ⟨b, hl', rfl, rfl⟩

theorem Plain.sendTo {p : Peer} (h : Plain U p) (o : Obj) : Plain U (sendTo U p o) := by
  unfold JuiceBoxes.sendTo
  rcases sendPacket_direct h.direct o with ⟨-, e⟩ | ⟨x, -, -, e⟩ | ⟨b, -, hs, e⟩
  · rw [e]; exact h.say trivial
  · rw [e]; exact h.say trivial
  · rw [e]
    have hw : Plain U (p.say (.wrote o b)) := h.say hs
    have he : EndsIn (p.say (.wrote o b)).log o := ⟨p.log, b, rfl⟩
    generalize p.say (.wrote o b) = q at hw he ⊢
    dsimp only
    split
    · exact hw
    · next hk => exact hw.say ⟨hk, he⟩
    · next proto hk =>
      unfold switchTo
      split
      · exact hw.say trivial
      · exact Plain.say (p := { q with lineMode := false, inner := some proto }) ⟨hw.direct, hw.ordered⟩ ⟨hk, he⟩
    · next hk =>
      split
      · exact hw.say trivial
      · next s hv =>
        split
        · exact hw.say trivial
        · next v hi => exact Plain.say (p := { q with version := v }) ⟨hw.direct, hw.ordered⟩ ⟨hk, ⟨s, hv, hi⟩, he⟩
    · next c v f hk =>
      unfold startTLS
      cases hc : q.certificate with
      | some _ => exact hw.say trivial
      | none =>
        dsimp only
        rw [show (Peer.say { q with certificate := some c } (.tls (some o) c v)).buffer = none from hw.direct]
        have ht : Plain U (Peer.say { q with certificate := some c } (.tls (some o) c v)) :=
          Plain.say (p := { q with certificate := some c }) ⟨hw.direct, hw.ordered⟩ ⟨⟨f, hk⟩, he⟩
        cases f with
        | none => exact ht
        | some f => exact ht.say ⟨c, v, q.log, hk, rfl⟩

theorem Plain.step {p : Peer} (h : Plain U p) {op : Op} (hop : op ≠ .prepare) : Plain U (step U p op) := by
  cases op with
  | send o => exact h.sendTo o
  | prepare => exact absurd rfl hop
  | start c v =>
    show Plain U (startTLS p none c v).2
    unfold startTLS
    split
    · exact h.say trivial
    · dsimp only
      rw [show (Peer.say { p with certificate := some c } (.tls none c v)).buffer = none from h.direct]
      exact Plain.say (p := { p with certificate := some c }) ⟨h.direct, h.ordered⟩ trivial
  | lock => exact ⟨h.direct, h.ordered⟩

theorem Plain.run {p : Peer} (h : Plain U p) (ops : List Op) (hops : .prepare ∉ ops) : Plain U (run U p ops) := by
  induction ops generalizing p with
  | nil => exact h
  | cons op ops ih =>
    exact ih (h.step fun e => hops (e ▸ List.mem_cons_self)) fun hm => hops (List.mem_cons_of_mem _ hm)

theorem Plain.new (server : Bool) : Plain U (buildProtocol server) :=
  ⟨rfl, fun pre e post h => by
    change [] = pre ++ e :: post at h
    simp at h⟩

/-- **C110.** On a connection that does not wait for TLS: the connection is dropped, the protocol switched, the version set or TLS
started because of a box only by a box of that class, and directly after it was written, as it is serialised; `sslstarted` is called
directly after TLS was started. -/
theorem effects_follow_partial (U : Uni) (server : Bool) (ops : List Op) (hops : .prepare ∉ ops) :
    Ordered U (run U (buildProtocol server) ops).log := ((Plain.new server).run ops hops).ordered

/-! ## What is written -/

def writes : List Ev → List (Obj × Bytes)
  | [] => []
  | .wrote o b :: l => (o, b) :: writes l
  | _ :: l => writes l

/-- The boxes sent, with their bytes, those that can be serialised. -/
def sendable : List Op → List (Obj × Bytes)
  | [] => []
  | .send o :: l =>
    match serialize o.fields with
    | .ok b => (o, b) :: sendable l
    | .error _ => sendable l
  | _ :: l => sendable l

theorem writes_append (a b : List Ev) : writes (a ++ b) = writes a ++ writes b := by
  induction a with
  | nil => rfl
  | cons e a ih => cases e <;> simp [writes, ih]

/-- Not a write. -/
def Ev.silent : Ev → Bool
  | .wrote _ _ => false
  | _ => true

theorem writes_say (p : Peer) {e : Ev} (he : e.silent = true) : writes (p.say e).log = writes p.log := by
  show writes (p.log ++ [e]) = _
  rw [writes_append]
  cases e <;> first | (simp [writes]; done) | cases he

/-- What comes after the box was written writes nothing, if the peer does not wait for TLS. -/
theorem sendTo_writes {p : Peer} (hb : p.buffer = none) (hl : p.locked = false) (o : Obj) :
    writes (sendTo U p o).log = writes p.log ++ sendable [.send o] ∧ (sendTo U p o).locked = false := by
  unfold JuiceBoxes.sendTo
  rcases sendPacket_direct hb o with ⟨h, -⟩ | ⟨x, -, hs, e⟩ | ⟨b, -, hs, e⟩
  · rw [hl] at h; cases h
  · rw [e]
    refine ⟨?_, hl⟩
    rw [writes_say _ rfl]
    simp [sendable, hs]
  · rw [e]
    have hq : writes (p.say (.wrote o b)).log = writes p.log ++ sendable [.send o] := by
      show writes (p.log ++ [.wrote o b]) = _
      rw [writes_append]
      simp [sendable, hs, writes]
    have hql : (p.say (.wrote o b)).locked = false := hl
    have hqb : (p.say (.wrote o b)).buffer = none := hb
    generalize p.say (.wrote o b) = q at hq hql hqb ⊢
    dsimp only
    rw [← hq]
    split
    · exact ⟨rfl, hql⟩
    · exact ⟨writes_say _ rfl, hql⟩
    · unfold switchTo
      split
      · exact ⟨writes_say _ rfl, hql⟩
      · exact ⟨writes_say { q with lineMode := false, inner := _ } rfl, hql⟩
    · split
      · exact ⟨writes_say _ rfl, hql⟩
      · split
        · exact ⟨writes_say _ rfl, hql⟩
        · exact ⟨writes_say { q with version := _ } rfl, hql⟩
    · next c v f hk =>
      unfold startTLS
      cases hc : q.certificate with
      | some _ => exact ⟨writes_say _ rfl, hql⟩
      | none =>
        dsimp only
        rw [show (Peer.say { q with certificate := some c } (.tls (some o) c v)).buffer = none from hqb]
        cases f with
        | none => exact ⟨writes_say { q with certificate := some c } rfl, hql⟩
        | some f => exact ⟨(writes_say _ rfl).trans (writes_say { q with certificate := some c } rfl), hql⟩

theorem sendable_cons (op : Op) (ops : List Op) : sendable (op :: ops) = sendable [op] ++ sendable ops := by
  cases op with
  | send o =>
    have e : ∀ l, sendable (.send o :: l) = match serialize o.fields with
        | .ok b => (o, b) :: sendable l
        | .error _ => sendable l := fun _ => rfl
    rw [e ops, e []]
    cases serialize o.fields <;> simp [sendable]
  | _ => simp [sendable]

/-- **C110.** Every box that is sent is written once, in order, unless it cannot be serialised; whatever its class. -/
theorem all_written_partial (U : Uni) (server : Bool) (ops : List Op) (hp : .prepare ∉ ops) (hl : .lock ∉ ops) :
    writes (run U (buildProtocol server) ops).log = sendable ops := by
  suffices ∀ p, Plain U p → p.locked = false → writes (run U p ops).log = writes p.log ++ sendable ops by
    have := this (buildProtocol server) (Plain.new server) rfl
    rw [this]
    rfl
  induction ops with
  | nil => intro p _ _; simp [run, sendable]
  | cons op ops ih =>
    intro p h hlock
    have hop : op ≠ .prepare := fun e => hp (e ▸ List.mem_cons_self)
    have key : writes (step U p op).log = writes p.log ++ sendable [op] ∧ (step U p op).locked = false := by
      cases op with
      | send o => exact sendTo_writes h.direct hlock o
      | prepare => exact absurd rfl hop
      | start c v =>
        have : writes (startTLS p none c v).2.log = writes p.log ∧ (startTLS p none c v).2.locked = false := by
          unfold startTLS
          split
          · exact ⟨writes_say _ rfl, hlock⟩
          · dsimp only
            rw [show (Peer.say { p with certificate := some c } (.tls none c v)).buffer = none from h.direct]
            exact ⟨writes_say { p with certificate := some c } rfl, hlock⟩
        exact ⟨by rw [show sendable [.start c v] = [] from rfl, List.append_nil]; exact this.1, this.2⟩
      | lock => exact absurd List.mem_cons_self hl
    have := ih (fun hm => hp (List.mem_cons_of_mem _ hm)) (fun hm => hl (List.mem_cons_of_mem _ hm)) (step U p op) (h.step hop) key.2
    show writes (run U (step U p op) ops).log = _
    rw [this, key.1, sendable_cons op ops, List.append_assoc]

/-! ## A locked peer -/

theorem flush_locked {p : Peer} (h : p.locked = true) (l : List Obj) :
    writes (flush p l).2.log = writes p.log ∧ (flush p l).2.locked = true := by
  cases l with
  | nil => exact ⟨rfl, h⟩
  | cons o l =>
    have : flush p (o :: l) = (false, p.say (.raised .assertionError)) := by
      show (match sendPacket p o with
        | (true, p) => flush p l
        | (false, p) => (false, p)) = _
      unfold sendPacket
      rw [if_pos h]
    rw [this]
    exact ⟨writes_say _ rfl, h⟩

theorem step_locked {p : Peer} (h : p.locked = true) (op : Op) :
    writes (step U p op).log = writes p.log ∧ (step U p op).locked = true := by
  cases op with
  | send o =>
    have : sendTo U p o = p.say (.raised .assertionError) := by
      unfold sendTo sendPacket
      rw [if_pos h]
    show writes (sendTo U p o).log = _ ∧ (sendTo U p o).locked = true
    rw [this]
    exact ⟨writes_say _ rfl, h⟩
  | prepare => exact ⟨rfl, h⟩
  | start c v =>
    show writes (startTLS p none c v).2.log = _ ∧ (startTLS p none c v).2.locked = true
    unfold startTLS
    split
    · exact ⟨writes_say _ rfl, h⟩
    · dsimp only
      split
      · exact ⟨writes_say { p with certificate := some c } rfl, h⟩
      · next l _ =>
        have := flush_locked (p := { Peer.say { p with certificate := some c } (.tls none c v) with buffer := none }) h l
        exact ⟨this.1.trans (writes_say { p with certificate := some c } rfl), this.2⟩
  | lock => exact ⟨rfl, rfl⟩

/-- **C110.** A peer that has been locked never writes a box again. -/
theorem locked_writes_nothing (U : Uni) (server : Bool) (ops ops' : List Op) :
    writes (run U (buildProtocol server) (ops ++ .lock :: ops')).log = writes (run U (buildProtocol server) ops).log := by
  suffices ∀ p : Peer, p.locked = true → writes (run U p ops').log = writes p.log by
    show writes (List.foldl (step U) (buildProtocol server) (ops ++ .lock :: ops')).log = _
    rw [List.foldl_append]
    exact this (step U (run U (buildProtocol server) ops) .lock) rfl
  induction ops' with
  | nil => exact fun _ _ => rfl
  | cons op ops' ih =>
    intro p h
    have := step_locked (U := U) h op
    exact (ih _ this.2).trans this.1

/-! ## TLS is started once and the protocol switched once -/

def isTls : Ev → Bool
  | .tls _ _ _ => true
  | _ => false

def isConnected : Ev → Bool
  | .connected _ _ => true
  | _ => false

/-- The version that was set last, or 0. -/
def lastVersion : List Ev → Int := List.foldl (fun v e => match e with
  | .version _ w => w
  | _ => v) 0

structure Once (p : Peer) : Prop where
  tls : p.log.countP isTls = if p.certificate = none then 0 else 1
  inner : p.log.countP isConnected = if p.inner = none then 0 else 1
  mode : p.lineMode = p.inner.isNone
  version : p.version = lastVersion p.log

/-- An event that changes none of these. -/
def Ev.idle : Ev → Bool
  | .tls _ _ _ => false
  | .connected _ _ => false
  | .version _ _ => false
  | _ => true

theorem lastVersion_snoc (l : List Ev) (e : Ev) : lastVersion (l ++ [e]) = match e with
    | .version _ w => w
    | _ => lastVersion l := by
  unfold lastVersion
  rw [List.foldl_append]
  cases e <;> rfl

theorem countP_snoc (f : Ev → Bool) (l : List Ev) (e : Ev) : (l ++ [e]).countP f = l.countP f + if f e then 1 else 0 := by
  rw [List.countP_append, List.countP_singleton]

theorem Once.say {p : Peer} (h : Once p) {e : Ev} (he : e.idle = true) : Once (p.say e) where
  tls := by
    show (p.log ++ [e]).countP isTls = _
    rw [countP_snoc, h.tls]
    cases e <;> first | rfl | cases he
  inner := by
    show (p.log ++ [e]).countP isConnected = _
    rw [countP_snoc, h.inner]
    cases e <;> first | rfl | cases he
  mode := h.mode
  version := by
    show p.version = lastVersion (p.log ++ [e])
    rw [lastVersion_snoc, h.version]
    cases e <;> first | rfl | cases he

theorem Once.sendPacket {p : Peer} (h : Once p) (o : Obj) : Once (sendPacket p o).2 := by
  unfold JuiceBoxes.sendPacket
  split
  · exact h.say rfl
  · split
    · exact ⟨h.tls, h.inner, h.mode, h.version⟩
    · split
      · exact h.say rfl
      · exact h.say rfl

theorem Once.flush {p : Peer} (h : Once p) (l : List Obj) : Once (flush p l).2 := by
  induction l generalizing p with
  | nil => exact h
  | cons o l ih =>
    have hs := h.sendPacket o
    unfold JuiceBoxes.flush
    split
    · next q e => rw [e] at hs; exact ih hs
    · next q e => rw [e] at hs; exact hs

theorem Once.startTLS {p : Peer} (h : Once p) (o : Option Obj) (c : Nat) (v : Option Nat) : Once (startTLS p o c v).2 := by
  unfold JuiceBoxes.startTLS
  split
  · exact h.say rfl
  · next hc =>
    have ht : Once (Peer.say { p with certificate := some c } (.tls o c v)) := by
      refine ⟨?_, ?_, h.mode, ?_⟩
      · show (p.log ++ [Ev.tls o c v]).countP isTls = 1
        rw [countP_snoc, h.tls, hc]; rfl
      · show (p.log ++ [Ev.tls o c v]).countP isConnected = _
        rw [countP_snoc, h.inner]; rfl
      · show p.version = lastVersion (p.log ++ [Ev.tls o c v])
        rw [lastVersion_snoc]; exact h.version
    dsimp only
    split
    · exact ht
    · exact Once.flush (p := { Peer.say { p with certificate := some c } (.tls o c v) with buffer := none })
        ⟨ht.tls, ht.inner, ht.mode, ht.version⟩ _

theorem Once.step {p : Peer} (h : Once p) (op : Op) : Once (step U p op) := by
  cases op with
  | send o =>
    have hs := h.sendPacket o
    show Once (sendTo U p o)
    unfold JuiceBoxes.sendTo
    split
    · next q e => rw [e] at hs; exact hs
    · next q e =>
      rw [e] at hs
      replace hs : Once q := hs
      split
      · exact hs
      · exact hs.say rfl
      · next proto _ =>
        unfold switchTo
        split
        · exact hs.say rfl
        · next hi =>
          refine ⟨?_, ?_, rfl, ?_⟩
          · show (q.log ++ [Ev.connected o proto]).countP isTls = _
            rw [countP_snoc, hs.tls]; rfl
          · show (q.log ++ [Ev.connected o proto]).countP isConnected = 1
            rw [countP_snoc, hs.inner, hi]; rfl
          · show q.version = lastVersion (q.log ++ [Ev.connected o proto])
            rw [lastVersion_snoc]; exact hs.version
      · split
        · exact hs.say rfl
        · split
          · exact hs.say rfl
          · next v _ =>
            refine ⟨?_, ?_, hs.mode, ?_⟩
            · show (q.log ++ [Ev.version o v]).countP isTls = _
              rw [countP_snoc, hs.tls]; rfl
            · show (q.log ++ [Ev.version o v]).countP isConnected = _
              rw [countP_snoc, hs.inner]; rfl
            · show v = lastVersion (q.log ++ [Ev.version o v])
              rw [lastVersion_snoc]
      · next c v f _ =>
        have ht := hs.startTLS (some o) c v
        split
        · next r e => rw [e] at ht; exact ht
        · next r e =>
          rw [e] at ht
          split
          · exact ht
          · exact Once.say ht rfl
  | prepare => exact ⟨h.tls, h.inner, h.mode, h.version⟩
  | start c v => exact h.startTLS none c v
  | lock => exact ⟨h.tls, h.inner, h.mode, h.version⟩

theorem Once.run (U : Uni) (server : Bool) (ops : List Op) : Once (run U (buildProtocol server) ops) := by
  suffices ∀ p, Once p → Once (JuiceBoxes.run U p ops) from this _ ⟨rfl, rfl, rfl, rfl⟩
  induction ops with
  | nil => exact fun _ h => h
  | cons op ops ih => exact fun p h => ih _ (h.step op)

/-- **C110.** Whatever is sent, TLS is started at most once, the connection is handed over at most once, and the protocol version is
the one set last. -/
theorem at_most_once (U : Uni) (server : Bool) (ops : List Op) :
    (run U (buildProtocol server) ops).log.countP isTls ≤ 1 ∧
    (run U (buildProtocol server) ops).log.countP isConnected ≤ 1 ∧
    (run U (buildProtocol server) ops).version = lastVersion (run U (buildProtocol server) ops).log := by
  have h := Once.run U server ops
  refine ⟨?_, ?_, h.version⟩
  · rw [h.tls]; split <;> omega
  · rw [h.inner]; split <;> omega

/-! ## The effects happen -/

/-- What has to follow the writing of a box, after what was seen so far; `none`: nothing is claimed. -/
def follows (U : Uni) (seen : List Ev) (o : Obj) : Option (List Ev) :=
  match o.kind with
  | .plain => some []
  | .quit => some [.lose o]
  | .negotiate => ((Dict.get? o.fields VERSION_ARG).bind U.int).map fun v => [.version o v]
  | .switch proto => if seen.any isConnected then none else some [.connected o proto]
  | .tls c v f => if seen.any isTls then none else some (.tls (some o) c v :: (f.map (Ev.started o)).toList)

theorem run_locked {p : Peer} (hl : p.locked = false) (h : Plain U p) (ops : List Op) (hp : .prepare ∉ ops) (hk : .lock ∉ ops) :
    (run U p ops).locked = false := by
  induction ops generalizing p with
  | nil => exact hl
  | cons op ops ih =>
    have hop : op ≠ .prepare := fun e => hp (e ▸ List.mem_cons_self)
    refine ih (p := step U p op) ?_ (h.step hop) (fun hm => hp (List.mem_cons_of_mem _ hm)) (fun hm => hk (List.mem_cons_of_mem _ hm))
    cases op with
    | send o => exact (sendTo_writes h.direct hl o).2
    | prepare => exact absurd rfl hop
    | start c v =>
      show (startTLS p none c v).2.locked = false
      unfold startTLS
      split
      · exact hl
      · dsimp only
        rw [show (Peer.say { p with certificate := some c } (.tls none c v)).buffer = none from h.direct]
        exact hl
    | lock => exact absurd List.mem_cons_self hk

theorem any_of_countP {f : Ev → Bool} {l : List Ev} (h : l.any f = false) : l.countP f = 0 := by
  rw [List.countP_eq_zero]
  intro e he hf
  have : l.any f = true := List.any_eq_true.2 ⟨e, he, hf⟩
  rw [h] at this; cases this

/-- **C110.** A box that can be serialised is written, and what it is for is done then and there: a `QuitBox` drops the connection, a
`NegotiateBox` sets its version, the first `_SwitchBox` hands the connection over, the first `TLSBox` starts TLS with its certificate
and authority and calls `sslstarted`; and nothing else is done. -/
theorem effects_happen_partial (U : Uni) (server : Bool) (ops : List Op) (hp : .prepare ∉ ops) (hk : .lock ∉ ops) (o : Obj) (b : Bytes)
    (hs : serialize o.fields = .ok b) (post : List Ev) (hf : follows U (run U (buildProtocol server) ops).log o = some post) :
    (run U (buildProtocol server) (ops ++ [.send o])).log = (run U (buildProtocol server) ops).log ++ .wrote o b :: post ∧
    (∀ proto, o.kind = .switch proto → (run U (buildProtocol server) (ops ++ [.send o])).inner = some proto ∧
      (run U (buildProtocol server) (ops ++ [.send o])).lineMode = false) := by
  have hP := (Plain.new (U := U) server).run ops hp
  have hl := run_locked (U := U) (p := buildProtocol server) rfl (Plain.new server) ops hp hk
  have hO := Once.run U server ops
  have e : run U (buildProtocol server) (ops ++ [.send o]) = sendTo U (run U (buildProtocol server) ops) o := by
    show List.foldl _ _ _ = _
    rw [List.foldl_append]
    rfl
  rw [e]
  generalize run U (buildProtocol server) ops = p at hP hl hO hf ⊢
  unfold sendTo
  have hsp : sendPacket p o = (true, p.say (.wrote o b)) := by
    unfold sendPacket
    rw [hl, hP.direct, hs]
    rfl
  rw [hsp]
  dsimp only
  unfold follows at hf
  cases hkd : o.kind with
  | plain =>
    rw [hkd] at hf
    cases hf
    exact ⟨rfl, fun _ h => by cases h⟩
  | quit =>
    rw [hkd] at hf
    cases hf
    exact ⟨by simp [Peer.say], fun _ h => by cases h⟩
  | negotiate =>
    rw [hkd] at hf
    refine ⟨?_, fun _ h => by cases h⟩
    dsimp only at hf ⊢
    cases hv : Dict.get? o.fields VERSION_ARG with
    | none => rw [hv] at hf; cases hf
    | some s =>
      rw [hv] at hf
      dsimp only [Option.bind] at hf ⊢
      cases hi : U.int s with
      | none => rw [hi] at hf; cases hf
      | some v =>
        rw [hi] at hf
        cases hf
        simp [Peer.say]
  | switch proto =>
    rw [hkd] at hf
    dsimp only at hf ⊢
    cases ha : p.log.any isConnected with
    | true => rw [ha] at hf; cases hf
    | false =>
      rw [ha] at hf
      cases hf
      have hin : p.inner = none := by
        have := hO.inner
        rw [any_of_countP ha] at this
        by_cases h : p.inner = none
        · exact h
        · rw [if_neg h] at this; cases this
      have e : switchTo (p.say (.wrote o b)) o proto =
          Peer.say { p.say (.wrote o b) with lineMode := false, inner := some proto } (.connected o proto) := by
        unfold switchTo
        rw [show (p.say (.wrote o b)).inner = none from hin]
      rw [e]
      exact ⟨by simp [Peer.say], fun _ h => by cases h; exact ⟨rfl, rfl⟩⟩
  | tls c v f =>
    rw [hkd] at hf
    dsimp only at hf ⊢
    refine ⟨?_, fun _ h => by cases h⟩
    cases ha : p.log.any isTls with
    | true => rw [ha] at hf; cases hf
    | false =>
      rw [ha] at hf
      cases hf
      have hc : p.certificate = none := by
        have := hO.tls
        rw [any_of_countP ha] at this
        by_cases h : p.certificate = none
        · exact h
        · rw [if_neg h] at this; cases this
      have e : startTLS (p.say (.wrote o b)) (some o) c v =
          (true, Peer.say { p.say (.wrote o b) with certificate := some c } (.tls (some o) c v)) := by
        unfold startTLS
        rw [show (p.say (.wrote o b)).certificate = none from hc]
        dsimp only
        rw [show (Peer.say { p.say (.wrote o b) with certificate := some c } (.tls (some o) c v)).buffer = none from hP.direct]
      rw [e]
      cases f <;> simp [Peer.say]

/-! ## Making boxes -/

/-- **C110.** A box has the fields it was made with, and the body, if there is one; a body of any other type is refused. -/
theorem juiceBox_fields (s : Str) (kw : Box) (k : Str) :
    ∃ o, juiceBox (.text s) kw = .ok o ∧ o.kind = .plain ∧
      Dict.get? o.fields k = if k = BODY ∧ s ≠ [] then some s else Dict.get? kw k := by
  cases s with
  | nil => exact ⟨_, rfl, rfl, by simp⟩
  | cons c s =>
    refine ⟨_, rfl, rfl, ?_⟩
    show Dict.get? (Dict.set kw BODY (c :: s)) k = _
    rw [Dict.get?_set]
    by_cases hk : k = BODY <;> simp [hk, eq_comm]

/-- What is not text is refused, unless it is false. -/
theorem juiceBox_refuses (kw : Box) (b : Body) :
    juiceBox b kw = .error .assertionError ↔ b = .other true ∨ ∃ l, l ≠ [] ∧ b = .bytes l := by
  unfold juiceBox
  split <;> simp_all

/-- The classes whose constructors need no arguments. -/
def Kind.bare : Kind → Bool
  | .plain | .quit | .negotiate => true
  | _ => false

theorem update_append (d : Box) (l : Box) (hw : Dict.WF (d ++ l)) : update d l = d ++ l := by
  induction l generalizing d with
  | nil => simp [update]
  | cons x l ih =>
    obtain ⟨k, v⟩ := x
    have hk : k ∉ Dict.keys d := by
      intro hk
      unfold Dict.WF Dict.keys at hw
      rw [List.map_append, List.nodup_append] at hw
      exact hw.2.2 k hk k (by simp) rfl
    show update (Dict.set d k v) l = _
    rw [Dict.set_of_not_mem _ hk, ih _ (by simpa using hw)]
    simp

/-- **C110.** The copy of a box is a box of the same class with the same items in the same order; boxes that hold more than their
items cannot be copied. -/
theorem copy_partial (o : Obj) (hw : Dict.WF o.fields) : o.copy = if o.kind.bare then .ok o else .error .typeError := by
  obtain ⟨k, f⟩ := o
  have : update [] f = f := by rw [update_append [] f (by simpa using hw)]; rfl
  cases k <;> simp [Obj.copy, Kind.bare, this]

/-- So no `TLSBox` and no `_SwitchBox` can be copied. -/
theorem copy_fails (c p : Nat) (v f : Option Nat) (kw : Box) :
    (tlsBox c v f kw).copy = .error .typeError ∧ (switchBox p kw).copy = .error .typeError := ⟨rfl, rfl⟩

/-- **C110.** `body` is the field of that name. -/
theorem body_get_set (o : Obj) (s : Str) : (o.setBody s).getBody = .ok s ∧ (o.setBody s).kind = o.kind ∧
    ∀ k, k ≠ BODY → Dict.get? (o.setBody s).fields k = Dict.get? o.fields k := by
  refine ⟨?_, rfl, fun k hk => ?_⟩
  · unfold Obj.setBody Obj.getBody
    rw [Dict.get?_set_same]
  · exact (Dict.get?_set _ _ _ _).trans (by simp [eq_comm, hk])

/-- **C110.** The factories make servers and clients, and no peer is both or neither. -/
theorem factories (U : Uni) (server : Bool) (ops : List Op) :
    (run U (buildProtocol server) ops).isServer = server ∧ (run U (buildProtocol server) ops).isClient = !server := by
  suffices ∀ p : Peer, (run U p ops).issueGreeting = p.issueGreeting by
    have := this (buildProtocol server)
    exact ⟨this, by unfold Peer.isClient; rw [this]; rfl⟩
  have hs : ∀ (p : Peer) o, (sendPacket p o).2.issueGreeting = p.issueGreeting := by
    intro p o
    unfold sendPacket
    split
    · rfl
    · split
      · rfl
      · split <;> rfl
  have hf : ∀ l (p : Peer), (flush p l).2.issueGreeting = p.issueGreeting := by
    intro l
    induction l with
    | nil => exact fun _ => rfl
    | cons o l ih =>
      intro p
      have := hs p o
      unfold flush
      split
      · next e => rw [e] at this; exact (ih _).trans this
      · next e => rw [e] at this; exact this
  have ht : ∀ (p : Peer) o c v, (startTLS p o c v).2.issueGreeting = p.issueGreeting := by
    intro p o c v
    unfold startTLS
    split
    · rfl
    · dsimp only
      split
      · rfl
      · rw [hf]; rfl
  have hstep : ∀ (p : Peer) op, (step U p op).issueGreeting = p.issueGreeting := by
    intro p op
    cases op with
    | send o =>
      have h1 := hs p o
      show (sendTo U p o).issueGreeting = _
      unfold sendTo
      split
      · next e => rw [e] at h1; exact h1
      · next q e =>
        rw [e] at h1
        rw [← h1]
        show _ = q.issueGreeting
        split
        · rfl
        · rfl
        · unfold switchTo; split <;> rfl
        · split
          · rfl
          · split <;> rfl
        · next c v f _ =>
          have h2 := ht q (some o) c v
          split
          · next e => rw [e] at h2; exact h2
          · next e =>
            rw [e] at h2
            split
            · exact h2
            · exact h2
    | prepare => rfl
    | start c v => exact ht p none c v
    | lock => rfl
  induction ops with
  | nil => exact fun _ => rfl
  | cons op ops ih => exact fun p => (ih _).trans (hstep p op)

/-! ## Where it fails -/

/-- While the peer waits for TLS, a `QuitBox` drops the connection without having been written. -/
theorem quit_waiting_fails : (run Uni.ascii (buildProtocol true) [.prepare, .send ⟨.quit, []⟩]).log = [.lose ⟨.quit, []⟩] := by
  decide +kernel

/-- A second `TLSBox` is written, in the open or not, before the peer finds out that it cannot start TLS: the other side will. -/
theorem tls_twice_fails : ((run Uni.ascii (buildProtocol true) [.send (tlsBox 1 none none []), .send (tlsBox 2 none (some 5) [])]).log) =
    [.wrote (tlsBox 1 none none []) [13, 10], .tls (some (tlsBox 1 none none [])) 1 none,
     .wrote (tlsBox 2 none (some 5) []) [13, 10], .raised .runtimeError] := by decide +kernel

/-- Likewise a second `_SwitchBox`, and a `NegotiateBox` without a version. -/
theorem switch_twice_fails : ((run Uni.ascii (buildProtocol true) [.send (switchBox 1 []), .send (switchBox 2 [])]).log) =
    [.wrote (switchBox 1 []) [13, 10], .connected (switchBox 1 []) 1, .wrote (switchBox 2 []) [13, 10], .raised .assertionError] := by
  decide +kernel

theorem no_version_fails : ((run Uni.ascii (buildProtocol true) [.send ⟨.negotiate, []⟩]).log) =
    [.wrote ⟨.negotiate, []⟩ [13, 10], .raised .keyError] := by decide +kernel

/-- The boxes written one by one. -/
def wroteAll : List (Obj × Bytes) → List Ev
  | [] => []
  | (o, b) :: l => .wrote o b :: wroteAll l

theorem flush_all {p : Peer} (hl : p.locked = false) (hb : p.buffer = none) (l : List (Obj × Bytes))
    (hs : ∀ x ∈ l, serialize x.1.fields = .ok x.2) :
    flush p (l.map Prod.fst) = (true, { p with log := p.log ++ wroteAll l }) := by
  induction l generalizing p with
  | nil => simp [flush, wroteAll]
  | cons x l ih =>
    obtain ⟨o, b⟩ := x
    have e : sendPacket p o = (true, p.say (.wrote o b)) := by
      simp [sendPacket, hl, hb, hs (o, b) (by simp)]
    simp only [List.map_cons, flush, e]
    rw [ih (p := p.say (.wrote o b)) hl hb fun x hx => hs x (List.mem_cons_of_mem _ hx)]
    simp [Peer.say, wroteAll]

/-- **C110.** Boxes that waited for TLS are written, in order, once it is started, and then `sslstarted` is called.  (A `TLSBox` sent
while boxes wait is itself written inside TLS, last.) -/
theorem waiting_written (U : Uni) {p : Peer} (hl : p.locked = false) (hc : p.certificate = none) {waiting : List (Obj × Bytes)}
    (hb : p.buffer = some (waiting.map Prod.fst)) (hs : ∀ x ∈ waiting, serialize x.1.fields = .ok x.2) (c : Nat) (v : Option Nat) :
    (step U p (.start c v)).log = p.log ++ .tls none c v :: wroteAll waiting ∧ (step U p (.start c v)).buffer = none ∧
    ∀ f kw b, serialize kw = .ok b →
      (step U p (.send (tlsBox c v (some f) kw))).log = p.log ++ .tls (some (tlsBox c v (some f) kw)) c v :: wroteAll waiting ++
        [.wrote (tlsBox c v (some f) kw) b, .started (tlsBox c v (some f) kw) f] := by
  refine ⟨?_, ?_, fun f kw b hk => ?_⟩
  · simp only [step, startTLS, hc, Peer.say, hb]
    rw [flush_all (by exact hl) (by rfl) waiting hs]
    simp
  · simp only [step, startTLS, hc, Peer.say, hb]
    rw [flush_all (by exact hl) (by rfl) waiting hs]
  · have e : sendPacket p (tlsBox c v (some f) kw) =
        (true, { p with buffer := some ((waiting ++ [(tlsBox c v (some f) kw, b)]).map Prod.fst) }) := by
      simp [sendPacket, hl, hb]
    have hw : ∀ (l : List (Obj × Bytes)) x, wroteAll (l ++ [x]) = wroteAll l ++ [.wrote x.1 x.2] := by
      intro l x
      induction l with
      | nil => rfl
      | cons a l ih => simp [wroteAll, ih]
    have hk' : (tlsBox c v (some f) kw).kind = .tls c v (some f) := rfl
    simp only [step, sendTo, e, hk', startTLS, hc, Peer.say]
    rw [flush_all (by exact hl) (by rfl)]
    · simp [hw]
    · intro x hx
      rcases List.mem_append.1 hx with hx | hx
      · exact hs x hx
      · cases List.mem_singleton.1 hx; exact hk

/-! ## A concrete history -/

/-- A version is agreed on, TLS started, the connection handed over. -/
example : ((run Uni.ascii (buildProtocol true)
      [.send ⟨.negotiate, [(VERSION_ARG, [49])]⟩, .send (tlsBox 3 (some 4) (some 5) []), .send (switchBox 6 []), .lock, .send ⟨.quit, []⟩]).log.map
        fun e => match e with
        | .wrote _ _ => 0
        | .version _ _ => 1
        | .tls _ _ _ => 2
        | .started _ _ => 3
        | .connected _ _ => 4
        | .lose _ => 5
        | .raised _ => 6) = [0, 1, 0, 2, 3, 0, 4, 6] := by decide +kernel

/-- A box with a body that is copied. -/
example : (⟨.quit, [(VERSION_ARG, [49]), (BODY, [50])]⟩ : Obj).copy = .ok ⟨.quit, [(VERSION_ARG, [49]), (BODY, [50])]⟩ := by decide +kernel

end Verif.JuiceBoxes
