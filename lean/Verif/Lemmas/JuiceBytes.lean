import Verif.Spec.JuiceBytes
import Verif.Lemmas.JuiceSim
import Verif.Lemmas.JuiceEval
import Verif.Lemmas.JuiceRpcRun
/-!
# Byte-level peers simulate box-level peers
-/
namespace Verif.JuiceBytes
open Verif.Py Verif.Juice Verif.JuiceRpc

/-! ## Acting -/

theorem step_act (w : JuiceRpc.World) (s : Bool) (op : Local) :
    (step w (op.at s)).side s = (act (w.side s) op).1 ∧
    (step w (op.at s)).chan s = w.chan s ++ (act (w.side s) op).2 ∧
    (step w (op.at s)).side (!s) = w.side (!s) ∧ (step w (op.at s)).chan (!s) = w.chan (!s) := by
  cases op with
  | lock => simp [Local.at, step, act]
  | send c b ra =>
    simp only [Local.at, step, act, sendBoxCommand, sendPacket]
    cases ho : (w.side s).outstanding with
    | none => simp
    | some d => cases ra <;> by_cases hl : (w.side s).locked = true <;> simp [hl]
  | respond m r =>
    simp only [Local.at, step, act, respond]
    cases hp : Dict.get? (w.side s).pending m with
    | none => simp
    | some box =>
      simp only
      cases ha : Dict.get? box ASK with
      | none => simp
      | some tag =>
        simp only
        cases ho : (w.side s).outstanding with
        | none => simp
        | some d =>
          simp only
          by_cases hl : (w.side s).locked = true <;> simp [hl]

/-! ## What arrives -/

theorem get?_same {b b' : Box} (hw : (b.map Prod.fst).Nodup) (h : SameBox b b') (k : Str) :
    Dict.get? b' k = Dict.get? b k := by
  cases hg : Dict.get? b k with
  | none =>
    rw [Dict.get?_eq_none_iff] at hg ⊢
    intro hk
    obtain ⟨p, hp, e⟩ := List.mem_map.1 hk
    exact hg (List.mem_map.2 ⟨p, (h.2 p).1 hp, e⟩)
  | some v => exact Dict.get?_of_mem (show Dict.WF b' from h.1) ((h.2 _).2 (Dict.mem_of_get? hg))

theorem get?_arrived {b : Box} (hw : (b.map Prod.fst).Nodup) (k : Str) : Dict.get? (arrived b) k = Dict.get? b k :=
  get?_same hw (arrived_same b hw) k

/-- How the receiving end sees a reply. -/
def arrResult : Result → Result
  | .answer b => .answer (arrived b)
  | r => r

/-- An end that has received its boxes from the wire. -/
def arr (p : Side) : Side :=
  { p with pending := p.pending.map fun e => (e.1, arrived e.2), handled := p.handled.map arrived,
           fired := p.fired.map fun e => (e.1, arrResult e.2) }

theorem get?_map_val {K V W : Type} [DecidableEq K] (f : V → W) (d : Dict K V) (k : K) :
    Dict.get? (d.map fun e => (e.1, f e.2)) k = (Dict.get? d k).map f := by
  induction d with
  | nil => rfl
  | cons e d ih =>
    simp only [List.map_cons, Dict.get?]
    split
    · rfl
    · exact ih

theorem erase_map_val {K V W : Type} [DecidableEq K] (f : V → W) (d : Dict K V) (k : K) :
    Dict.erase (d.map fun e => (e.1, f e.2)) k = (Dict.erase d k).map fun e => (e.1, f e.2) := by
  induction d with
  | nil => rfl
  | cons e d ih =>
    simp only [List.map_cons, Dict.erase]
    split
    · rfl
    · rw [ih]; rfl

theorem act_arr (p : Side) (hp : ∀ e ∈ p.pending, (e.2.map Prod.fst).Nodup) (op : Local) :
    act (arr p) op = (arr (act p op).1, (act p op).2) := by
  cases op with
  | lock => simp [Local.at, step, act, arr]
  | send c b ra =>
    simp only [Local.at, step, act, sendBoxCommand, sendPacket]
    cases ho : p.outstanding with
    | none => simp [arr, ho]
    | some d => cases ra <;> by_cases hl : p.locked = true <;> simp [hl, arr, ho]
  | respond m r =>
    simp only [Local.at, step, act, respond]
    have e1 : Dict.get? (arr p).pending m = (Dict.get? p.pending m).map arrived := get?_map_val arrived p.pending m
    have e2 : Dict.erase (arr p).pending m = (Dict.erase p.pending m).map fun e => (e.1, arrived e.2) :=
      erase_map_val arrived p.pending m
    rw [e1]
    cases hg : Dict.get? p.pending m with
    | none => simp [arr]
    | some box =>
      have hw := hp _ (Dict.mem_of_get? hg)
      simp only [Option.map_some, get?_arrived hw, e2]
      cases ha : Dict.get? box ASK with
      | none => simp [arr]
      | some tag =>
        simp only
        cases ho : p.outstanding with
        | none => simp [arr, ho]
        | some d =>
          by_cases hl : p.locked = true <;> simp [hl, arr, ho]

theorem juiceBoxReceived_arr (p : Side) (d : Dict Str Nat) (b : Box) (hw : (b.map Prod.fst).Nodup) :
    juiceBoxReceived (arr p) d (arrived b) = arr (juiceBoxReceived p d b) := by
  have g := get?_arrived hw
  have h : ∀ k, Dict.has (arrived b) k = Dict.has b k := by intro k; simp only [Dict.has, g]
  unfold juiceBoxReceived
  simp only [g, h]
  have e1 : (arr p).locked = p.locked := rfl
  rw [e1]
  split
  · rfl
  · cases hA : Dict.get? b ANSWER with
    | some tag =>
      simp only [answerReceived]
      cases Dict.get? d tag with
      | none => rfl
      | some n => simp [arr, arrResult]
    | none =>
      simp only
      cases hE : Dict.get? b ERROR with
      | some tag =>
        simp only [answerReceived]
        cases Dict.get? d tag with
        | none => rfl
        | some n =>
          simp only
          cases Dict.get? b ERROR_CODE with
          | none => rfl
          | some c =>
            cases Dict.get? b ERROR_DESCRIPTION with
            | none => rfl
            | some t => simp [arr, arrResult]
      | none =>
        simp only
        split <;> simp [arr]

/-! ## Legal boxes -/

/-- A key the protocol itself uses can travel. -/
theorem key_legal {k : Str} (h1 : k.all (fun c => c < 128 && c != 58 && c != 13 && c != 32 && c != 45 && !(65 ≤ c && c ≤ 90)) = true)
    (h2 : k ∉ keywords) : WireKey k ∧ CanonicalKey k := by
  have h : ∀ c ∈ k, c < 128 ∧ c ≠ 58 ∧ c ≠ 13 ∧ c ≠ 32 ∧ c ≠ 45 ∧ ¬ (65 ≤ c ∧ c ≤ 90) := by
    intro c hc
    have := List.all_eq_true.1 h1 c hc
    simp only [Bool.and_eq_true, decide_eq_true_eq, bne_iff_ne, ne_eq, Bool.not_eq_true'] at this
    refine ⟨this.1.1.1.1.1, this.1.1.1.1.2, this.1.1.1.2, this.1.1.2, this.1.2, ?_⟩
    intro ⟨ha, hb⟩
    have := this.2
    simp [ha, hb] at this
  refine ⟨⟨fun c hc => (h c hc).1, ?_, ?_, ?_⟩, .inl ⟨fun c hc => ⟨(h c hc).2.2.2.2.2, (h c hc).2.2.2.2.1⟩, h2⟩⟩
  · intro hi
    exact (h 58 (hi.subset (by simp))).2.1 rfl
  · intro hi
    exact (h 13 (hi.subset (by simp))).2.2.1 rfl
  · intro hh
    have : (32 : Nat) ∈ k := List.mem_of_mem_head? hh
    exact (h 32 this).2.2.2.1 rfl

theorem mem_set {b : Box} {k v : Str} {p : Str × Str} (h : p ∈ Dict.set b k v) : p = (k, v) ∨ p ∈ b := by
  induction b with
  | nil => simp [Dict.set] at h; exact .inl h
  | cons q b ih =>
    obtain ⟨k', v'⟩ := q
    rw [Dict.set] at h
    split at h
    · rename_i he
      rw [he] at h
      rcases List.mem_cons.1 h with h | h
      · exact .inl h
      · exact .inr (List.mem_cons_of_mem _ h)
    · rcases List.mem_cons.1 h with h | h
      · exact .inr (by rw [h]; exact List.mem_cons_self)
      · rcases ih h with h | h
        · exact .inl h
        · exact .inr (List.mem_cons_of_mem _ h)

theorem legal_set {b : Box} (hb : LegalBox b) {k v : Str} (hk : WireKey k ∧ CanonicalKey k) (h1 : k ≠ LENGTH)
    (h2 : k ≠ BODY) (hv : ∀ c ∈ v, IsScalar c) : LegalBox (Dict.set b k v) where
  wf := (show Dict.WF b from hb.wf).set k v
  noLength p hp := by
    rcases mem_set hp with rfl | hp
    · exact h1
    · exact hb.noLength p hp
  keys p hp := by
    rcases mem_set hp with rfl | hp
    · exact hk
    · exact hb.keys p hp
  values p hp := by
    rcases mem_set hp with rfl | hp
    · exact hv
    · exact hb.values p hp
  body p hp := by
    rcases mem_set hp with rfl | hp
    · exact fun e => absurd e h2
    · exact hb.body p hp

theorem legal_nil : LegalBox [] := ⟨by simp, by simp, by simp, by simp, by simp⟩

theorem hexStr_scalar (n : Nat) : ∀ c ∈ hexStr n, IsScalar c := by
  intro c hc
  obtain ⟨d, hd, rfl⟩ := List.mem_map.1 hc
  have := digits_lt 16 (by omega) n d hd
  left
  unfold digitChar
  split <;> omega

theorem LocalOk.op {op : Local} (h : LocalOk op) (s : Bool) : OpOk (op.at s) := by
  cases op with
  | send c b ra => exact ⟨h.1, h.2.1, h.2.2.1⟩
  | respond m r =>
    cases r with
    | answer b => exact h.1
    | error c d => trivial
  | lock => trivial

theorem act_legal (p : Side) (hp : ∀ e ∈ p.pending, LegalBox e.2) (op : Local) (h : LocalOk op) :
    (∀ b ∈ (act p op).2, LegalBox b) ∧ ∀ e ∈ (act p op).1.pending, LegalBox e.2 := by
  cases op with
  | lock => simpa [Local.at, step, act] using hp
  | send c b ra =>
    obtain ⟨h1, h2, h3, h4, h5⟩ := h
    have l1 : LegalBox (Dict.set b COMMAND c) := legal_set h4 (key_legal (by decide) (by decide)) (by decide) (by decide) h5
    simp only [Local.at, step, act, sendBoxCommand, sendPacket]
    cases ho : p.outstanding with
    | none => simpa using hp
    | some d =>
      cases ra
      · by_cases hl : p.locked = true
        · simpa [hl] using hp
        · simpa [hl] using ⟨l1, fun a b => hp (a, b)⟩
      · have l2 : LegalBox (Dict.set (Dict.set b COMMAND c) ASK (hexStr (p.counter + 1))) :=
          legal_set l1 (key_legal (by decide) (by decide)) (by decide) (by decide) (hexStr_scalar _)
        by_cases hl : p.locked = true
        · simpa [hl] using hp
        · simpa [hl] using ⟨l2, fun a b => hp (a, b)⟩
  | respond m r =>
    simp only [Local.at, step, act, respond]
    cases hg : Dict.get? p.pending m with
    | none => simpa using hp
    | some box =>
      have hbox : LegalBox box := hp _ (Dict.mem_of_get? hg)
      have hp' : ∀ e ∈ Dict.erase p.pending m, LegalBox e.2 := fun e he => hp e ((erase_sublist p.pending m).subset he)
      simp only
      cases ha : Dict.get? box ASK with
      | none => simpa using hp'
      | some tag =>
        have htag : ∀ c ∈ tag, IsScalar c := hbox.values _ (Dict.mem_of_get? ha)
        simp only
        cases ho : p.outstanding with
        | none => simpa using hp'
        | some d =>
          have hr : LegalBox (replyBox tag r) := by
            cases r with
            | answer b => exact legal_set h.2 (key_legal (by decide) (by decide)) (by decide) (by decide) htag
            | error code desc =>
              have : replyBox tag (.error code desc) =
                  Dict.set (Dict.set (Dict.set [] ERROR tag) ERROR_DESCRIPTION desc) ERROR_CODE code := by
                simp [replyBox, Dict.set, ERROR, ERROR_DESCRIPTION, ERROR_CODE]
              rw [this]
              exact legal_set (legal_set (legal_set legal_nil (key_legal (by decide) (by decide)) (by decide) (by decide) htag)
                (key_legal (by decide) (by decide)) (by decide) (by decide) h.2)
                (key_legal (by decide) (by decide)) (by decide) (by decide) h.1
          by_cases hl : p.locked = true
          · simpa [hl] using hp'
          · simpa [hl] using ⟨hr, fun a b => hp' (a, b)⟩

/-! ## One end -/

variable (U : Uni)

/-- The end `s` of a byte-level world, against that of a box-level world; `k` is the parser of the other end. -/
structure Sim (k : St Unit) (s : Bool) (a : Peer) (w : JuiceRpc.World) : Prop where
  side : a.1 = arr (w.side s)
  wire : ∃ k', Idle k' ∧ Yields U { k with buffer := [] } (k.buffer ++ a.2) k' ((w.chan s).map arrived)
  pend : ∀ e ∈ (w.side s).pending, LegalBox e.2
  chan : ∀ b ∈ w.chan s, LegalBox b

theorem emit_sim (k : St Unit) (hb : k.buffer = []) (hd : k.disconnecting = false) (hi : k.inner = false) (pre : Bytes) :
    ∀ (bs : List Box), (∀ b ∈ bs, LegalBox b) → ∀ (p : Side) (out : Bytes) (k' : St Unit) (cs : List Box), Idle k' →
      Yields U k (pre ++ out) k' cs →
      ∃ out' k'', bs.foldl emit (p, out) = (p, out') ∧ Idle k'' ∧ Yields U k (pre ++ out') k'' (cs ++ bs.map arrived)
  | [], _, p, out, k', cs, h1, h2 => ⟨out, k', rfl, h1, by simpa using h2⟩
  | b :: bs, hl, p, out, k', cs, h1, h2 => by
    obtain ⟨x, hx, -⟩ := go_box U recorder b (hl b (by simp))
    obtain ⟨k1, i1, y1⟩ := yields_box U h1 (hl b (by simp)) hx
    have e : ({ k' with buffer := [] } : St Unit) = k' := by
      have := h1.buffer
      cases k'; simp_all
    have y2 : Yields U k ((pre ++ out) ++ x) k1 (cs ++ [arrived b]) :=
      Yields.append U hb hd hi h1.disconnecting h2 (by rw [e, h1.buffer]; exact y1)
    rw [List.append_assoc] at y2
    obtain ⟨out', k'', f1, f2, f3⟩ := emit_sim k hb hd hi pre bs (fun b hb => hl b (List.mem_cons_of_mem _ hb)) p (out ++ x) k1 _ i1 y2
    refine ⟨out', k'', ?_, f2, by simpa using f3⟩
    rw [List.foldl_cons]
    simp only [emit, hx]
    exact f1

theorem perform_sim {k : St Unit} (hd : k.disconnecting = false) (hi : k.inner = false) {s : Bool} {a : Peer}
    {w : JuiceRpc.World} (h : Sim U k s a w) {op : Local} (ok : LocalOk op) :
    Sim U k s (perform a op) (step w (op.at s)) := by
  obtain ⟨e1, e2, -, -⟩ := step_act w s op
  obtain ⟨k', i, y⟩ := h.wire
  have hact := act_arr (w.side s) (fun e he => (h.pend e he).wf) op
  obtain ⟨l1, l2⟩ := act_legal (w.side s) h.pend op ok
  obtain ⟨out', k'', f1, f2, f3⟩ := emit_sim U { k with buffer := [] } rfl hd hi k.buffer (act (w.side s) op).2 l1
    (arr (act (w.side s) op).1) a.2 k' _ i y
  have hp : perform a op = (arr (act (w.side s) op).1, out') := by
    unfold perform
    rw [h.side, hact]
    exact f1
  constructor
  · rw [hp, e1]
  · rw [hp, e2]
    exact ⟨k'', f2, by simpa using f3⟩
  · rw [e1]; exact l2
  · rw [e2]
    intro b hb
    rcases List.mem_append.1 hb with hb | hb
    · exact h.chan b hb
    · exact l1 b hb

theorem performs_sim {k : St Unit} (hd : k.disconnecting = false) (hi : k.inner = false) {s : Bool} :
    ∀ (ops : List Local), (∀ op ∈ ops, LocalOk op) → ∀ {a : Peer} {w : JuiceRpc.World}, Sim U k s a w →
      Sim U k s (ops.foldl perform a) ((ops.map (Local.at s)).foldl step w) ∧
      ((ops.map (Local.at s)).foldl step w).side (!s) = w.side (!s) ∧
      ((ops.map (Local.at s)).foldl step w).chan (!s) = w.chan (!s)
  | [], _, a, w, h => ⟨h, rfl, rfl⟩
  | op :: ops, ok, a, w, h => by
    obtain ⟨g1, g2, g3⟩ := performs_sim hd hi ops (fun o ho => ok o (List.mem_cons_of_mem _ ho))
      (perform_sim U hd hi h (ok op (by simp)))
    obtain ⟨-, -, e1, e2⟩ := step_act w s op
    exact ⟨g1, g2.trans e1, g3.trans e2⟩

theorem act_outstanding (p : Side) (op : Local) : (act p op).1.outstanding = none ↔ p.outstanding = none := by
  cases op with
  | lock => simp [Local.at, step, act]
  | send c b ra =>
    simp only [Local.at, step, act, sendBoxCommand, sendPacket]
    cases ho : p.outstanding with
    | none => simp [ho]
    | some d => cases ra <;> by_cases hl : p.locked = true <;> simp [hl, ho]
  | respond m r =>
    simp only [Local.at, step, act, respond]
    cases hg : Dict.get? p.pending m with
    | none => simp
    | some box =>
      simp only
      cases ha : Dict.get? box ASK with
      | none => simp
      | some tag =>
        simp only
        cases ho : p.outstanding with
        | none => simp [ho]
        | some d => by_cases hl : p.locked = true <;> simp [hl, ho]

theorem steps_outstanding (s : Bool) : ∀ (ops : List Local) (w : JuiceRpc.World),
    (((ops.map (Local.at s)).foldl step w).side s).outstanding = none ↔ (w.side s).outstanding = none
  | [], w => Iff.rfl
  | op :: ops, w => by
    rw [List.map_cons, List.foldl_cons, steps_outstanding s ops, (step_act w s op).1, act_outstanding]

theorem received_raised (p : Side) (d : Dict Str Nat) (b : Box) : (juiceBoxReceived p d b).raised = p.raised ∨
    ∃ e, e ≠ .assertionError ∧ (juiceBoxReceived p d b).raised = p.raised ++ [e] := by
  unfold juiceBoxReceived answerReceived
  repeat' split
  all_goals first
    | exact .inl rfl
    | exact .inr ⟨_, PyErr.noConfusion, rfl⟩
    | skip
  · rename_i h; cases h
  · rename_i h
    split at h
    · cases h
    · cases h; exact .inr ⟨_, PyErr.noConfusion, rfl⟩

theorem received_pending (p : Side) (d : Dict Str Nat) (b : Box) : ∀ e ∈ (juiceBoxReceived p d b).pending,
    e ∈ p.pending ∨ e.2 = b := by
  unfold juiceBoxReceived answerReceived
  repeat' split
  all_goals intro e he
  all_goals first
    | exact .inl he
    | (rcases List.mem_append.1 he with h | h
       · exact .inl h
       · simp only [List.mem_singleton] at h; right; rw [h])

theorem received_outstanding (p : Side) (d : Dict Str Nat) (hd : p.outstanding = some d) (b : Box) :
    (juiceBoxReceived p d b).outstanding ≠ none := by
  unfold juiceBoxReceived answerReceived
  repeat' split
  all_goals simp [hd]

/-! ## Both ends -/

variable (P : Local → Prop)

/-- Where the steps of the box-level history come from. -/
def From (ops : List BOp) (i : Op) : Prop :=
  (∃ s, i = .deliver s) ∨ (∃ s op, P op ∧ i = op.at s) ∨ ∃ s r, i = .lose s r ∧ BOp.lose s r ∈ ops

theorem From.ok {P : Local → Prop} (hP : ∀ op, P op → LocalOk op) {ops : List BOp} {i : Op} (h : From P ops i) : OpOk i := by
  rcases h with ⟨s, rfl⟩ | ⟨s, op, h, rfl⟩ | ⟨s, r, rfl, -⟩
  · trivial
  · exact (hP op h).op s
  · trivial

theorem From.mono {P : Local → Prop} {ops ops' : List BOp} (hsub : ∀ o ∈ ops, o ∈ ops') {i : Op} (h : From P ops i) :
    From P ops' i := by
  rcases h with h | h | ⟨s, r, h1, h2⟩
  · exact .inl h
  · exact .inr (.inl h)
  · exact .inr (.inr ⟨s, r, h1, hsub _ h2⟩)

theorem run_append (i j : List Op) : JuiceRpc.run (i ++ j) = j.foldl step (JuiceRpc.run i) := by
  unfold JuiceRpc.run; rw [List.foldl_append]

theorem recv_sim {P : Local → Prop} (hP : ∀ op, P op → LocalOk op) (ops : List BOp) {k : St Unit} (hd : k.disconnecting = false) (hi : k.inner = false)
    {s : Bool} (react : Side → Box → List Local) (hr : ∀ p b, ∀ op ∈ react p b, P op) (cs2 : List Box) :
    ∀ (cs1 : List Box) (a : Peer) (is : List Op), (∀ i ∈ is, From P ops i) → Sim U k s a (JuiceRpc.run is) →
      ((JuiceRpc.run is).side s).outstanding ≠ none → (JuiceRpc.run is).chan (!s) = cs1 ++ cs2 → (∀ b ∈ cs1, LegalBox b) →
      ∃ is', (∀ i ∈ is', From P ops i) ∧ Takes (handler react) a (cs1.map arrived) ∧
        Sim U k s (after (handler react) a (cs1.map arrived)) (JuiceRpc.run is') ∧
        (JuiceRpc.run is').chan (!s) = cs2 ∧ (JuiceRpc.run is').side (!s) = (JuiceRpc.run is).side (!s)
  | [], a, is, h1, h2, h3, h4, h5 => ⟨is, h1, trivial, h2, h4, rfl⟩
  | b :: cs1, a, is, h1, h2, h3, h4, h5 => by
    obtain ⟨d, ho⟩ := Option.ne_none_iff_exists'.1 h3
    have hdel : step (JuiceRpc.run is) (.deliver s) =
        ((JuiceRpc.run is).setChan (!s) (cs1 ++ cs2)).setSide s (juiceBoxReceived ((JuiceRpc.run is).side s) d b) := by
      simp only [step, deliver, ho, h4, List.cons_append]
    have hsnoc : JuiceRpc.run (is ++ [.deliver s]) = step (JuiceRpc.run is) (.deliver s) := by rw [run_append]; rfl
    have hfrom : ∀ i ∈ is ++ [.deliver s], From P ops i := by
      intro i hi
      rcases List.mem_append.1 hi with hi | hi
      · exact h1 i hi
      · simp only [List.mem_singleton] at hi; exact .inl ⟨s, hi⟩
    have hside : (JuiceRpc.run (is ++ [.deliver s])).side s = juiceBoxReceived ((JuiceRpc.run is).side s) d b := by
      rw [hsnoc, hdel]; simp
    have hraise : (juiceBoxReceived ((JuiceRpc.run is).side s) d b).raised = ((JuiceRpc.run is).side s).raised := by
      rcases received_raised ((JuiceRpc.run is).side s) d b with h | ⟨e, h, h'⟩
      · exact h
      · exfalso
        apply h
        have := raised_run (is ++ [.deliver s]) (fun i hi => (hfrom i hi).ok hP) s e
        apply this
        rw [hside, h']; simp
    have hp : juiceBoxReceived a.1 d (arrived b) = arr (juiceBoxReceived ((JuiceRpc.run is).side s) d b) := by
      rw [h2.side]; exact juiceBoxReceived_arr _ d b (h5 b (by simp)).wf
    have hao : a.1.outstanding = some d := by rw [h2.side]; exact ho
    have hhand : handler react a (arrived b) =
        ⟨(react (arr (juiceBoxReceived ((JuiceRpc.run is).side s) d b)) (arrived b)).foldl perform
          (arr (juiceBoxReceived ((JuiceRpc.run is).side s) d b), a.2), false, false, none⟩ := by
      unfold handler
      rw [hao]
      simp only [hp]
      have : (arr (juiceBoxReceived ((JuiceRpc.run is).side s) d b)).raised.drop a.1.raised.length = [] := by
        rw [h2.side]
        show (juiceBoxReceived ((JuiceRpc.run is).side s) d b).raised.drop ((JuiceRpc.run is).side s).raised.length = []
        rw [hraise]; simp
      rw [this]
    have hsim1 : Sim U k s (arr (juiceBoxReceived ((JuiceRpc.run is).side s) d b), a.2) (JuiceRpc.run (is ++ [.deliver s])) := by
      constructor
      · rw [hside]
      · rw [hsnoc, hdel]; simpa using h2.wire
      · rw [hside]
        intro e he
        rcases received_pending _ _ _ e he with he | he
        · exact h2.pend e he
        · rw [he]; exact h5 b (by simp)
      · rw [hsnoc, hdel]; simpa using h2.chan
    generalize hl : react (arr (juiceBoxReceived ((JuiceRpc.run is).side s) d b)) (arrived b) = locals at hhand
    have hlo : ∀ op ∈ locals, P op := by rw [← hl]; exact hr _ _
    obtain ⟨g1, g2, g3⟩ := performs_sim U hd hi locals (fun o ho => hP o (hlo o ho)) hsim1
    rw [← run_append] at g1 g2 g3
    obtain ⟨is', f1, f2, f3, f4, f5⟩ := recv_sim hP ops hd hi react hr cs2 cs1 _ _ (by
        intro i hi
        rcases List.mem_append.1 hi with hi | hi
        · exact hfrom i hi
        · obtain ⟨op, ho, rfl⟩ := List.mem_map.1 hi
          exact .inr (.inl ⟨s, op, hlo op ho, rfl⟩)) g1
      (by
        rw [run_append, Ne, steps_outstanding, hside]
        exact received_outstanding _ d ho b)
      (by rw [g3, hsnoc, hdel]; simp) (fun b hb => h5 b (List.mem_cons_of_mem _ hb))
    refine ⟨is', f1, ?_, ?_, f4, ?_⟩
    · rw [List.map_cons, Takes, hhand]
      exact ⟨rfl, rfl, rfl, f2⟩
    · rw [List.map_cons, after, hhand]
      exact f3
    · rw [f5, g2, hsnoc, hdel]; simp

/-- A byte-level world against a box-level one. -/
structure Rel (W : World) (w : JuiceRpc.World) : Prop where
  sim : ∀ s, Sim U (core (W.conn (!s))) s (W.conn s).app w
  open_ : ∀ s, (W.conn s).disconnecting = false ∧ (W.conn s).inner = false
  ready : ∀ s, Ready (W.conn s)

@[simp] theorem set_same (W : World) (s : Bool) (c : St Peer) : (W.set s c).conn s = c := by simp [World.set]
@[simp] theorem set_not (W : World) (s : Bool) (c : St Peer) : (W.set s c).conn (!s) = W.conn (!s) := by simp [World.set]
@[simp] theorem set_of_not (W : World) (s : Bool) (c : St Peer) : (W.set (!s) c).conn s = W.conn s := by simp [World.set]

theorem forall_side (s : Bool) {Q : Bool → Prop} : (∀ b, Q b) ↔ Q s ∧ Q (!s) := by
  constructor
  · exact fun h => ⟨h s, h (!s)⟩
  · rintro ⟨h1, h2⟩ b
    cases s <;> cases b <;> assumption

theorem Sim.keep {k : St Unit} {s : Bool} {a : Peer} {w w' : JuiceRpc.World} (h : Sim U k s a w)
    (h1 : w'.side s = w.side s) (h2 : w'.chan s = w.chan s) : Sim U k s a w' := by
  constructor
  · rw [h1]; exact h.side
  · rw [h2]; exact h.wire
  · rw [h1]; exact h.pend
  · rw [h2]; exact h.chan

theorem step_sim {P : Local → Prop} (hP : ∀ op, P op → LocalOk op) (ops : List BOp) (W : World) (is : List Op)
    (hfrom : ∀ i ∈ is, From P ops i) (h : Rel U W (JuiceRpc.run is)) (op : BOp) (hop : op ∈ ops) (ok : BOk P op) :
    ∃ is', (∀ i ∈ is', From P ops i) ∧ Rel U (stepB U W op) (JuiceRpc.run is') := by
  cases op with
  | act s op =>
    refine ⟨is ++ [op.at s], ?_, ?_⟩
    · intro i hi
      rcases List.mem_append.1 hi with hi | hi
      · exact hfrom i hi
      · simp only [List.mem_singleton] at hi; exact .inr (.inl ⟨s, op, ok, hi⟩)
    · have hrun : JuiceRpc.run (is ++ [op.at s]) = step (JuiceRpc.run is) (op.at s) := by rw [run_append]; rfl
      obtain ⟨-, -, e1, e2⟩ := step_act (JuiceRpc.run is) s op
      have hs := perform_sim U (h.open_ (!s)).1 (h.open_ (!s)).2 (h.sim s) (hP op ok)
      rw [hrun]
      simp only [stepB, World.act]
      constructor
      · refine (forall_side s).2 ⟨?_, ?_⟩
        · simp only [set_same, set_not]; exact hs
        · simp only [set_not, Bool.not_not, set_same]
          have := h.sim (!s)
          rw [Bool.not_not] at this
          exact this.keep U e1 e2
      · refine (forall_side s).2 ⟨?_, ?_⟩
        · simp only [set_same]; exact h.open_ s
        · simp only [set_not]; exact h.open_ (!s)
      · refine (forall_side s).2 ⟨?_, ?_⟩
        · simp only [set_same]; exact h.ready s
        · simp only [set_not]; exact h.ready (!s)
  | lose s reason =>
    refine ⟨is ++ [.lose s reason], ?_, ?_⟩
    · intro i hi
      rcases List.mem_append.1 hi with hi | hi
      · exact hfrom i hi
      · simp only [List.mem_singleton] at hi; exact .inr (.inr ⟨s, reason, hi, hop⟩)
    · have hrun : JuiceRpc.run (is ++ [.lose s reason]) = connectionLost (JuiceRpc.run is) s reason := by rw [run_append]; rfl
      rw [hrun]
      have hs := h.sim s
      have hn := h.sim (!s)
      rw [Bool.not_not] at hn
      have e1 : (connectionLost (JuiceRpc.run is) s reason).side (!s) = (JuiceRpc.run is).side (!s) := by
        unfold connectionLost; dsimp only; split <;> simp
      have e2 : (connectionLost (JuiceRpc.run is) s reason).chan = (JuiceRpc.run is).chan := by
        unfold connectionLost; dsimp only; split <;> simp
      have e3 : (connectionLost ⟨fun _ => (W.conn s).app.1, fun _ => []⟩ true reason).side true =
          arr ((connectionLost (JuiceRpc.run is) s reason).side s) := by
        unfold connectionLost
        rw [hs.side]
        cases ho : ((JuiceRpc.run is).side s).outstanding with
        | none => simp [arr, ho]
        | some d => simp [arr, ho, arrResult, Function.comp_def]
      have e4 : ∀ e ∈ ((connectionLost (JuiceRpc.run is) s reason).side s).pending, e ∈ ((JuiceRpc.run is).side s).pending := by
        intro e he
        unfold connectionLost at he
        dsimp only at he
        split at he
        · exact he
        · simpa using he
      simp only [stepB, World.lose]
      constructor
      · refine (forall_side s).2 ⟨?_, ?_⟩
        · simp only [set_same, set_not]
          constructor
          · exact e3
          · rw [e2]; exact hs.wire
          · exact fun e he => hs.pend e (e4 e he)
          · rw [e2]; exact hs.chan
        · simp only [set_not, Bool.not_not, set_same]
          exact hn.keep U e1 (by rw [e2])
      · refine (forall_side s).2 ⟨?_, ?_⟩
        · simp only [set_same]; exact h.open_ s
        · simp only [set_not]; exact h.open_ (!s)
      · refine (forall_side s).2 ⟨?_, ?_⟩
        · simp only [set_same]; exact h.ready s
        · simp only [set_not]; exact h.ready (!s)
  | bytes s n react =>
    simp only [stepB, World.receive]
    split
    · exact ⟨is, hfrom, h⟩
    · rename_i hc
      simp only [not_or] at hc
      obtain ⟨hc1, -, -⟩ := hc
      have hs := h.sim s
      have hn := h.sim (!s)
      rw [Bool.not_not] at hn
      obtain ⟨k', hidle, hy⟩ := hn.wire
      have hcore : (core (W.conn s)).buffer = (W.conn s).buffer := rfl
      rw [hcore, ← List.take_append_drop n (W.conn (!s)).app.2, ← List.append_assoc] at hy
      obtain ⟨k1, bs1, bs2, g1, g2, g3, g4, g5⟩ := Yields.split U (k := { core (W.conn s) with buffer := [] }) rfl
        (h.open_ s).1 (h.open_ s).2 hy
      obtain ⟨cs1, cs2, q1, q2, q3⟩ := List.map_eq_append_iff.1 g3
      subst q2 q3
      have hup : ((JuiceRpc.run is).side s).outstanding ≠ none := by
        rw [hs.side] at hc1; exact hc1
      obtain ⟨is', f1, f2, f3, f4, f5⟩ := recv_sim U hP ops (k := core (W.conn (!s))) (h.open_ (!s)).1 (h.open_ (!s)).2 react ok cs2 cs1
        (W.conn s).app is hfrom hs hup q1 (fun b hb => hn.chan b (by rw [q1]; exact List.mem_append_left _ hb))
      have e := dataReceived_go U (handler react) (W.conn s) ((W.conn (!s)).app.2.take n)
      have e' := g4 (handler react) (W.conn s).app (W.conn s).trace f2
      rw [show go U (handler react) (W.conn s) ((W.conn s).buffer ++ (W.conn (!s)).app.2.take n) = _ from e'] at e
      have e2 : dataReceived U (handler react) (W.conn s) ((W.conn (!s)).app.2.take n) =
          (plug k1 (after (handler react) (W.conn s).app (cs1.map arrived))
            ((W.conn s).trace ++ (cs1.map arrived).map .box), none) := by
        rcases hdr : dataReceived U (handler react) (W.conn s) ((W.conn (!s)).app.2.take n) with ⟨r, _ | x⟩
        · rw [hdr] at e; exact e
        · rw [hdr] at e; simp [norm] at e
      refine ⟨is', f1, ?_⟩
      rw [e2]
      simp only
      constructor
      · refine (forall_side s).2 ⟨?_, ?_⟩
        · simp only [set_same, set_not]
          exact f3
        · simp only [set_not, Bool.not_not, set_same]
          constructor
          · rw [f5]; exact hn.side
          · rw [f4]; exact ⟨k', hidle, g5⟩
          · rw [f5]; exact hn.pend
          · rw [f4]; intro b hb; exact hn.chan b (by rw [q1]; exact List.mem_append_right _ hb)
      · refine (forall_side s).2 ⟨?_, ?_⟩
        · simp only [set_same]; exact ⟨g1, g2⟩
        · simp only [set_not, set_same]; exact h.open_ (!s)
      · refine (forall_side s).2 ⟨?_, ?_⟩
        · simp only [set_same]
          exact go_ready U (handler react) { W.conn s with buffer := [] } _ _ rfl e' g1
        · simp only [set_not, set_same]; exact h.ready (!s)

theorem Rel.new : Rel U World.new (JuiceRpc.run []) := by
  have hidle : Idle (core (St.init ((Side.new, []) : Peer))) := ⟨rfl, rfl, rfl, rfl, rfl⟩
  refine ⟨fun s => ?_, fun s => ⟨rfl, rfl⟩, fun s => ⟨fun _ => rfl, fun _ => rfl⟩⟩
  refine ⟨rfl, ⟨_, hidle, yields_nil U hidle⟩, ?_, ?_⟩
  · intro e he; cases he
  · intro e he; cases he

theorem run_sim {P : Local → Prop} (hP : ∀ op, P op → LocalOk op) (ops : List BOp) (ok : ∀ op ∈ ops, BOk P op) :
    ∃ is, (∀ i ∈ is, From P ops i) ∧ Rel U (runB U ops) (JuiceRpc.run is) := by
  induction ops using List.reverseRecOn with
  | nil => exact ⟨[], by simp, Rel.new U⟩
  | append_singleton ops op ih =>
    obtain ⟨is, h1, h2⟩ := ih (fun o ho => ok o (List.mem_append_left _ ho))
    have hrun : runB U (ops ++ [op]) = stepB U (runB U ops) op := by unfold runB; rw [List.foldl_append]; rfl
    rw [hrun]
    exact step_sim U hP (ops ++ [op]) _ is (fun i hi => (h1 i hi).mono (fun o ho => List.mem_append_left _ ho)) h2 op
      (by simp) (ok op (by simp))

/-- When every byte `s` has written has been received, so has every box. -/
theorem Rel.drained {W : World} {w : JuiceRpc.World} (h : Rel U W w) (s : Bool) (he : (W.conn s).app.2 = []) :
    w.chan s = [] := by
  obtain ⟨k', -, y⟩ := (h.sim s).wire
  have hr := h.ready (!s)
  rw [he, List.append_nil] at y
  have e := y recorder [] [] (takes_recorder _ _)
  have e' := go_self U recorder (plug (core (W.conn (!s))) [] [] : St (List Box)) hr
  rw [show go U recorder (plug { core (W.conn (!s)) with buffer := [] } [] []) (core (W.conn (!s))).buffer = _ from e'] at e
  simp only [Prod.mk.injEq, and_true] at e
  have := (plug_eq e).1
  rw [after_recorder, List.nil_append] at this
  exact List.map_eq_nil_iff.1 this.symm

/-! ## Evaluating concrete histories -/

/-- `stepB` with fuel for the parser. -/
def stepF (n : Nat) (w : World) : BOp → Option World
  | .act s op => some (w.act s op)
  | .lose s reason => some (w.lose s reason)
  | .bytes s k react =>
    let c := w.conn s
    let o := w.conn (!s)
    if c.app.1.outstanding = none ∨ c.disconnecting = true ∨ o.app.2.take k = [] then some w
    else
      match goF U (handler react) n { c with buffer := [] } (c.buffer ++ o.app.2.take k) with
      | some (c', none) => some ((w.set (!s) { o with app := (o.app.1, o.app.2.drop k) }).set s c')
      | _ => none

def runF (n : Nat) : World → List BOp → Option World
  | w, [] => some w
  | w, op :: ops => (stepF U n w op).bind fun w => runF n w ops

theorem stepF_eq {n : Nat} {w w' : World} {op : BOp} (h : stepF U n w op = some w') : stepB U w op = w' := by
  cases op with
  | act s op => cases h; rfl
  | lose s r => cases h; rfl
  | bytes s k react =>
    simp only [stepF, stepB, World.receive] at h ⊢
    split at h
    · rename_i hc; rw [if_pos hc]; cases h; rfl
    · rename_i hc
      rw [if_neg hc]
      split at h
      · rename_i c' hg
        cases h
        have e := dataReceived_go U (handler react) (w.conn s) ((w.conn (!s)).app.2.take k)
        have e' : go U (handler react) (w.conn s) ((w.conn s).buffer ++ (w.conn (!s)).app.2.take k) = (c', none) :=
          by
          have := goF_eq U (handler react) n _ _ _ (by rfl) hg
          exact this
        rw [e'] at e
        rcases hdr : dataReceived U (handler react) (w.conn s) ((w.conn (!s)).app.2.take k) with ⟨r, _ | x⟩
        · rw [hdr] at e; cases e; rfl
        · rw [hdr] at e; simp [norm] at e
      · cases h

theorem runF_eq {n : Nat} {ops : List BOp} {w' : World} (h : runF U n World.new ops = some w') : runB U ops = w' := by
  unfold runB
  generalize World.new = w at h ⊢
  induction ops generalizing w with
  | nil => cases h; rfl
  | cons op ops ih =>
    rw [runF] at h
    cases hs : stepF U n w op with
    | none => rw [hs] at h; cases h
    | some w1 =>
      rw [hs] at h
      rw [List.foldl_cons, stepF_eq U hs]
      exact ih w1 h

end Verif.JuiceBytes
