import Verif.Lemmas.JuiceBytes
import Verif.Lemmas.JuiceQuiet
import Verif.Lemmas.JuiceSent
/-!
# Requests and answers over a byte stream: C94

Two peers, their parsers, and two byte streams cut into arbitrary pieces; each application may act at any time, also while
a box is being handled.  `LocalOk` says what applications may do: boxes and texts that the wire format can carry, and none
of the protocol's own keys.
-/
namespace Verif.JuiceRpc
open Verif.Py Verif.Juice

/-- C94, for boxes: when no box is in flight and no handler is running, every request has been answered — provided nobody
locked the connection or lost it. -/
theorem all_answered (ops : List Op) (ok : ∀ op ∈ ops, OpOk op) (nl : ∀ op ∈ ops, NoLock op)
    (s : Bool) (up : ∀ b, ((run ops).side b).outstanding ≠ none) (flight : ∀ b, (run ops).chan b = [])
    (idle : ∀ b, ((run ops).side b).pending = []) (n : Nat) (box : Box) (h : (n, box) ∈ ((run ops).side s).asked) :
    ∃ m rep r, ((run ops).side (!s)).handled[m]? = some box ∧ (m, rep) ∈ ((run ops).side (!s)).answered ∧
      (n, r) ∈ ((run ops).side s).fired ∧ Carries n rep r := by
  have hq := Quiet.run ops ok nl
  have hi := WInv.run ops ok s
  rcases (hq s).sent n box h with h1 | h1 | h1
  · rw [flight] at h1; cases h1
  · obtain ⟨m, hm, hm'⟩ := List.mem_iff_getElem.1 h1
    have hget : ((run ops).side (!s)).handled[m]? = some box := by rw [List.getElem?_eq_getElem hm, hm']
    have hask := (hi.askedBox n box h).2.1
    rcases (hq (!s)).kept m box hget (by rw [Dict.has, hask]; rfl) with h2 | h2 | h2
    · rw [idle] at h2; cases h2
    · obtain ⟨⟨m', rep⟩, h3, e⟩ := List.mem_map.1 h2
      simp only at e; subst e
      obtain ⟨n', q, g1, g2, g3⟩ := answers_not_lost ops ok s m' rep h3
      rw [hget] at g1
      cases g1
      have : n' = n := by
        have := (hi.askedBox n' box g2).2.1
        rw [hask] at this
        simp only [Option.some.injEq] at this
        exact (hexStr_inj this).symm
      subst this
      rcases g3 with g3 | ⟨r, g3, g4⟩ | g3
      · rw [flight] at g3; cases g3
      · exact ⟨m', rep, r, hget, h3, g3, g4⟩
      · exact absurd g3 (up s)
    · exact absurd h2 (up (!s))
  · exact absurd h1 (up (!s))

theorem asked_from (ops : List Op) (ok : ∀ op ∈ ops, OpOk op) (s : Bool) (n : Nat) (box : Box)
    (h : (n, box) ∈ ((run ops).side s).asked) :
    ∃ c b, .send s c b true ∈ ops ∧ box = Dict.set (Dict.set b COMMAND c) ASK (hexStr n) := by
  have hask := ((WInv.run ops ok s).askedBox n box h).2.1
  have key : ∃ c b tag, .send s c b true ∈ ops ∧ box = Dict.set (Dict.set b COMMAND c) ASK tag := by
    clear hask ok
    induction ops using List.reverseRecOn with
    | nil => cases h
    | append_singleton ops op ih =>
      rw [run_snoc] at h
      rcases asked_grows (run ops) s op with e | ⟨c, b, rfl, n', tag, e, -⟩
      · rw [e] at h
        obtain ⟨c, b, tag, h1, h2⟩ := ih h
        exact ⟨c, b, tag, List.mem_append_left _ h1, h2⟩
      · rw [e] at h
        rcases List.mem_append.1 h with h | h
        · obtain ⟨c, b, tag, h1, h2⟩ := ih h
          exact ⟨c, b, tag, List.mem_append_left _ h1, h2⟩
        · simp only [List.mem_singleton, Prod.mk.injEq] at h
          exact ⟨c, b, tag, by simp, h.2⟩
  obtain ⟨c, b, tag, h1, h2⟩ := key
  refine ⟨c, b, h1, ?_⟩
  rw [h2, Dict.get?_set_same, Option.some.injEq] at hask
  rw [h2, hask]

end Verif.JuiceRpc

namespace Verif.JuiceBytes
open Verif.Py Verif.Juice Verif.JuiceRpc

variable (U : Uni)

/-- The end `s` after a history. -/
abbrev endOf (ops : List BOp) (s : Bool) : Side := ((runB U ops).conn s).app.1
/-- The bytes `s` has written that have not been received. -/
abbrev inFlight (ops : List BOp) (s : Bool) : Bytes := ((runB U ops).conn s).app.2

theorem carries_arr {n : Nat} {rep : Reply} {r : Result} (h : Carries n rep r)
    (hw : ∀ b, r = .answer b → (b.map Prod.fst).Nodup) : Carries n rep (arrResult r) := by
  cases rep with
  | answer b =>
    cases r with
    | answer b' =>
      have g := get?_arrived (hw b' rfl)
      exact ⟨by rw [g]; exact h.1, fun k hk => by rw [g]; exact h.2 k hk⟩
    | error _ _ => exact h
    | lost _ => exact h
  | error c d => cases r <;> exact h

variable {P : Local → Prop} (hP : ∀ op, P op → LocalOk op) (ops : List BOp) (ok : ∀ op ∈ ops, BOk P op)
include hP ok

theorem legal_asked {is : List Op} (h1 : ∀ i ∈ is, From P ops i) {s : Bool} {n : Nat} {box : Box}
    (h : (n, box) ∈ ((JuiceRpc.run is).side s).asked) :
    ∃ c b, P (.send c b true) ∧ box = Dict.set (Dict.set b COMMAND c) ASK (hexStr n) ∧ LegalBox box := by
  obtain ⟨c, b, h2, h3⟩ := asked_from is (fun i hi => (h1 i hi).ok hP) s n box h
  have hp : P (.send c b true) := by
    rcases h1 _ h2 with ⟨_, e⟩ | ⟨s', op, hp, e⟩ | ⟨_, _, e, -⟩
    · cases e
    · cases op with
      | send c' b' ra =>
        simp only [Local.at, Op.send.injEq] at e
        obtain ⟨-, rfl, rfl, rfl⟩ := e
        exact hp
      | respond m r => cases e
      | lock => cases e
    · cases e
  refine ⟨c, b, hp, h3, ?_⟩
  obtain ⟨-, -, -, hl, hc⟩ := hP _ hp
  rw [h3]
  exact legal_set (legal_set hl (key_legal (by decide) (by decide)) (by decide) (by decide) hc)
    (key_legal (by decide) (by decide)) (by decide) (by decide) (hexStr_scalar _)

theorem from_answered {is : List Op} (h1 : ∀ i ∈ is, From P ops i) {s : Bool} {m : Nat} {rep : Reply}
    (h : (m, rep) ∈ ((JuiceRpc.run is).side s).answered) : P (.respond m rep) := by
  rcases h1 _ (answered_produced is s m rep h) with ⟨_, e⟩ | ⟨s', op, hp, e⟩ | ⟨_, _, e, -⟩
  · cases e
  · cases op with
    | send c' b' ra => cases e
    | respond m' r' =>
      simp only [Local.at, Op.respond.injEq] at e
      obtain ⟨-, rfl, rfl⟩ := e
      exact hp
    | lock => cases e
  · cases e

/-- C94: the requests registered are those the application made. -/
theorem bytes_asked (s : Bool) (n : Nat) (box : Box) (h : (n, box) ∈ (endOf U ops s).asked) :
    ∃ c b, P (.send c b true) ∧ box = Dict.set (Dict.set b COMMAND c) ASK (hexStr n) := by
  obtain ⟨is, h1, h2⟩ := run_sim U hP ops ok
  unfold endOf at h
  rw [(h2.sim s).side] at h
  obtain ⟨c, b, h3, h4, -⟩ := legal_asked hP ops ok h1 h
  exact ⟨c, b, h3, h4⟩

/-- C94: the replies sent are those the handlers produced. -/
theorem bytes_answered (s : Bool) (m : Nat) (rep : Reply) (h : (m, rep) ∈ (endOf U ops s).answered) :
    P (.respond m rep) := by
  obtain ⟨is, h1, h2⟩ := run_sim U hP ops ok
  unfold endOf at h
  rw [(h2.sim s).side] at h
  exact from_answered hP ops ok h1 h

/-- C94: what a handler gets is, item for item, a box the other application sent. -/
theorem bytes_handled (s : Bool) (q' : Box) (h : q' ∈ (endOf U ops s).handled) :
    ∃ q c b, SameBox q q' ∧ ((P (.send c b false) ∧ q = Dict.set b COMMAND c) ∨
      (P (.send c b true) ∧ ∃ n, (n, q) ∈ (endOf U ops (!s)).asked ∧
        q = Dict.set (Dict.set b COMMAND c) ASK (hexStr n))) := by
  obtain ⟨is, h1, h2⟩ := run_sim U hP ops ok
  unfold endOf at h ⊢
  rw [(h2.sim s).side] at h
  rw [(h2.sim (!s)).side]
  obtain ⟨q, hq, rfl⟩ := List.mem_map.1 h
  have hsend : ∀ {c b ra}, .send (!s) c b ra ∈ is → P (.send c b ra) := by
    intro c b ra h
    rcases h1 _ h with ⟨_, e⟩ | ⟨s', op, hp, e⟩ | ⟨_, _, e, -⟩
    · cases e
    · cases op with
      | send c' b' ra' =>
        simp only [Local.at, Op.send.injEq] at e
        obtain ⟨-, rfl, rfl, rfl⟩ := e
        exact hp
      | respond m r => cases e
      | lock => cases e
    · cases e
  obtain ⟨c, b, ⟨h3, h4⟩ | ⟨h3, n, h4, h5⟩⟩ := handled_sent is s q hq
  · have hl := (hP _ (hsend h3)).2.2.2
    refine ⟨q, c, b, arrived_same q ?_, .inl ⟨hsend h3, h4⟩⟩
    rw [h4]
    exact (show Dict.WF b from hl.1.wf).set _ _
  · obtain ⟨-, -, -, -, hl⟩ := legal_asked hP ops ok h1 h4
    exact ⟨q, c, b, arrived_same q hl.wf, .inr ⟨hsend h3, n, h4, h5⟩⟩

theorem handled_wf {is : List Op} (h1 : ∀ i ∈ is, From P ops i) {s : Bool} {q : Box}
    (hq : q ∈ ((JuiceRpc.run is).side s).handled) : (q.map Prod.fst).Nodup := by
  obtain ⟨c, b, ⟨h3, h4⟩ | ⟨h3, n, h4, h5⟩⟩ := handled_sent is s q hq
  · rcases h1 _ h3 with ⟨_, e⟩ | ⟨s', op, hp, e⟩ | ⟨_, _, e, -⟩
    · cases e
    · cases op with
      | send c' b' ra' =>
        simp only [Local.at, Op.send.injEq] at e
        obtain ⟨-, rfl, rfl, rfl⟩ := e
        rw [h4]
        exact (show Dict.WF _ from (hP _ hp).2.2.2.1.wf).set _ _
      | respond m r => cases e
      | lock => cases e
    · cases e
  · exact (legal_asked hP ops ok h1 h4).choose_spec.choose_spec.2.2.wf

/-- C94: no request is handled twice, nor answered twice. -/
theorem bytes_handled_once (s : Bool) :
    ((endOf U ops s).handled.filterMap fun q => Dict.get? q ASK).Nodup ∧
    ((endOf U ops s).answered.map Prod.fst).Nodup := by
  obtain ⟨is, h1, h2⟩ := run_sim U hP ops ok
  have h3 := handled_once is (fun i hi => (h1 i hi).ok hP) s
  unfold endOf
  rw [(h2.sim s).side]
  refine ⟨?_, h3.2⟩
  have e : (arr ((JuiceRpc.run is).side s)).handled.filterMap (fun q => Dict.get? q ASK) =
      ((JuiceRpc.run is).side s).handled.filterMap (fun q => Dict.get? q ASK) := by
    show (((JuiceRpc.run is).side s).handled.map arrived).filterMap _ = _
    rw [List.filterMap_map]
    apply List.filterMap_congr
    intro q hq
    refine get?_arrived ?_ ASK
    exact handled_wf hP ops ok h1 hq
  rw [e]
  exact h3.1

/-- C94: however the bytes are cut, a Deferred that fires other than by connection loss fires with the reply that the
remote handler of that very request produced, and the handler got the very request that was made. -/
theorem bytes_answer_matches (s : Bool) (n : Nat) (r : Result) (h : (n, r) ∈ (endOf U ops s).fired) :
    (∃ x, r = .lost x) ∨
    ∃ m box box' rep, (n, box) ∈ (endOf U ops s).asked ∧ (endOf U ops (!s)).handled[m]? = some box' ∧ SameBox box box' ∧
      (m, rep) ∈ (endOf U ops (!s)).answered ∧ Carries n rep r := by
  obtain ⟨is, h1, h2⟩ := run_sim U hP ops ok
  have hok : ∀ i ∈ is, OpOk i := fun i hi => (h1 i hi).ok hP
  unfold endOf at h ⊢
  rw [(h2.sim s).side] at h ⊢
  rw [(h2.sim (!s)).side]
  obtain ⟨⟨n', r'⟩, h3, e⟩ := List.mem_map.1 h
  simp only [Prod.mk.injEq] at e
  obtain ⟨rfl, rfl⟩ := e
  rcases (WInv.run is hok s).firedFrom n' r' h3 with ⟨x, rfl⟩ | ⟨m, q, rep, g1, g2, g3, g4⟩
  · exact .inl ⟨x, rfl⟩
  · right
    obtain ⟨-, -, -, -, hl⟩ := legal_asked hP ops ok h1 g1
    refine ⟨m, q, arrived q, rep, g1, ?_, arrived_same q hl.wf, g3, ?_⟩
    · show (((JuiceRpc.run is).side (!s)).handled.map arrived)[m]? = some (arrived q)
      rw [List.getElem?_map, g2]; rfl
    · apply carries_arr
      · rw [g4]; exact carries_seen n' rep
      · intro b hb
        have hrep := hP _ (from_answered hP ops ok h1 g3)
        rw [g4] at hb
        cases rep with
        | answer b0 =>
          simp only [seen, Result.answer.injEq] at hb
          rw [← hb]
          exact (show Dict.WF b0 from hrep.2.wf).set _ _
        | error c d => cases hb

/-- C94: every Deferred fires at most once, and only requests' Deferreds fire. -/
theorem bytes_fired_once (s : Bool) :
    ((endOf U ops s).fired.map Prod.fst).Nodup ∧
    ∀ n ∈ (endOf U ops s).fired.map Prod.fst, n ∈ (endOf U ops s).asked.map Prod.fst := by
  obtain ⟨is, h1, h2⟩ := run_sim U hP ops ok
  have := fired_once is (fun i hi => (h1 i hi).ok hP) s
  unfold endOf
  rw [(h2.sim s).side]
  have e : (arr ((JuiceRpc.run is).side s)).fired.map Prod.fst = ((JuiceRpc.run is).side s).fired.map Prod.fst := by
    simp [arr, Function.comp_def]
  rw [e]
  exact this

/-- C94: a lost connection leaves no request waiting. -/
theorem bytes_lost_all_fired (s : Bool) (down : (endOf U ops s).outstanding = none) :
    ∀ n ∈ (endOf U ops s).asked.map Prod.fst, n ∈ (endOf U ops s).fired.map Prod.fst := by
  obtain ⟨is, h1, h2⟩ := run_sim U hP ops ok
  unfold endOf at down ⊢
  rw [(h2.sim s).side] at down ⊢
  have := lost_all_fired is (fun i hi => (h1 i hi).ok hP) s down
  have e : (arr ((JuiceRpc.run is).side s)).fired.map Prod.fst = ((JuiceRpc.run is).side s).fired.map Prod.fst := by
    simp [arr, Function.comp_def]
  rw [e]
  exact this

theorem noLock_from (nl : ¬ P .lock) {is : List Op} (h1 : ∀ i ∈ is, From P ops i) : ∀ i ∈ is, NoLock i := by
  intro i hi
  rcases h1 i hi with ⟨_, rfl⟩ | ⟨s', op, hp, rfl⟩ | ⟨_, _, rfl, -⟩
  · trivial
  · cases op with
    | send c b ra => trivial
    | respond m r => trivial
    | lock => exact absurd hp nl
  · trivial

/-- C94: nothing goes wrong: no exception escapes from `dataReceived`, so neither end closes the connection because of what
it received, and none comes out of sending a command or an answer — provided nobody locked the connection. -/
theorem bytes_intact (nl : ¬ P .lock) (s : Bool) : ((runB U ops).conn s).disconnecting = false ∧
    (endOf U ops s).raised = [] := by
  obtain ⟨is, h1, h2⟩ := run_sim U hP ops ok
  refine ⟨(h2.open_ s).1, ?_⟩
  unfold endOf
  rw [(h2.sim s).side]
  exact raised_quiet is (fun i hi => (h1 i hi).ok hP) (noLock_from hP ops ok nl h1) s

/-- C94: when every byte has been received and no handler is running, every request has been answered with what its
handler produced — provided nobody locked the connection or lost it. -/
theorem bytes_all_answered (nl : ¬ P .lock) (s : Bool) (up : ∀ b, (endOf U ops b).outstanding ≠ none)
    (flight : ∀ b, inFlight U ops b = []) (idle : ∀ b, (endOf U ops b).pending = []) (n : Nat) (box : Box)
    (h : (n, box) ∈ (endOf U ops s).asked) :
    ∃ m box' rep r, (endOf U ops (!s)).handled[m]? = some box' ∧ SameBox box box' ∧
      (m, rep) ∈ (endOf U ops (!s)).answered ∧ (n, r) ∈ (endOf U ops s).fired ∧ Carries n rep r := by
  obtain ⟨is, h1, h2⟩ := run_sim U hP ops ok
  have hs := fun b => (h2.sim b).side
  have hfl : ∀ b, (JuiceRpc.run is).chan b = [] := fun b => h2.drained U b (flight b)
  unfold endOf at up idle h ⊢
  simp only [hs] at up idle h ⊢
  have hnl := noLock_from hP ops ok nl h1
  have hok : ∀ i ∈ is, OpOk i := fun i hi => (h1 i hi).ok hP
  obtain ⟨m, rep, r, g1, g2, g3, g4⟩ := all_answered is hok hnl s (fun b => up b) hfl
    (fun b => List.map_eq_nil_iff.1 (idle b)) n box h
  obtain ⟨-, -, -, -, hl⟩ := legal_asked hP ops ok h1 h
  have hfire : (n, arrResult r) ∈ (arr ((JuiceRpc.run is).side s)).fired := List.mem_map.2 ⟨(n, r), g3, rfl⟩
  refine ⟨m, arrived box, rep, arrResult r, ?_, arrived_same box hl.wf, g2, hfire, ?_⟩
  · show (((JuiceRpc.run is).side (!s)).handled.map arrived)[m]? = some (arrived box)
    rw [List.getElem?_map, g1]; rfl
  · apply carries_arr g4
    intro b hb
    have hrep := hP _ (from_answered hP ops ok h1 g2)
    have hcar := g4
    rw [hb] at hcar
    rcases (WInv.run is hok s).firedFrom n r g3 with ⟨x, hx⟩ | ⟨m', q', rep', k1, k2, k3, k4⟩
    · rw [hx] at hb; cases hb
    · have hrep' := hP _ (from_answered hP ops ok h1 k3)
      rw [k4] at hb
      cases rep' with
      | answer b0 =>
        simp only [seen, Result.answer.injEq] at hb
        rw [← hb]
        exact (show Dict.WF b0 from hrep'.2.wf).set _ _
      | error c d => cases hb

omit hP ok
/-- The second peer answers at once, while it is handling the box that brought the request. -/
def promptly : Side → Box → List Local :=
  fun _ b => if Dict.has b COMMAND then [.respond 0 (.answer [([120], [121])])] else []

/-- A request, received in three pieces; the answer, received in two. -/
def talk : List BOp :=
  [.act true (.send [65] [([107], [118, 10, 119])] true), .bytes false 4 promptly, .bytes false 20 promptly,
    .bytes false 100 promptly, .bytes true 11 promptly, .bytes true 100 promptly]

theorem of_runF (n : Nat) {ops : List BOp} {Q : World → Prop} [DecidablePred Q]
    (h : (runF U n World.new ops).any (fun w => decide (Q w)) = true) : Q (runB U ops) := by
  cases hr : runF U n World.new ops with
  | none => rw [hr] at h; cases h
  | some w => rw [hr] at h; rw [runF_eq U hr]; exact of_decide_eq_true h

/-- The hypotheses of the theorems hold of `talk`, and its request is answered. -/
example : (∀ op ∈ talk, BOk (fun l => LocalOk l ∧ l ≠ .lock) op) ∧
    (endOf .ascii talk true).fired = [(1, .answer [([120], [121]), (ANSWER, [49])])] ∧
    (∀ b, inFlight .ascii talk b = []) ∧ (∀ b, (endOf .ascii talk b).pending = []) ∧
    (∀ b, (endOf .ascii talk b).outstanding ≠ none) := by
  have legal : ∀ (k v : Str), k.all (fun c => c < 128 && c != 58 && c != 13 && c != 32 && c != 45 && !(65 ≤ c && c ≤ 90))
      = true → k ∉ keywords → k ≠ LENGTH → k ≠ BODY → (∀ c ∈ v, IsScalar c) → LegalBox [(k, v)] :=
    fun k v h1 h2 h3 h4 h5 => legal_set (b := []) legal_nil (key_legal h1 h2) h3 h4 h5
  have hp : ∀ p b, ∀ op ∈ promptly p b, LocalOk op ∧ op ≠ .lock := by
    intro p b op h
    unfold promptly at h
    split at h
    · rw [List.mem_singleton] at h
      subst h
      exact ⟨⟨rfl, legal _ _ (by decide) (by decide) (by decide) (by decide) (by decide)⟩, by simp⟩
    · cases h
  refine ⟨?_, ?_⟩
  · intro op hop
    simp only [talk, List.mem_cons, List.not_mem_nil, or_false] at hop
    rcases hop with h | h | h | h | h | h <;> subst h
    · exact ⟨⟨rfl, rfl, rfl, legal _ _ (by decide) (by decide) (by decide) (by decide) (by decide), by decide⟩, by simp⟩
    all_goals exact hp
  · exact of_runF .ascii 50 (Q := fun w => (w.conn true).app.1.fired = [(1, .answer [([120], [121]), (ANSWER, [49])])] ∧
      (∀ b, (w.conn b).app.2 = []) ∧ (∀ b, (w.conn b).app.1.pending = []) ∧
      (∀ b, (w.conn b).app.1.outstanding ≠ none)) (by decide +kernel)

/-- C94, without the hypothesis: an error whose description has a lone surrogate cannot be put on the wire: the answer
raises, and the request is not answered although nothing is in flight and no handler is running.  (`_puke` then asks the
transport to drop the connection.) -/
theorem bytes_all_answered_fails : ∃ ops : List BOp,
    (∀ b, inFlight .ascii ops b = []) ∧ (∀ b, (endOf .ascii ops b).pending = []) ∧
    (∀ b, (endOf .ascii ops b).outstanding ≠ none) ∧ (endOf .ascii ops false).raised = [.unicodeError] ∧
    (endOf .ascii ops true).asked.length = 1 ∧ (endOf .ascii ops true).fired = [] :=
  ⟨[.act true (.send [65] [] true), .bytes false 100 fun _ _ => [.respond 0 (.error [65] [0xD800])]],
    of_runF .ascii 50 (Q := fun w => (∀ b, (w.conn b).app.2 = []) ∧ (∀ b, (w.conn b).app.1.pending = []) ∧
      (∀ b, (w.conn b).app.1.outstanding ≠ none) ∧ (w.conn false).app.1.raised = [.unicodeError] ∧
      (w.conn true).app.1.asked.length = 1 ∧ (w.conn true).app.1.fired = []) (by decide +kernel)⟩

end Verif.JuiceBytes
