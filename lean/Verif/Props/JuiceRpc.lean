import Verif.Lemmas.JuiceRpcRun
/-!
# Juice requests and answers: C25, C26, C27

All theorems are about arbitrary finite histories of two connected peers: either may send commands at any time,
boxes in flight are delivered in order at any later time, handlers finish in any order (or never), either side
may lock or lose the connection at any time.  The hypothesis `OpOk` excludes applications that put the
protocol's own keys into their boxes; `answers_confused_fails` shows what happens without it.
-/
namespace Verif.JuiceRpc
open Verif.Py Verif.Juice

/-- Specification: `r` is how the requester of `n` sees the reply `rep`: an answer box with the same contents plus
the answer tag, or an error with the same code and description. -/
def Carries (n : Nat) : Reply → Result → Prop
  | .answer b, .answer b' => Dict.get? b' ANSWER = some (hexStr n) ∧ ∀ k, k ≠ ANSWER → Dict.get? b' k = Dict.get? b k
  | .error c d, .error c' d' => c' = c ∧ d' = d
  | _, _ => False

theorem carries_seen (n : Nat) (rep : Reply) : Carries n rep (seen (hexStr n) rep) := by
  cases rep with
  | answer b => exact ⟨Dict.get?_set_same _ _ _, fun k hk => Dict.get?_set_other _ _ _ _ (fun e => hk e.symm)⟩
  | error c d => exact ⟨rfl, rfl⟩

/-- C25: a Deferred that fires other than by connection loss fires with the reply that the remote handler of that
very request produced. -/
theorem answer_matches (ops : List Op) (ok : ∀ op ∈ ops, OpOk op) (s : Bool) (n : Nat) (r : Result)
    (h : (n, r) ∈ ((run ops).side s).fired) :
    (∃ x, r = .lost x) ∨
    ∃ m box rep, (n, box) ∈ ((run ops).side s).asked ∧ Dict.get? box ASK = some (hexStr n) ∧
      ((run ops).side (!s)).handled[m]? = some box ∧ (m, rep) ∈ ((run ops).side (!s)).answered ∧ Carries n rep r := by
  have hi := WInv.run ops ok s
  rcases hi.firedFrom n r h with h1 | ⟨m, q, rep, h1, h2, h3, h4⟩
  · exact .inl h1
  · exact .inr ⟨m, q, rep, h1, (hi.askedBox n q h1).2.1, h2, h3, by rw [h4]; exact carries_seen n rep⟩

/-- C25: the replies logged are those handlers produced. -/
theorem answered_produced (ops : List Op) (s : Bool) (m : Nat) (rep : Reply)
    (h : (m, rep) ∈ ((run ops).side s).answered) : .respond s m rep ∈ ops := by
  have hside : ∀ a b : Bool, a = b ∨ a = !b := by intro a b; cases a <;> cases b <;> simp
  induction ops using List.reverseRecOn with
  | nil => cases h
  | append_singleton ops op ih =>
    rw [run_snoc] at h
    have key : (m, rep) ∈ ((run ops).side s).answered ∨ op = .respond s m rep := by
      cases op with
      | lock a => rcases hside a s with rfl | rfl <;> (left; simpa [step] using h)
      | lose a reason =>
        simp only [step, connectionLost] at h
        split at h
        · exact .inl h
        · rcases hside a s with rfl | rfl <;> (left; simpa using h)
      | send a c b ra =>
        simp only [step, sendBoxCommand, sendPacket] at h
        split at h
        · rcases hside a s with rfl | rfl <;> (left; simpa using h)
        · split at h <;> split at h <;> rcases hside a s with rfl | rfl <;> (left; simpa using h)
      | deliver a =>
        simp only [step, deliver] at h
        split at h
        · rcases hside a s with rfl | rfl
          · left
            simp only [setSide_side_same] at h
            unfold juiceBoxReceived answerReceived at h
            repeat' split at h
            all_goals exact h
          · left; simpa using h
        · exact .inl h
      | respond a m' r' =>
        simp only [step, respond] at h
        split at h
        · exact .inl h
        · split at h
          · rcases hside a s with rfl | rfl <;> (left; simpa using h)
          · split at h
            · rcases hside a s with rfl | rfl <;> (left; simpa using h)
            · split at h
              · rcases hside a s with rfl | rfl <;> (left; simpa using h)
              · rcases hside a s with rfl | rfl
                · simp only [setChan_side, setSide_side_same, List.mem_append, List.mem_singleton] at h
                  rcases h with h | h
                  · exact .inl h
                  · cases h; exact .inr rfl
                · left; simpa using h
    rcases key with key | key
    · exact List.mem_append_left _ (ih key)
    · simp [key]

/-- C25: nothing is handled twice, nor answered twice. -/
theorem handled_once (ops : List Op) (ok : ∀ op ∈ ops, OpOk op) (s : Bool) :
    (((run ops).side s).handled.filterMap fun q => Dict.get? q ASK).Nodup ∧
    (((run ops).side s).answered.map Prod.fst).Nodup := by
  have hi := WInv.run ops ok (!s)
  unfold WInv at hi
  rw [Bool.not_not] at hi
  exact ⟨(List.nodup_append.1 hi.handledTags).2.1, hi.answeredNodup⟩

/-- C25: no reply refers to an unknown tag and no box is unintelligible: the only exception that can occur is the
assertion that nothing may be sent on a locked connection. -/
theorem no_unknown_tag (ops : List Op) (ok : ∀ op ∈ ops, OpOk op) (s : Bool) :
    ∀ e ∈ ((run ops).side s).raised, e = .assertionError := raised_run ops ok s

/-- C25: no answer is lost: the reply of a handler is on its way, has fired the Deferred of the request it handled, or
the requester has lost the connection. -/
theorem answers_not_lost (ops : List Op) (ok : ∀ op ∈ ops, OpOk op) (s : Bool) (m : Nat) (rep : Reply)
    (h : (m, rep) ∈ ((run ops).side (!s)).answered) :
    ∃ n box, ((run ops).side (!s)).handled[m]? = some box ∧ (n, box) ∈ ((run ops).side s).asked ∧
      (replyBox (hexStr n) rep ∈ (run ops).chan (!s) ∨ (∃ r, (n, r) ∈ ((run ops).side s).fired ∧ Carries n rep r) ∨
        ((run ops).side s).outstanding = none) := by
  obtain ⟨n, q, h1, h2, h3⟩ := (WInv.run ops ok s).answeredOk m rep h
  refine ⟨n, q, h1, h2, ?_⟩
  rcases h3 with h3 | h3 | h3
  · exact .inl h3
  · exact .inr (.inl ⟨_, h3, carries_seen n rep⟩)
  · exact .inr (.inr h3)

/-- C26: every request's Deferred fires at most once, and only requests' Deferreds fire. -/
theorem fired_once (ops : List Op) (ok : ∀ op ∈ ops, OpOk op) (s : Bool) :
    (((run ops).side s).fired.map Prod.fst).Nodup ∧
    ∀ n ∈ ((run ops).side s).fired.map Prod.fst, n ∈ ((run ops).side s).asked.map Prod.fst :=
  ⟨(WInv.run ops ok s).firedNodup, (WInv.run ops ok s).firedAsked⟩

/-- C26: on a connection that is still up, losing it fails exactly the Deferreds that have not fired yet, once each,
with the reason. -/
theorem loss_fails_the_rest (ops : List Op) (ok : ∀ op ∈ ops, OpOk op) (s : Bool) (reason : Nat)
    (up : ((run ops).side s).outstanding ≠ none) :
    ∃ new, ((run (ops ++ [.lose s reason])).side s).fired = ((run ops).side s).fired ++ new ∧
      (∀ e ∈ new, e.2 = .lost reason) ∧
      (∀ n, n ∈ new.map Prod.fst ↔
        n ∈ ((run ops).side s).asked.map Prod.fst ∧ n ∉ ((run ops).side s).fired.map Prod.fst) ∧
      (new.map Prod.fst).Nodup ∧
      ((run (ops ++ [.lose s reason])).side s).outstanding = none := by
  have hi := WInv.run ops ok s
  have hi2 := WInv.run (ops ++ [.lose s reason])
    (fun o ho => by
      rcases List.mem_append.1 ho with ho | ho
      · exact ok o ho
      · rw [List.mem_singleton] at ho; subst ho; trivial) s
  unfold WInv at hi hi2
  rw [run_snoc] at hi2 ⊢
  cases hd : ((run ops).side s).outstanding with
  | none => exact absurd hd up
  | some d =>
    simp only [step, connectionLost, hd, setSide_side_same] at hi2 ⊢
    refine ⟨d.map fun e => (e.2, .lost reason), rfl, ?_, ?_, ?_, trivial⟩
    · intro e he
      obtain ⟨x, _, rfl⟩ := List.mem_map.1 he
      rfl
    · intro n
      have hm : n ∈ (d.map fun e : Str × Nat => (e.2, Result.lost reason)).map Prod.fst ↔ ∃ t, (t, n) ∈ d := by
        simp [List.mem_map]
      rw [hm]
      constructor
      · rintro ⟨t, ht⟩
        have := (hi.outWF d hd).2 t n ht
        exact this.2
      · rintro ⟨h1, h2⟩
        rcases hi.allOut n h1 with h3 | ⟨d', hd', h3⟩
        · exact absurd h3 h2
        · rw [hd] at hd'; cases hd'; exact ⟨_, h3⟩
    · have := hi2.firedNodup
      rw [List.map_append, List.nodup_append] at this
      exact this.2.1

/-- C26: once the connection is lost every request has fired, ... -/
theorem lost_all_fired (ops : List Op) (ok : ∀ op ∈ ops, OpOk op) (s : Bool)
    (down : ((run ops).side s).outstanding = none) (n : Nat) (h : n ∈ ((run ops).side s).asked.map Prod.fst) :
    n ∈ ((run ops).side s).fired.map Prod.fst := by
  rcases (WInv.run ops ok s).allOut n h with h1 | ⟨d, hd, -⟩
  · exact h1
  · rw [down] at hd; cases hd

/-- C26: ... and stays lost: whatever happens, nothing more fires, no request is registered and nothing is written. -/
theorem lost_forever (w : World) (s : Bool) (down : (w.side s).outstanding = none) (op : Op) :
    ((step w op).side s).outstanding = none ∧ ((step w op).side s).fired = (w.side s).fired ∧
    ((step w op).side s).asked = (w.side s).asked ∧ ∃ k, (step w op).chan s = (w.chan s).drop k := by
  have hside : ∀ a b : Bool, a = b ∨ a = !b := by intro a b; cases a <;> cases b <;> simp
  have h0 : ∃ k, w.chan s = (w.chan s).drop k := ⟨0, by simp⟩
  cases op with
  | lock a => rcases hside a s with rfl | rfl <;> simp [step, down] <;> exact h0
  | lose a reason =>
    simp only [step, connectionLost]
    split
    · exact ⟨down, rfl, rfl, h0⟩
    · rcases hside a s with rfl | rfl
      · simp_all
      · simp [down]; exact h0
  | send a c b ra =>
    simp only [step, sendBoxCommand, sendPacket]
    split
    · rcases hside a s with rfl | rfl <;> simp [down] <;> exact h0
    · rcases hside a s with rfl | rfl
      · simp_all
      · split <;> split <;> simp [down] <;> exact h0
  | deliver a =>
    simp only [step, deliver]
    split
    · rename_i d b rest hd hch
      rcases hside a s with rfl | rfl
      · rw [hd] at down; cases down
      · rw [Bool.not_not] at hch
        refine ⟨by simpa using down, by simp, by simp, 1, ?_⟩
        simp [hch]
    · exact ⟨down, rfl, rfl, h0⟩
  | respond a m r =>
    simp only [step, respond]
    split
    · exact ⟨down, rfl, rfl, h0⟩
    · rcases hside a s with rfl | rfl
      · split
        · simp [down]; exact h0
        · split
          · simp [down]; exact h0
          · simp_all
      · split
        · simp [down]; exact h0
        · split
          · simp [down]; exact h0
          · split <;> simp [down] <;> exact h0

/-- C26: a later request fails immediately and nothing is written. -/
theorem lost_refuses (w : World) (s : Bool) (down : (w.side s).outstanding = none) (c : Str) (b : Box) (ra : Bool) :
    ((step w (.send s c b ra)).side s).refused = (w.side s).refused + 1 ∧
    (step w (.send s c b ra)).chan s = w.chan s := by
  simp [step, sendBoxCommand, down]

/-- C27: no two requests ever carry the same tag: every request carries one, and they all differ. -/
theorem tags_never_repeat (ops : List Op) (ok : ∀ op ∈ ops, OpOk op) (s : Bool) :
    (∀ p ∈ ((run ops).side s).asked, (Dict.get? p.2 ASK).isSome) ∧
    (((run ops).side s).asked.map fun p => Dict.get? p.2 ASK).Nodup := by
  have hi := WInv.run ops ok s
  refine ⟨fun p hp => by rw [(hi.askedBox p.1 p.2 hp).2.1]; rfl, ?_⟩
  apply List.Nodup.map_on ?_ (List.Nodup.of_map _ hi.askedNodup)
  rintro ⟨n, b⟩ h1 ⟨n', b'⟩ h2 e
  have e1 := (hi.askedBox n b h1).2.1
  have e2 := (hi.askedBox n' b' h2).2.1
  simp only at e
  rw [e1, e2, Option.some.injEq] at e
  have e3 := hexStr_inj e
  subst e3
  have w1 := Dict.get?_of_mem (show Dict.WF _ from hi.askedNodup) h1
  have w2 := Dict.get?_of_mem (show Dict.WF _ from hi.askedNodup) h2
  rw [w1, Option.some.injEq] at w2
  rw [w2]

/-- C27: the requests compared are all there ever were: a request sent is registered with its box, and registered
requests are never forgotten. -/
theorem asked_grows (w : World) (s : Bool) (op : Op) :
    ((step w op).side s).asked = (w.side s).asked ∨
    ∃ c b, op = .send s c b true ∧ ∃ n tag, ((step w op).side s).asked =
      (w.side s).asked ++ [(n, Dict.set (Dict.set b COMMAND c) ASK tag)] ∧
      ((step w op).chan s = w.chan s ∨
       (step w op).chan s = w.chan s ++ [Dict.set (Dict.set b COMMAND c) ASK tag]) := by
  have hside : ∀ a b : Bool, a = b ∨ a = !b := by intro a b; cases a <;> cases b <;> simp
  cases op with
  | lock a => rcases hside a s with rfl | rfl <;> simp [step]
  | lose a reason =>
    simp only [step, connectionLost]
    split
    · exact .inl rfl
    · rcases hside a s with rfl | rfl <;> simp
  | send a c b ra =>
    simp only [step, sendBoxCommand, sendPacket]
    split
    · rcases hside a s with rfl | rfl <;> simp
    · rcases hside a s with rfl | rfl
      · split
        · rename_i hra
          subst hra
          right
          refine ⟨c, b, rfl, (w.side a).counter + 1, hexStr (((w.side a).counter) + 1), ?_⟩
          split
          · refine ⟨?_, ?_⟩
            · simp
            · left; simp
          · refine ⟨?_, ?_⟩
            · simp
            · right; simp
        · split <;> simp
      · split <;> split <;> simp
  | deliver a =>
    simp only [step, deliver]
    split
    · rcases hside a s with rfl | rfl
      · left
        simp only [setSide_side_same]
        unfold juiceBoxReceived answerReceived
        repeat' split
        all_goals rfl
      · simp
    · exact .inl rfl
  | respond a m r =>
    left
    simp only [step, respond]
    split
    · rfl
    · split
      · rcases hside a s with rfl | rfl <;> simp
      · split
        · rcases hside a s with rfl | rfl <;> simp
        · split <;> rcases hside a s with rfl | rfl <;> simp

/-- An answer or error to a request that is not waiting: `KeyError`, and no Deferred fires. -/
theorem unknown_tag (p : Side) (d : Dict Str Nat) (box : Box) (tag : Str) (hc : Dict.has box COMMAND = false)
    (h : Dict.get? box ANSWER = some tag ∨ (Dict.get? box ANSWER = none ∧ Dict.get? box ERROR = some tag))
    (hd : Dict.get? d tag = none) :
    juiceBoxReceived p d box = { p with raised := p.raised ++ [.keyError] } := by
  rcases h with h | ⟨h1, h2⟩
  · simp [juiceBoxReceived, hc, h, answerReceived, hd]
  · simp [juiceBoxReceived, hc, h1, h2, answerReceived, hd]

theorem locked_step (w : World) (s : Bool) (h : (w.side s).locked = true) (op : Op) :
    ((step w op).side s).locked = true ∧ (step w op).chan s <:+ w.chan s ∧
      ((step w op).side s).answered = (w.side s).answered := by
  have hside : ∀ (a : Bool), s = a ∨ s = !a := by intro a; cases a <;> cases s <;> simp
  cases op with
  | send a c b r =>
    rcases hside a with rfl | rfl <;> simp only [step, sendBoxCommand, sendPacket] <;> (repeat' split) <;>
      simp_all [World.setSide, World.setChan]
  | deliver a =>
    simp only [step, deliver]
    split
    · rename_i d b rest h1 h2
      have hj : ∀ (p : Side), (juiceBoxReceived p d b).locked = p.locked ∧ (juiceBoxReceived p d b).answered = p.answered := by
        intro p
        unfold juiceBoxReceived answerReceived
        (repeat' split) <;> simp
      rcases hside a with rfl | rfl
      · simp [World.setSide, World.setChan, hj, h]
      · simp [World.setSide, World.setChan, hj, h, h2]
    · exact ⟨h, List.suffix_rfl, rfl⟩
  | respond a m r =>
    rcases hside a with rfl | rfl <;> simp only [step, respond] <;> (repeat' split) <;>
      simp_all [World.setSide, World.setChan]
  | lose a r =>
    rcases hside a with rfl | rfl <;> simp only [step, connectionLost] <;> (repeat' split) <;>
      simp_all [World.setSide, World.setChan]
  | lock a =>
    rcases hside a with rfl | rfl <;> simp [step, World.setSide, h]

/-- After `_lock` a peer writes nothing more, whatever happens: neither commands nor answers. -/
theorem locked_silent (ops ops' : List Op) (s : Bool) :
    (run (ops ++ .lock s :: ops')).chan s <:+ (run ops).chan s ∧
    ((run (ops ++ .lock s :: ops')).side s).answered = ((run ops).side s).answered := by
  have key : ∀ (ops' : List Op) (w : World), (w.side s).locked = true →
      (ops'.foldl step w).chan s <:+ w.chan s ∧ ((ops'.foldl step w).side s).answered = (w.side s).answered := by
    intro ops'
    induction ops' with
    | nil => intro w _; exact ⟨List.suffix_rfl, rfl⟩
    | cons op ops' ih =>
      intro w h
      obtain ⟨h1, h2, h3⟩ := locked_step w s h op
      obtain ⟨h4, h5⟩ := ih _ h1
      exact ⟨h4.trans h2, h5.trans h3⟩
  unfold run
  rw [List.foldl_append, List.foldl_cons]
  generalize ops.foldl step World.new = w
  obtain ⟨h1, h2⟩ := key ops' (step w (.lock s)) (by simp [step, World.setSide])
  refine ⟨h1.trans ?_, h2.trans ?_⟩
  · simp [step, World.setSide]
  · simp [step, World.setSide]

/-! ### Concrete cases -/

/-- Two requests from `true`, answered in the opposite order, one of them with an error; `false` asks one too. -/
def demo : List Op :=
  [.send true [1] [([2], [3])] true, .send true [4] [] true, .send false [5] [] true,
   .deliver false, .deliver false, .deliver true,
   .respond false 1 (.answer [([7], [8])]), .respond false 0 (.error [9] [10]), .respond true 0 (.answer []),
   .deliver true, .deliver true, .deliver false]

example : (∀ op ∈ demo, OpOk op) ∧
    ((run demo).side true).fired =
      [(2, .answer [([7], [8]), (ANSWER, [50])]), (1, .error [9] [10])] ∧
    ((run demo).side false).fired = [(1, .answer [(ANSWER, [49])])] := by
  refine ⟨?_, by decide, by decide⟩
  intro op hop
  simp only [demo, List.mem_cons, List.not_mem_nil, or_false] at hop
  rcases hop with h | h | h | h | h | h | h | h | h | h | h | h <;> subst h <;> first | trivial | decide | exact ⟨rfl, rfl, rfl⟩ | rfl

/-- One request is answered, one is outstanding when the connection is lost, one is refused afterwards. -/
example : ((run (demo ++ [.send true [6] [] true, .lose true 77, .send true [6] [] true])).side true).fired =
    [(2, .answer [([7], [8]), (ANSWER, [50])]), (1, .error [9] [10]), (3, .lost 77)] ∧
    ((run (demo ++ [.send true [6] [] true, .lose true 77, .send true [6] [] true])).side true).refused = 1 := by
  decide

/-- C25, without the hypothesis: an application box that already contains the key `_answer` is taken for an answer and
fires the wrong Deferred. -/
theorem answers_confused_fails : ∃ ops : List Op, ∃ s n r, (n, r) ∈ ((run ops).side s).fired ∧
    (∀ x, r ≠ .lost x) ∧ ((run ops).side (!s)).answered = [] := by
  refine ⟨[.send true [1] [] true, .send false [2] [(ANSWER, [49])] false, .deliver true], true, 1,
    .answer [(ANSWER, [49]), (COMMAND, [2])], by decide, by simp, by decide⟩

end Verif.JuiceRpc
