import Verif.Props.JuiceBytes
/-!
# Commands are handled in the order they were sent: C95
-/
namespace Verif.JuiceRpc
open Verif.Py Verif.Juice

/-- Specification: the calls of `sendBoxCommand` by `s`, in order. -/
def sends (s : Bool) (ops : List Op) : List (Str × Box × Bool) :=
  ops.filterMap fun
    | .send a c b ra => if a = s then some (c, b, ra) else none
    | _ => none

/-- Specification: the box `q` is what the call sends: the caller's box, the name of the command, and a tag if an answer is
wanted. -/
def IsCall (x : Str × Box × Bool) (q : Box) : Prop :=
  if x.2.2 then ∃ n, q = Dict.set (Dict.set x.2.1 COMMAND x.1) ASK (hexStr n) else q = Dict.set x.2.1 COMMAND x.1

/-- Neither an answer nor an error. -/
def isCmd (q : Box) : Bool := !Dict.has q ANSWER && !Dict.has q ERROR

theorem has_set (b : Box) (k k' : Str) (v : Str) (h : k' ≠ k) : Dict.has (Dict.set b k' v) k = Dict.has b k := by
  unfold Dict.has; rw [Dict.get?_set_other _ _ _ _ h]

theorem IsCall.isCmd {x : Str × Box × Bool} {q : Box} (h : IsCall x q) (h1 : Dict.has x.2.1 ANSWER = false)
    (h2 : Dict.has x.2.1 ERROR = false) : isCmd q = true ∧ Dict.has q COMMAND = true := by
  have c1 : COMMAND ≠ ANSWER := by decide
  have c2 : COMMAND ≠ ERROR := by decide
  have c3 : ASK ≠ ANSWER := by decide
  have c4 : ASK ≠ ERROR := by decide
  have c5 : ASK ≠ COMMAND := by decide
  unfold IsCall at h
  split at h
  · obtain ⟨n, rfl⟩ := h
    unfold JuiceRpc.isCmd
    rw [has_set _ _ _ _ c3, has_set _ _ _ _ c1, has_set _ _ _ _ c4, has_set _ _ _ _ c2, has_set _ _ _ _ c5, h1, h2]
    exact ⟨rfl, by simp [Dict.has, Dict.get?_set_same]⟩
  · subst h
    unfold JuiceRpc.isCmd
    rw [has_set _ _ _ _ c1, has_set _ _ _ _ c2, h1, h2]
    exact ⟨rfl, by simp [Dict.has, Dict.get?_set_same]⟩

theorem forall₂_drop_mid {α β : Type} {R : α → β → Prop} {l : List α} {a c : List β} {b : β}
    (h : List.Forall₂ R l (a ++ b :: c)) : ∃ l', l'.Sublist l ∧ List.Forall₂ R l' (a ++ c) := by
  induction a generalizing l with
  | nil =>
    cases h with
    | cons h1 h2 => exact ⟨_, List.sublist_cons_self _ _, h2⟩
  | cons x a ih =>
    cases h with
    | cons h1 h2 =>
      obtain ⟨l', h3, h4⟩ := ih h2
      exact ⟨_, h3.cons_cons _, .cons h1 h4⟩

/-- What is in flight after the handled ones. -/
def lineUp (w : World) (s : Bool) : List Box := (w.side (!s)).handled ++ (w.chan s).filter isCmd

theorem lineUp_step (w : World) (op : Op) (ok : OpOk op) (s : Bool)
    (hc : ∀ q ∈ w.chan s, isCmd q = true → Dict.has q COMMAND = true) :
    ((∀ c b ra, op = .send s c b ra → (w.side s).outstanding = none ∨ (w.side s).locked = true) ∧
      lineUp (step w op) s = lineUp w s) ∨
    (∃ c b ra q, op = .send s c b ra ∧ IsCall (c, b, ra) q ∧ lineUp (step w op) s = lineUp w s ++ [q] ∧
      ((step w op).side s).asked = (w.side s).asked ++ if ra then [((w.side s).counter + 1, q)] else []) ∨
    ((w.side (!s)).locked = true ∧ (∀ c b ra, op ≠ .send s c b ra) ∧
      ∃ a q c, lineUp w s = a ++ q :: c ∧ lineUp (step w op) s = a ++ c) := by
  cases op with
  | send a c b ra =>
    by_cases has : a = s
    · subst has
      cases ho : (w.side a).outstanding with
      | none =>
        left
        refine ⟨fun _ _ _ _ => .inl rfl, ?_⟩
        simp [lineUp, step, sendBoxCommand, ho, World.setSide]
      | some d =>
        cases hl : (w.side a).locked with
        | true =>
          left
          refine ⟨fun _ _ _ _ => .inr rfl, ?_⟩
          cases ra <;> simp [lineUp, step, sendBoxCommand, ho, World.setSide, sendPacket, hl]
        | false =>
          right; left
          cases ra
          · have hq : IsCall (c, b, false) (Dict.set b COMMAND c) := by simp [IsCall]
            refine ⟨c, b, false, _, rfl, hq, ?_⟩
            have := (hq.isCmd ok.2.1 ok.2.2).1
            constructor <;>
              simp [lineUp, step, sendBoxCommand, ho, World.setSide, sendPacket, hl, World.setChan, this]
          · have hq : IsCall (c, b, true) (Dict.set (Dict.set b COMMAND c) ASK (hexStr ((w.side a).counter + 1))) := by
              simp only [IsCall, if_true]; exact ⟨_, rfl⟩
            refine ⟨c, b, true, _, rfl, hq, ?_⟩
            have := (hq.isCmd ok.2.1 ok.2.2).1
            constructor <;>
              simp [lineUp, step, sendBoxCommand, ho, World.setSide, sendPacket, hl, World.setChan, this]
    · left
      refine ⟨fun _ _ _ e => by (cases e; exact absurd rfl has), ?_⟩
      have h1 : s ≠ a := fun e => has e.symm
      simp only [lineUp, step, sendBoxCommand]
      split
      · simp [World.setSide]
        split <;> simp_all
      · cases ra <;> simp only [Bool.false_eq_true, if_false, if_true, sendPacket] <;> split <;>
          simp [World.setSide, World.setChan, h1] <;> split <;> simp_all
  | deliver a =>
    have hne : ∀ c b ra, Op.deliver a ≠ .send s c b ra := fun _ _ _ => by simp
    by_cases has : a = s
    · left
      refine ⟨fun c b ra e => absurd e (hne c b ra), ?_⟩
      subst has
      simp only [lineUp, step, deliver]
      split <;> simp [World.setSide, World.setChan]
    · have has : a = !s := by cases a <;> cases s <;> simp_all
      subst has
      cases ho : (w.side (!s)).outstanding with
      | none => exact .inl ⟨fun c b ra e => absurd e (hne c b ra), by simp [lineUp, step, deliver, ho]⟩
      | some d =>
        cases hch : w.chan s with
        | nil => exact .inl ⟨fun c b ra e => absurd e (hne c b ra), by simp [lineUp, step, deliver, ho, hch]⟩
        | cons b rest =>
          have e : lineUp (step w (.deliver (!s))) s = (juiceBoxReceived (w.side (!s)) d b).handled ++ rest.filter isCmd := by
            simp [lineUp, step, deliver, ho, hch, World.setSide, World.setChan]
          have e0 : lineUp w s = (w.side (!s)).handled ++ (b :: rest).filter isCmd := by simp [lineUp, hch]
          cases hb : isCmd b with
          | false =>
            left
            refine ⟨fun c b ra e => absurd e (hne c b ra), ?_⟩
            rw [e, e0, List.filter_cons, hb, if_neg (by simp)]
            congr 1
            unfold juiceBoxReceived answerReceived
            split
            · rfl
            · split
              · repeat' split
                all_goals rfl
              · rename_i hn
                split
                · repeat' split
                  all_goals rfl
                · rename_i hn'
                  simp [isCmd, Dict.has, hn, hn'] at hb
          | true =>
            have hcmd := hc b (by rw [hch]; simp) hb
            have hk : Dict.get? b ANSWER = none ∧ Dict.get? b ERROR = none := by
              simpa [isCmd, Dict.has] using hb
            cases hl : ((w.side (!s)).locked && Dict.has b COMMAND && Dict.has b ASK) with
            | true =>
              right; right
              simp only [Bool.and_eq_true] at hl
              refine ⟨hl.1.1, hne, (w.side (!s)).handled, b, rest.filter isCmd, ?_, ?_⟩
              · rw [e0, List.filter_cons, hb, if_pos rfl]
              · rw [e]; simp [juiceBoxReceived, hl.1.1, hl.1.2, hl.2]
            | false =>
              left
              refine ⟨fun c b ra e => absurd e (hne c b ra), ?_⟩
              rw [e, e0, List.filter_cons, hb, if_pos rfl]
              unfold juiceBoxReceived
              rw [hl]
              simp [hk.1, hk.2, hcmd]
  | respond a m r =>
    left
    refine ⟨fun _ _ _ e => by (cases e), ?_⟩
    simp only [lineUp, step, respond]
    split
    · rfl
    · split
      · by_cases h : (!s) = a
        · subst h; simp [World.setSide]
        · simp [World.setSide, h]
      · split
        · by_cases h : (!s) = a
          · subst h; simp [World.setSide]
          · simp [World.setSide, h]
        · split
          · by_cases h : (!s) = a
            · subst h; simp [World.setSide]
            · simp [World.setSide, h]
          · have hr : ∀ tag, isCmd (replyBox tag r) = false := by
              intro tag
              cases r with
              | answer b => simp [isCmd, replyBox, Dict.has, Dict.get?_set_same]
              | error c d => simp [isCmd, replyBox, Dict.has, Dict.get?]
            by_cases h : (!s) = a
            · subst h; simp [World.setSide, World.setChan]
            · have h : a = s := by cases a <;> cases s <;> simp_all
              subst h
              simp [World.setSide, World.setChan, hr]
  | lose a r =>
    left
    refine ⟨fun _ _ _ e => by (cases e), ?_⟩
    simp only [lineUp, step, connectionLost]
    split
    · rfl
    · by_cases h : (!s) = a
      · subst h; simp [World.setSide]
      · simp [World.setSide, h]
  | lock a =>
    left
    refine ⟨fun _ _ _ e => by (cases e), ?_⟩
    simp only [lineUp, step]
    by_cases h : (!s) = a
    · subst h; simp [World.setSide]
    · simp [World.setSide, h]

theorem sends_snoc (s : Bool) (ops : List Op) (op : Op) :
    sends s (ops ++ [op]) = sends s ops ++ sends s [op] := by simp [sends]

theorem isCmd_command {ops : List Op} (ok : ∀ op ∈ ops, OpOk op) {s : Bool} {q : Box} (hq : q ∈ (run ops).chan s)
    (h : isCmd q = true) : Dict.has q COMMAND = true := by
  simp only [isCmd, Bool.and_eq_true, Bool.not_eq_true'] at h
  rcases (sent_key ops).1 s q hq with h1 | h1 | ⟨c, b, ⟨-, rfl⟩ | ⟨-, n, -, rfl⟩⟩
  · rw [h.1] at h1; cases h1
  · rw [h.2] at h1; cases h1
  · simp [Dict.has, Dict.get?_set_same]
  · rw [has_set _ _ _ _ (by decide)]; simp [Dict.has, Dict.get?_set_same]

/-- The order of calls is kept, and if nobody locked or lost the connection none is missing. -/
theorem lineUp_calls (ops : List Op) (ok : ∀ op ∈ ops, OpOk op) (s : Bool) :
    ∃ l, l.Sublist (sends s ops) ∧ List.Forall₂ IsCall l (lineUp (run ops) s) ∧
      ((∀ op ∈ ops, NoLock op) → ((run ops).side s).outstanding ≠ none → l = sends s ops) := by
  induction ops using List.reverseRecOn with
  | nil => exact ⟨[], .slnil, by simp [lineUp, run, World.new, Side.new], fun _ _ => rfl⟩
  | append_singleton ops op ih =>
    have ok' : ∀ op ∈ ops, OpOk op := fun o ho => ok o (List.mem_append_left _ ho)
    obtain ⟨l, h1, h2, h3⟩ := ih ok'
    rw [run_snoc, sends_snoc]
    have hup : ((step (run ops) op).side s).outstanding ≠ none → ((run ops).side s).outstanding ≠ none :=
      fun h h' => h (lost_forever _ s h' op).1
    rcases lineUp_step (run ops) op (ok op (by simp)) s (fun q hq => isCmd_command ok' hq) with
      ⟨h4, h5⟩ | ⟨c, b, ra, q, rfl, h4, h5, -⟩ | ⟨h4, hne, a, q, c, h5, h6⟩
    · refine ⟨l, h1.trans (List.sublist_append_left _ _), h5 ▸ h2, fun nl up => ?_⟩
      have nl' : ∀ op ∈ ops, NoLock op := fun o ho => nl o (List.mem_append_left _ ho)
      have hs : sends s [op] = [] := by
        cases op with
        | send a c b ra =>
          by_cases has : a = s
          · subst has
            rcases h4 c b ra rfl with h | h
            · exact absurd h (hup up)
            · rw [(Quiet.run ops ok' nl' a).unlocked] at h; cases h
          · simp [sends, has]
        | deliver => rfl
        | respond => rfl
        | lose => rfl
        | lock => rfl
      rw [hs, List.append_nil]
      exact h3 nl' (hup up)
    · have hs : sends s [.send s c b ra] = [(c, b, ra)] := by simp [sends]
      rw [hs]
      refine ⟨l ++ [(c, b, ra)], h1.append (List.Sublist.refl _), ?_, fun nl up => ?_⟩
      · rw [h5]; exact List.rel_append h2 (.cons h4 .nil)
      · rw [h3 (fun o ho => nl o (List.mem_append_left _ ho)) (hup up)]
    · rw [h5] at h2
      obtain ⟨l', h7, h8⟩ := forall₂_drop_mid h2
      refine ⟨l', (h7.trans h1).trans (List.sublist_append_left _ _), h6 ▸ h8, fun nl up => ?_⟩
      rw [(Quiet.run ops ok' (fun o ho => nl o (List.mem_append_left _ ho)) (!s)).unlocked] at h4
      cases h4

/-- Requests are handled in the order they were made; if nobody locked or lost the connection none is missing. -/
theorem lineUp_asked (ops : List Op) (ok : ∀ op ∈ ops, OpOk op) (s : Bool) :
    ((lineUp (run ops) s).filter (Dict.has · ASK)).Sublist (((run ops).side s).asked.map Prod.snd) ∧
      ((∀ op ∈ ops, NoLock op) → ((run ops).side s).outstanding ≠ none →
        (lineUp (run ops) s).filter (Dict.has · ASK) = ((run ops).side s).asked.map Prod.snd) := by
  induction ops using List.reverseRecOn with
  | nil => exact ⟨.slnil, fun _ _ => rfl⟩
  | append_singleton ops op ih =>
    have ok' : ∀ op ∈ ops, OpOk op := fun o ho => ok o (List.mem_append_left _ ho)
    obtain ⟨h1, h2⟩ := ih ok'
    rw [run_snoc]
    have hup : ((step (run ops) op).side s).outstanding ≠ none → ((run ops).side s).outstanding ≠ none :=
      fun h h' => h (lost_forever _ s h' op).1
    have hsub : (((run ops).side s).asked.map Prod.snd).Sublist (((step (run ops) op).side s).asked.map Prod.snd) := by
      rcases asked_grows (run ops) s op with e | ⟨c, b, -, n', tag, e, -⟩
      · rw [e]
      · rw [e, List.map_append]; exact List.sublist_append_left _ _
    rcases lineUp_step (run ops) op (ok op (by simp)) s (fun q hq => isCmd_command ok' hq) with
      ⟨h4, h5⟩ | ⟨c, b, ra, q, rfl, h4, h5, h6⟩ | ⟨h4, hne, a, q, c, h5, h6⟩
    · rw [h5]
      refine ⟨h1.trans hsub, fun nl up => ?_⟩
      have nl' : ∀ op ∈ ops, NoLock op := fun o ho => nl o (List.mem_append_left _ ho)
      rw [h2 nl' (hup up)]
      rcases asked_grows (run ops) s op with e | ⟨c, b, rfl, n', tag, e, -⟩
      · rw [e]
      · rcases h4 c b true rfl with h | h
        · exact absurd h (hup up)
        · rw [(Quiet.run ops ok' nl' s).unlocked] at h; cases h
    · rw [h5, h6, List.filter_append, List.map_append]
      have e : [q].filter (Dict.has · ASK) = (if ra then [((((run ops).side s).counter + 1), q)] else []).map Prod.snd := by
        unfold IsCall at h4
        have hb := (ok (.send s c b ra) (by simp)).1
        cases ra
        · simp only [Bool.false_eq_true, if_false] at h4 ⊢
          subst h4
          rw [List.filter_cons, has_set _ _ _ _ (by decide), hb]
          rfl
        · simp only [if_true] at h4 ⊢
          obtain ⟨n, rfl⟩ := h4
          rw [List.filter_cons, if_pos (by simp [Dict.has, Dict.get?_set_same])]
          rfl
      rw [e]
      exact ⟨h1.append (List.Sublist.refl _), fun nl up => by
        rw [h2 (fun o ho => nl o (List.mem_append_left _ ho)) (hup up)]⟩
    · refine ⟨?_, fun nl up => ?_⟩
      · rw [h6]
        refine List.Sublist.trans ?_ (h1.trans hsub)
        rw [h5]
        exact (List.Sublist.append_left (List.sublist_cons_self _ _) _).filter _
      · rw [(Quiet.run ops ok' (fun o ho => nl o (List.mem_append_left _ ho)) (!s)).unlocked] at h4
        cases h4

/-- C95: what the handlers of `s` get is, in order, what calls of its peer sent; no call is handled twice. -/
theorem commands_in_order (ops : List Op) (ok : ∀ op ∈ ops, OpOk op) (s : Bool) :
    ∃ l, l.Sublist (sends (!s) ops) ∧ List.Forall₂ IsCall l ((run ops).side s).handled := by
  obtain ⟨l, h1, h2, -⟩ := lineUp_calls ops ok (!s)
  unfold lineUp at h2
  rw [Bool.not_not] at h2
  exact ⟨_, (List.take_sublist _ _).trans h1, List.forall₂_take_append l _ _ h2⟩

/-- C95: as long as nobody locks the connection and the peer has not lost it, the calls handled are the first calls made;
and all of them when nothing is in flight. -/
theorem commands_complete (ops : List Op) (ok : ∀ op ∈ ops, OpOk op) (nl : ∀ op ∈ ops, NoLock op) (s : Bool)
    (up : ((run ops).side (!s)).outstanding ≠ none) :
    List.Forall₂ IsCall ((sends (!s) ops).take ((run ops).side s).handled.length) ((run ops).side s).handled ∧
    ((run ops).chan (!s) = [] → List.Forall₂ IsCall (sends (!s) ops) ((run ops).side s).handled) := by
  obtain ⟨l, h1, h2, h3⟩ := lineUp_calls ops ok (!s)
  rw [h3 nl up] at h2
  unfold lineUp at h2
  rw [Bool.not_not] at h2
  refine ⟨List.forall₂_take_append _ _ _ h2, fun hc => ?_⟩
  rw [hc] at h2
  simpa using h2

/-- Three commands, one of them without an answer, one of them overtaken by none. -/
def three : List Op := [.send true [65] [([107], [118])] true, .send true [66] [] false, .send true [67] [] true,
  .deliver false, .deliver false, .deliver false]

example : (∀ op ∈ three, OpOk op) ∧ (∀ op ∈ three, NoLock op) ∧ ((run three).side true).outstanding ≠ none ∧
    (run three).chan true = [] ∧ ((run three).side false).handled =
      [[([107], [118]), (COMMAND, [65]), (ASK, [49])], [(COMMAND, [66])], [(COMMAND, [67]), (ASK, [51])]] := by
  refine ⟨?_, ?_, by decide, by decide, by decide⟩ <;> intro op hop <;>
    simp only [three, List.mem_cons, List.not_mem_nil, or_false] at hop <;>
    rcases hop with h | h | h | h | h | h <;> subst h <;> first | trivial | exact ⟨rfl, rfl, rfl⟩

/-- C95, with a locked connection: requests that arrive are skipped, commands that want no answer are not. -/
theorem locked_skips_fails : ∃ ops : List Op, (∀ op ∈ ops, OpOk op) ∧ (∀ b, ((run ops).side b).outstanding ≠ none) ∧
    (∀ b, (run ops).chan b = []) ∧ (sends true ops).length = 2 ∧ ((run ops).side false).handled = [[(COMMAND, [66])]] := by
  refine ⟨[.send true [65] [] true, .send true [66] [] false, .lock false, .deliver false, .deliver false], ?_,
    by decide, by decide, by decide, by decide⟩
  intro op hop
  simp only [List.mem_cons, List.not_mem_nil, or_false] at hop
  rcases hop with h | h | h | h | h <;> subst h <;> first | trivial | exact ⟨rfl, rfl, rfl⟩

end Verif.JuiceRpc

namespace Verif.JuiceBytes
open Verif.Py Verif.Juice Verif.JuiceRpc

variable (U : Uni) {P : Local → Prop} (hP : ∀ op, P op → LocalOk op) (ops : List BOp) (ok : ∀ op ∈ ops, BOk P op)

theorem has_arrived {q : Box} (h : (q.map Prod.fst).Nodup) (k : Str) : Dict.has (arrived q) k = Dict.has q k := by
  unfold Dict.has; rw [get?_arrived h]

include hP ok
/-- C95, over bytes: the requests handled are requests made, in the order they were made; as long as nobody locks the
connection and the requester has not lost it they are the first ones made; and all of them when every byte was received. -/
theorem bytes_in_order (s : Bool) :
    (∃ l, l.Sublist (endOf U ops (!s)).asked ∧
      List.Forall₂ (fun x q' => SameBox x.2 q') l ((endOf U ops s).handled.filter (Dict.has · ASK))) ∧
    (¬ P .lock → (endOf U ops (!s)).outstanding ≠ none →
      (∃ l, l <+: (endOf U ops (!s)).asked ∧
        List.Forall₂ (fun x q' => SameBox x.2 q') l ((endOf U ops s).handled.filter (Dict.has · ASK))) ∧
      (inFlight U ops (!s) = [] → List.Forall₂ (fun x q' => SameBox x.2 q') (endOf U ops (!s)).asked
        ((endOf U ops s).handled.filter (Dict.has · ASK)))) := by
  obtain ⟨is, h1, h2⟩ := run_sim U hP ops ok
  have hok : ∀ i ∈ is, OpOk i := fun i hi => (h1 i hi).ok hP
  have hl := lineUp_asked is hok (!s)
  have hfl := h2.drained U (!s)
  unfold lineUp at hl
  rw [Bool.not_not, List.filter_append] at hl
  have legal : ∀ x ∈ ((JuiceRpc.run is).side (!s)).asked, LegalBox x.2 := fun x hx =>
    (legal_asked hP ops ok h1 (s := !s) (n := x.1) (box := x.2) hx).choose_spec.choose_spec.2.2
  have wf : ∀ q ∈ ((JuiceRpc.run is).side s).handled, (q.map Prod.fst).Nodup := fun q hq => handled_wf hP ops ok h1 hq
  have e : (((JuiceRpc.run is).side s).handled.map arrived).filter (Dict.has · ASK) =
      (((JuiceRpc.run is).side s).handled.filter (Dict.has · ASK)).map arrived := by
    rw [List.filter_map]
    congr 1
    exact List.filter_congr fun q hq => has_arrived (wf q hq) ASK
  have hs : ∀ l : List (Nat × Box), (∀ x ∈ l, LegalBox x.2) →
      List.Forall₂ (fun (x : Nat × Box) q' => SameBox x.2 q') l ((l.map Prod.snd).map arrived) := by
    intro l h
    induction l with
    | nil => exact .nil
    | cons x l ih =>
      exact .cons (arrived_same _ (h x (by simp)).wf) (ih fun y hy => h y (List.mem_cons_of_mem _ hy))
  unfold endOf
  rw [(h2.sim s).side, (h2.sim (!s)).side]
  show (∃ l, l.Sublist ((JuiceRpc.run is).side (!s)).asked ∧ List.Forall₂ _ l
      ((((JuiceRpc.run is).side s).handled.map arrived).filter (Dict.has · ASK))) ∧
    (¬ P .lock → ((JuiceRpc.run is).side (!s)).outstanding ≠ none →
      (∃ l, l <+: ((JuiceRpc.run is).side (!s)).asked ∧ List.Forall₂ _ l
        ((((JuiceRpc.run is).side s).handled.map arrived).filter (Dict.has · ASK))) ∧
      (inFlight U ops (!s) = [] → List.Forall₂ _ ((JuiceRpc.run is).side (!s)).asked
        ((((JuiceRpc.run is).side s).handled.map arrived).filter (Dict.has · ASK))))
  rw [e]
  refine ⟨?_, fun nl up => ?_⟩
  · obtain ⟨l, h3, h4⟩ := List.sublist_map_iff.1 ((List.sublist_append_left _ _).trans hl.1)
    exact ⟨l, h3, h4 ▸ hs l fun x hx => legal x (h3.subset hx)⟩
  · have h3 := hl.2 (noLock_from hP ops ok nl h1) up
    refine ⟨?_, fun hf => ?_⟩
    · obtain ⟨l, l', h4, h5, -⟩ := List.map_eq_append_iff.1 h3.symm
      exact ⟨l, ⟨l', h4.symm⟩, h5 ▸ hs l fun x hx => legal x (h4 ▸ List.mem_append_left _ hx)⟩
    · rw [hfl hf] at h3
      simp only [List.filter_nil, List.append_nil] at h3
      rw [h3]
      exact hs _ legal

end Verif.JuiceBytes
