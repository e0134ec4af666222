import Verif.Lemmas.JuiceRpcRun
/-!
# Requests are not lost either: as long as neither end locks the connection
-/
namespace Verif.JuiceRpc
open Verif.Py Verif.Juice

/-- Not `_lock`. -/
def NoLock : Op → Prop
  | .lock _ => False
  | _ => True

/-- Every request made by `s` is in flight or was handled, and every command handled by `s` that wants an answer is pending
or was answered — unless the receiver lost the connection. -/
structure Quiet (w : World) (s : Bool) : Prop where
  unlocked : (w.side s).locked = false
  sent : ∀ n b, (n, b) ∈ (w.side s).asked →
    b ∈ w.chan s ∨ b ∈ (w.side (!s)).handled ∨ (w.side (!s)).outstanding = none
  kept : ∀ m q, (w.side s).handled[m]? = some q → Dict.has q ASK = true →
    m ∈ Dict.keys (w.side s).pending ∨ m ∈ (w.side s).answered.map Prod.fst ∨ (w.side s).outstanding = none

theorem Quiet.new (s : Bool) : Quiet World.new s := by
  refine ⟨rfl, ?_, ?_⟩
  · intro n b h; cases h
  · intro m q h; simp [World.new, Side.new] at h

/-- Only the side `a` and its channel changed, in a way that keeps what matters. -/
theorem Quiet.lift {w w' : World} {a : Bool} (ha : Quiet w a) (hb : Quiet w (!a))
    (side' : w'.side (!a) = w.side (!a)) (chan' : w'.chan (!a) = w.chan (!a))
    (unl : (w'.side a).locked = false)
    (hsent : ∀ n b, (n, b) ∈ (w'.side a).asked → (n, b) ∈ (w.side a).asked ∨ b ∈ w'.chan a)
    (hchan : ∀ b ∈ w.chan a, b ∈ w'.chan a)
    (hhand : ∀ b ∈ (w.side a).handled, b ∈ (w'.side a).handled)
    (hout : (w.side a).outstanding = none → (w'.side a).outstanding = none)
    (hkept : ∀ m q, (w'.side a).handled[m]? = some q → Dict.has q ASK = true →
      m ∈ Dict.keys (w'.side a).pending ∨ m ∈ (w'.side a).answered.map Prod.fst ∨ (w'.side a).outstanding = none) :
    ∀ s, Quiet w' s := by
  have key : Quiet w' a ∧ Quiet w' (!a) := by
    constructor
    · refine ⟨unl, ?_, hkept⟩
      intro n b h
      rw [side']
      rcases hsent n b h with h | h
      · rcases ha.sent n b h with h | h
        · exact .inl (hchan b h)
        · exact .inr h
      · exact .inl h
    · refine ⟨by rw [side']; exact hb.unlocked, ?_, ?_⟩
      · intro n b h
        rw [side'] at h
        rw [Bool.not_not, chan']
        have := hb.sent n b h
        rw [Bool.not_not] at this
        rcases this with h | h | h
        · exact .inl h
        · exact .inr (.inl (hhand b h))
        · exact .inr (.inr (hout h))
      · rw [side']; exact hb.kept
  intro s
  cases a <;> cases s <;> first | exact key.1 | exact key.2

theorem Quiet.step {w : World} (hi : ∀ s, WInv w s) (h : ∀ s, Quiet w s) (op : Op) (nl : NoLock op) :
    ∀ s, Quiet (step w op) s := by
  cases op with
  | lock a => exact absurd nl id
  | lose a reason =>
    simp only [JuiceRpc.step, connectionLost]
    cases ho : (w.side a).outstanding with
    | none => exact h
    | some d =>
      apply Quiet.lift (h a) (h (!a)) (by simp) (by simp)
      · simpa using (h a).unlocked
      · intro n b hb; left; simpa using hb
      · simp
      · simp
      · simp
      · simp
  | send a c b ra =>
    have hu := (h a).unlocked
    simp only [JuiceRpc.step, sendBoxCommand, sendPacket]
    cases ho : (w.side a).outstanding with
    | none =>
      apply Quiet.lift (h a) (h (!a)) (by simp) (by simp)
      · simpa using hu
      · intro n b hb; left; simpa using hb
      · simp
      · simp
      · simp [ho]
      · simp [ho]
    | some d =>
      cases ra with
      | false =>
        simp only [Bool.false_eq_true, if_false, setSide_side_same, hu]
        apply Quiet.lift (h a) (h (!a)) (by simp) (by simp)
        · simpa using hu
        · intro n b hb; left; simpa using hb
        · intro b hb; simp [hb]
        · simp
        · simp [ho]
        · intro m q hm hq
          have := (h a).kept m q (by simpa using hm) hq
          simpa [ho] using this
      | true =>
        simp only [if_true, setSide_side_same, hu, Bool.false_eq_true, if_false]
        apply Quiet.lift (h a) (h (!a)) (by simp) (by simp)
        · simpa using hu
        · intro n b hb
          simp only [setChan_side, setSide_side_same, List.mem_append, List.mem_singleton] at hb
          rcases hb with hb | hb
          · exact .inl hb
          · right; cases hb; simp
        · intro b hb; simp [hb]
        · simp
        · simp [ho]
        · intro m q hm hq
          have := (h a).kept m q (by simpa using hm) hq
          simpa [ho] using this
  | respond a m r =>
    have hu := (h a).unlocked
    simp only [JuiceRpc.step, respond]
    cases hp : Dict.get? (w.side a).pending m with
    | none => exact h
    | some box =>
      have hbox : (w.side a).handled[m]? = some box := by
        have := hi (!a)
        unfold WInv at this
        rw [Bool.not_not] at this
        exact (this.pendOk m box (Dict.mem_of_get? hp)).1
      have hwf : Dict.WF (w.side a).pending := by
        have := hi (!a)
        unfold WInv at this
        rw [Bool.not_not] at this
        exact this.pendWF
      have hold : ∀ m' q, (w.side a).handled[m']? = some q → Dict.has q ASK = true → m' ≠ m →
          m' ∈ Dict.keys (Dict.erase (w.side a).pending m) ∨ m' ∈ (w.side a).answered.map Prod.fst ∨
            (w.side a).outstanding = none := by
        intro m' q h1 h2 h3
        rcases (h a).kept m' q h1 h2 with h4 | h4 | h4
        · left; rw [Dict.mem_keys_erase hwf]; exact ⟨h4, h3⟩
        · exact .inr (.inl h4)
        · exact .inr (.inr h4)
      simp only
      cases ha : Dict.get? box ASK with
      | none =>
        apply Quiet.lift (h a) (h (!a)) (by simp) (by simp)
        · simpa using hu
        · intro n b hb; left; simpa using hb
        · simp
        · simp
        · simp
        · intro m' q hm hq
          simp only [setSide_side_same] at hm ⊢
          refine hold m' q hm hq ?_
          rintro rfl
          rw [hbox] at hm
          cases hm
          rw [Dict.has, ha] at hq; cases hq
      | some tag =>
        simp only
        cases ho : (w.side a).outstanding with
        | none =>
          apply Quiet.lift (h a) (h (!a)) (by simp) (by simp)
          · simpa using hu
          · intro n b hb; left; simpa using hb
          · simp
          · simp
          · simp [ho]
          · simp [ho]
        | some d =>
          simp only [hu, Bool.false_eq_true, if_false]
          apply Quiet.lift (h a) (h (!a)) (by simp) (by simp)
          · simpa using hu
          · intro n b hb; left; simpa using hb
          · intro b hb; simp [hb]
          · simp
          · simp [ho]
          · intro m' q hm hq
            simp only [setChan_side, setSide_side_same] at hm ⊢
            by_cases e : m' = m
            · right; left; simp [e]
            · rcases hold m' q hm hq e with h1 | h1 | h1
              · exact .inl h1
              · right; left; rw [List.map_append]; exact List.mem_append_left _ h1
              · rw [ho] at h1; cases h1
  | deliver a =>
    simp only [JuiceRpc.step, deliver]
    cases ho : (w.side a).outstanding with
    | none => exact h
    | some d =>
      cases hc : w.chan (!a) with
      | nil => exact h
      | cons b rest =>
        simp only
        have hu := (h a).unlocked
        generalize hp' : juiceBoxReceived (w.side a) d b = p'
        have hask : p'.asked = (w.side a).asked ∧ p'.locked = false ∧ p'.answered = (w.side a).answered ∧
            p'.outstanding ≠ none := by
          rw [← hp']
          unfold juiceBoxReceived answerReceived
          repeat' split
          all_goals simp [hu, ho]
        have hcmd : (p'.handled = (w.side a).handled ∧ p'.pending = (w.side a).pending ∧
            ∀ n, (n, b) ∉ (w.side (!a)).asked) ∨
            (p'.handled = (w.side a).handled ++ [b] ∧ p'.pending = (w.side a).pending ++ [((w.side a).handled.length, b)]) := by
          have hb : ∀ n, (n, b) ∈ (w.side (!a)).asked → replyTag b = none ∧ Dict.has b COMMAND = true :=
            fun n hn => ((hi (!a)).askedBox n b hn).2.2
          rw [← hp']
          unfold juiceBoxReceived
          simp only [hu, Bool.false_and, Bool.false_eq_true, if_false]
          unfold replyTag at hb
          cases hA : Dict.get? b ANSWER with
          | some t =>
            left
            rw [hA] at hb
            refine ⟨?_, ?_, fun n hn => by have := (hb n hn).1; simp at this⟩
            · simp only [answerReceived]
              repeat' split
              all_goals rfl
            · simp only [answerReceived]
              repeat' split
              all_goals rfl
          | none =>
            rw [hA] at hb
            simp only at hb ⊢
            cases hE : Dict.get? b ERROR with
            | some t =>
              left
              rw [hE] at hb
              refine ⟨?_, ?_, fun n hn => by have := (hb n hn).1; simp at this⟩
              · simp only [answerReceived]
                repeat' split
                all_goals rfl
              · simp only [answerReceived]
                repeat' split
                all_goals rfl
            | none =>
              simp only
              cases hC : Dict.has b COMMAND with
              | true => right; exact ⟨rfl, rfl⟩
              | false =>
                left
                refine ⟨rfl, rfl, fun n hn => ?_⟩
                have := (hb n hn).2
                rw [hC] at this; cases this
        have hha := h a
        have hhn := h (!a)
        -- the receiving side changed, and the other side's channel shrank
        have key : Quiet ((w.setChan (!a) rest).setSide a p') a ∧ Quiet ((w.setChan (!a) rest).setSide a p') (!a) := by
          constructor
          · refine ⟨by simpa using hask.2.1, ?_, ?_⟩
            · intro n b' hb'
              simp only [setSide_side_same, hask.1] at hb'
              simpa using hha.sent n b' hb'
            · intro m q hm hq
              simp only [setSide_side_same, hask.2.2.1] at hm ⊢
              rcases hcmd with ⟨e1, e2, -⟩ | ⟨e1, e2⟩
              · rw [e1] at hm
                rw [e2]
                rcases hha.kept m q hm hq with h1 | h1 | h1
                · exact .inl h1
                · exact .inr (.inl h1)
                · rw [ho] at h1; cases h1
              · rw [e1] at hm
                rw [e2]
                by_cases hlt : m < (w.side a).handled.length
                · rw [List.getElem?_append_left hlt] at hm
                  rcases hha.kept m q hm hq with h1 | h1 | h1
                  · left; unfold Dict.keys; rw [List.map_append]; exact List.mem_append_left _ h1
                  · exact .inr (.inl h1)
                  · rw [ho] at h1; cases h1
                · left
                  have : m = (w.side a).handled.length := by
                    have := (List.getElem?_eq_some_iff.1 hm).1
                    simp at this; omega
                  simp [Dict.keys, this]
          · refine ⟨by simpa using hhn.unlocked, ?_, ?_⟩
            · intro n b' hb'
              simp only [setSide_side_not, setChan_side] at hb'
              have := hhn.sent n b' hb'
              rw [Bool.not_not] at this
              simp only [setSide_chan, setChan_chan_same, Bool.not_not, setSide_side_same]
              rcases this with h1 | h1 | h1
              · rw [hc] at h1
                rcases List.mem_cons.1 h1 with rfl | h1
                · rcases hcmd with ⟨-, -, e⟩ | ⟨e, -⟩
                  · exact absurd hb' (e n)
                  · right; left; rw [e]; simp
                · exact .inl h1
              · right; left
                rcases hcmd with ⟨e, -, -⟩ | ⟨e, -⟩
                · rw [e]; exact h1
                · rw [e]; exact List.mem_append_left _ h1
              · rw [ho] at h1; cases h1
            · simpa using hhn.kept
        intro s
        cases a <;> cases s <;> first | exact key.1 | exact key.2

theorem Quiet.run (ops : List Op) (ok : ∀ op ∈ ops, OpOk op) (nl : ∀ op ∈ ops, NoLock op) : ∀ s, Quiet (run ops) s := by
  induction ops using List.reverseRecOn with
  | nil => exact Quiet.new
  | append_singleton ops op ih =>
    have hok := fun o ho => ok o (List.mem_append_left _ ho)
    rw [run_snoc]
    exact Quiet.step (fun s => WInv.run ops hok s) (ih hok fun o ho => nl o (List.mem_append_left _ ho)) op (nl op (by simp))

theorem no_assert_step (w : World) (op : Op) (hl : ∀ s, (w.side s).locked = false)
    (h : ∀ s, .assertionError ∉ (w.side s).raised) (s : Bool) : .assertionError ∉ ((step w op).side s).raised := by
  have hs := h s
  cases op with
  | send a c b ra =>
    have ha := h a
    have hla := hl a
    clear h hl
    simp only [step, sendBoxCommand]
    split
    · simp only [World.setSide]; split <;> assumption
    · cases ra <;> simp only [sendPacket, World.setSide, World.setChan, if_true, if_false, hla, Bool.false_eq_true] <;>
        split <;> assumption
  | deliver a =>
    have ha := h a
    clear h hl
    simp only [step, deliver]
    split
    · simp only [World.setSide, World.setChan, juiceBoxReceived, answerReceived]
      split
      · repeat' split
        all_goals first
          | exact ha
          | (simp only [List.mem_append, List.mem_singleton, not_or]; exact ⟨ha, by simp⟩)
          | skip
        rename_i heq
        split at heq
        · cases heq
        · cases heq
          simp only [List.mem_append, List.mem_singleton, not_or]; exact ⟨ha, by simp⟩
      · exact hs
    · exact hs
  | respond a m r =>
    have ha := h a
    have hla := hl a
    clear h hl
    simp only [step, respond, hla]
    repeat' split
    all_goals try simp only [World.setSide, World.setChan]
    all_goals first | exact hs | (split <;> first | exact hs | exact ha) | contradiction
  | lose a r =>
    have ha := h a
    simp only [step, connectionLost]
    split
    · exact hs
    · simp only [World.setSide]; split <;> assumption
  | lock a =>
    have ha := h a
    simp only [step, World.setSide]; split <;> assumption

theorem raised_quiet (ops : List Op) (ok : ∀ op ∈ ops, OpOk op) (nl : ∀ op ∈ ops, NoLock op) (s : Bool) :
    ((run ops).side s).raised = [] := by
  have key : ∀ s, .assertionError ∉ ((run ops).side s).raised := by
    induction ops using List.reverseRecOn with
    | nil => intro s h; cases h
    | append_singleton ops op ih =>
      have ok' := fun i hi => ok i (List.mem_append_left _ hi)
      have nl' := fun i hi => nl i (List.mem_append_left _ hi)
      intro s
      rw [run_snoc]
      exact no_assert_step _ op (fun s => (Quiet.run ops ok' nl' s).unlocked) (ih ok' nl') s
  apply List.eq_nil_iff_forall_not_mem.2
  intro e he
  exact key s (raised_run ops ok s e he ▸ he)

end Verif.JuiceRpc
