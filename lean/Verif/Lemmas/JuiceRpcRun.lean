import Verif.Lemmas.JuiceRpc
import Mathlib.Data.List.Induction
/-!
# Every step of a pair of peers keeps the invariant, in both directions
-/
namespace Verif.JuiceRpc
open Verif.Py Verif.Juice List

@[simp] theorem setSide_side_same (w : World) (s : Bool) (x : Side) : (w.setSide s x).side s = x := by
  simp [World.setSide]
@[simp] theorem setSide_side_not (w : World) (s : Bool) (x : Side) : (w.setSide s x).side (!s) = w.side (!s) := by
  simp [World.setSide]
@[simp] theorem setSide_side_of_not (w : World) (s : Bool) (x : Side) : (w.setSide (!s) x).side s = w.side s := by
  simp [World.setSide]
@[simp] theorem setSide_chan (w : World) (s : Bool) (x : Side) : (w.setSide s x).chan = w.chan := rfl
@[simp] theorem setChan_chan_same (w : World) (s : Bool) (x : List Box) : (w.setChan s x).chan s = x := by
  simp [World.setChan]
@[simp] theorem setChan_chan_not (w : World) (s : Bool) (x : List Box) : (w.setChan s x).chan (!s) = w.chan (!s) := by
  simp [World.setChan]
@[simp] theorem setChan_chan_of_not (w : World) (s : Bool) (x : List Box) : (w.setChan (!s) x).chan s = w.chan s := by
  simp [World.setChan]
@[simp] theorem setChan_side (w : World) (s : Bool) (x : List Box) : (w.setChan s x).side = w.side := rfl

/-- The invariant of the requests made by `s`. -/
def WInv (w : World) (s : Bool) : Prop :=
  Inv (w.side s).counter (w.side s).outstanding (w.side s).asked (w.side s).fired
    (w.side (!s)).pending (w.side (!s)).handled (w.side (!s)).answered (w.chan s) (w.chan (!s))

/-- Boxes applications may send or answer with: they do not contain the keys the protocol adds itself. -/
def OpOk : Op → Prop
  | .send _ _ b _ => Dict.has b ASK = false ∧ Dict.has b ANSWER = false ∧ Dict.has b ERROR = false
  | .respond _ _ (.answer b) => Dict.has b COMMAND = false
  | _ => True

theorem get?_none_of_has {b : Box} {k : Str} (h : Dict.has b k = false) : Dict.get? b k = none := by
  cases hg : Dict.get? b k with
  | none => rfl
  | some v => rw [Dict.has, hg] at h; cases h

theorem has_set_same (b : Box) (k v : Str) : Dict.has (Dict.set b k v) k = true := by
  rw [Dict.has, Dict.get?_set_same]; rfl

theorem has_set_other (b : Box) {k k' : Str} (v : Str) (h : k ≠ k') : Dict.has (Dict.set b k v) k' = Dict.has b k' := by
  rw [Dict.has, Dict.get?_set_other _ _ _ _ h]; rfl

/-- The box `sendBoxCommand` writes when an answer is wanted. -/
theorem ask_box {b : Box} {c t : Str} (h : Dict.has b ANSWER = false ∧ Dict.has b ERROR = false) :
    Dict.get? (Dict.set (Dict.set b COMMAND c) ASK t) ASK = some t ∧
    replyTag (Dict.set (Dict.set b COMMAND c) ASK t) = none ∧
    Dict.has (Dict.set (Dict.set b COMMAND c) ASK t) COMMAND = true := by
  refine ⟨Dict.get?_set_same _ _ _, ?_, ?_⟩
  · unfold replyTag
    rw [Dict.get?_set_other _ _ _ _ (by decide), Dict.get?_set_other _ _ _ _ (by decide), get?_none_of_has h.1]
    simp only
    rw [Dict.get?_set_other _ _ _ _ (by decide), Dict.get?_set_other _ _ _ _ (by decide), get?_none_of_has h.2]
  · rw [has_set_other _ _ (by decide), has_set_same]

theorem tell_box {b : Box} {c : Str} (h : Dict.has b ASK = false ∧ Dict.has b ANSWER = false ∧ Dict.has b ERROR = false) :
    Dict.get? (Dict.set b COMMAND c) ASK = none ∧ replyTag (Dict.set b COMMAND c) = none ∧
    Dict.has (Dict.set b COMMAND c) COMMAND = true := by
  refine ⟨?_, ?_, has_set_same _ _ _⟩
  · rw [Dict.get?_set_other _ _ _ _ (by decide), get?_none_of_has h.1]
  · unfold replyTag
    rw [Dict.get?_set_other _ _ _ _ (by decide), get?_none_of_has h.2.1]
    simp only
    rw [Dict.get?_set_other _ _ _ _ (by decide), get?_none_of_has h.2.2]

theorem replyBox_command {t : Str} {r : Reply} (h : ∀ b, r = .answer b → Dict.has b COMMAND = false) :
    Dict.has (replyBox t r) COMMAND = false := by
  cases r with
  | answer b => rw [replyBox, has_set_other _ _ (by decide)]; exact h b rfl
  | error c d => simp [replyBox, Dict.has, Dict.get?, ERROR, COMMAND, ERROR_CODE, ERROR_DESCRIPTION]

theorem has_false_iff {b : Box} {k : Str} : Dict.has b k = false ↔ Dict.get? b k = none :=
  ⟨get?_none_of_has, fun h => by rw [Dict.has, h]; rfl⟩

/-- What `juiceBoxReceived` does with a reply that was really written by `replyBox`. -/
theorem received_reply (p : Side) (d : Dict Str Nat) (t : Str) (rep : Reply) (n : Nat)
    (hc : Dict.has (replyBox t rep) COMMAND = false) (hg : Dict.get? d t = some n) :
    juiceBoxReceived p d (replyBox t rep) =
      { p with outstanding := some (Dict.erase d t), fired := p.fired ++ [(n, seen t rep)] } := by
  unfold juiceBoxReceived
  rw [hc]
  simp only [Bool.and_false, Bool.false_and, Bool.false_eq_true, if_false]
  cases rep with
  | answer b =>
    rw [show Dict.get? (replyBox t (.answer b)) ANSWER = some t from Dict.get?_set_same _ _ _]
    simp [answerReceived, hg, seen]
  | error c x =>
    have h1 : Dict.get? (replyBox t (.error c x)) ANSWER = none := by
      simp [replyBox, Dict.get?, ERROR, ANSWER, ERROR_CODE, ERROR_DESCRIPTION]
    have h2 : Dict.get? (replyBox t (.error c x)) ERROR = some t := by simp [replyBox, Dict.get?]
    have h3 : Dict.get? (replyBox t (.error c x)) ERROR_CODE = some c := by
      simp [replyBox, Dict.get?, ERROR, ERROR_CODE, ERROR_DESCRIPTION]
    have h4 : Dict.get? (replyBox t (.error c x)) ERROR_DESCRIPTION = some x := by
      simp [replyBox, Dict.get?, ERROR, ERROR_CODE, ERROR_DESCRIPTION]
    rw [h1]; simp only [h2, h3, h4, answerReceived, hg, seen]

theorem replyTag_none {b : Box} (h : replyTag b = none) : Dict.get? b ANSWER = none ∧ Dict.get? b ERROR = none := by
  unfold replyTag at h
  split at h
  · cases h
  · exact ⟨by assumption, h⟩

/-- What `juiceBoxReceived` does with a command. -/
theorem received_command (p : Side) (d : Dict Str Nat) (b : Box) (hr : replyTag b = none)
    (hc : Dict.has b COMMAND = true) :
    juiceBoxReceived p d b = if p.locked && Dict.has b ASK then p else
      { p with pending := p.pending ++ [(p.handled.length, b)], handled := p.handled ++ [b] } := by
  obtain ⟨h1, h2⟩ := replyTag_none hr
  unfold juiceBoxReceived
  rw [h1, h2, hc]
  simp

/-- The parts of the two peers the invariant looks at. -/
theorem WInv.congr {w w' : World} {s : Bool} (h : WInv w s)
    (h1 : (w'.side s).counter = (w.side s).counter) (h2 : (w'.side s).outstanding = (w.side s).outstanding)
    (h3 : (w'.side s).asked = (w.side s).asked) (h4 : (w'.side s).fired = (w.side s).fired)
    (h5 : (w'.side (!s)).pending = (w.side (!s)).pending) (h6 : (w'.side (!s)).handled = (w.side (!s)).handled)
    (h7 : (w'.side (!s)).answered = (w.side (!s)).answered) (h8 : w'.chan s = w.chan s)
    (h9 : w'.chan (!s) = w.chan (!s)) : WInv w' s := by
  unfold WInv at *
  rw [h1, h2, h3, h4, h5, h6, h7, h8, h9]; exact h

theorem WInv.step {w : World} {s : Bool} (h : WInv w s) (h' : WInv w (!s)) (op : Op) (ok : OpOk op) :
    WInv (step w op) s := by
  have hside : ∀ a : Bool, a = s ∨ a = !s := by intro a; cases a <;> cases s <;> simp
  have h0 := h
  unfold WInv at h
  cases op with
  | lock a =>
    rcases hside a with rfl | rfl <;>
    (apply h0.congr <;> simp [JuiceRpc.step])
  | lose a reason =>
    simp only [JuiceRpc.step, connectionLost]
    cases hd : (w.side a).outstanding with
    | none => exact h0
    | some d =>
      rcases hside a with rfl | rfl
      · rw [hd] at h
        unfold WInv
        simpa using h.lose d reason
      · apply h0.congr <;> simp
  | send a c b ra =>
    simp only [JuiceRpc.step, sendBoxCommand]
    cases hd : (w.side a).outstanding with
    | none =>
      rcases hside a with rfl | rfl <;>
      (apply h0.congr <;> simp [hd])
    | some d =>
      obtain ⟨k1, k2, k3⟩ := ok
      rcases hside a with rfl | rfl
      · rw [hd] at h
        cases ra with
        | true =>
          obtain ⟨e1, e2, e3⟩ := ask_box (b := b) (c := c) (t := hexStr ((w.side a).counter + 1)) ⟨k2, k3⟩
          simp only [if_true, sendPacket, setSide_side_same]
          have := h.ask d _ (!(w.side a).locked) e1 e2 e3
          cases hl : (w.side a).locked with
          | true => rw [hl] at this; unfold WInv; simpa using this
          | false => rw [hl] at this; unfold WInv; simpa using this
        | false =>
          obtain ⟨e1, e2, e3⟩ := tell_box (b := b) (c := c) ⟨k1, k2, k3⟩
          simp only [Bool.false_eq_true, if_false, sendPacket, setSide_side_same]
          cases hl : (w.side a).locked with
          | true =>
            have := h.mono ((w.side a).counter + 1) (by omega)
            unfold WInv; simpa [hd] using this
          | false =>
            have := h.say _ ((w.side a).counter + 1) (by omega) (by rw [askTag_of_none e2]; exact e1) (fun _ => e3)
            unfold WInv; simpa [hd] using this
      · cases ra with
        | true =>
          obtain ⟨e1, e2, e3⟩ := ask_box (b := b) (c := c) (t := hexStr ((w.side (!s)).counter + 1)) ⟨k2, k3⟩
          simp only [if_true, sendPacket, setSide_side_same]
          cases hl : (w.side (!s)).locked with
          | true => apply h0.congr <;> simp
          | false => have := h.heard _ e2; unfold WInv; simpa using this
        | false =>
          obtain ⟨e1, e2, e3⟩ := tell_box (b := b) (c := c) ⟨k1, k2, k3⟩
          simp only [Bool.false_eq_true, if_false, sendPacket, setSide_side_same]
          cases hl : (w.side (!s)).locked with
          | true => apply h0.congr <;> simp
          | false => have := h.heard _ e2; unfold WInv; simpa using this
  | deliver a =>
    simp only [JuiceRpc.step, deliver]
    cases hd : (w.side a).outstanding with
    | none => exact h0
    | some d =>
      cases hch : w.chan (!a) with
      | nil => exact h0
      | cons b rest =>
        simp only
        rcases hside a with rfl | rfl
        · rw [hd, hch] at h
          cases hr : replyTag b with
          | some t =>
            have hcc := (h.chanRep b (by simp) t hr).1
            obtain ⟨n, rep, hg, ht, hb, hinv⟩ := h.gotReply d b rest t hr
            subst hb
            rw [received_reply _ d t rep n hcc hg]
            unfold WInv; simpa using hinv
          | none =>
            have hinv := h.gotCommand b rest hr
            unfold WInv at h'
            rw [hch] at h'
            have hcc := (h'.chanCmd b (by simp) hr).1
            rw [received_command _ d b hr hcc]
            split
            · unfold WInv; simpa [hd] using hinv
            · unfold WInv; simpa [hd] using hinv
        · rw [Bool.not_not] at hch
          rw [hch] at h
          unfold WInv at h'
          rw [Bool.not_not, hch] at h'
          cases hr : replyTag b with
          | some t =>
            have hcc := (h'.chanRep b (by simp) t hr).1
            rw [hd] at h'
            obtain ⟨n, rep, hg, ht, hb, -⟩ := h'.gotReply d b rest t hr
            subst hb
            rw [received_reply _ d t rep n hcc hg]
            have := h.skipped _ rest
            unfold WInv; simpa using this
          | none =>
            have hcc := (h.chanCmd b (by simp) hr).1
            rw [received_command _ d b hr hcc]
            split
            · have := h.skipped _ rest
              unfold WInv; simpa using this
            · have := h.handling _ rest hr
              unfold WInv; simpa using this
  | respond a m r =>
    have hrc : ∀ t, Dict.has (replyBox t r) COMMAND = false := by
      intro t
      apply replyBox_command
      intro b hb; subst hb; exact ok
    simp only [JuiceRpc.step, respond]
    cases hp : Dict.get? (w.side a).pending m with
    | none => exact h0
    | some q =>
      simp only
      rcases hside a with rfl | rfl
      · cases ht : Dict.get? q ASK with
        | none => apply h0.congr <;> simp
        | some t =>
          simp only
          cases hd : (w.side a).outstanding with
          | none => apply h0.congr <;> simp [hd]
          | some d =>
            simp only
            split
            · apply h0.congr <;> simp [hd]
            · have := h.say (replyBox t r) _ (Nat.le_refl _) (askTag_of_some (replyTag_replyBox t r))
                (by rw [replyTag_replyBox]; intro e; cases e)
              unfold WInv; simpa [hd] using this
      · cases ht : Dict.get? q ASK with
        | none => have := h.dropped m; unfold WInv; simpa using this
        | some t =>
          simp only
          cases hd : (w.side (!s)).outstanding with
          | none => have := h.dropped m; unfold WInv; simpa using this
          | some d =>
            simp only
            split
            · have := h.dropped m; unfold WInv; simpa using this
            · have := h.replied m q t r hp ht (hrc t)
              unfold WInv; simpa using this

theorem WInv.new (s : Bool) : WInv World.new s := Inv.new

theorem run_snoc (ops : List Op) (op : Op) : run (ops ++ [op]) = step (run ops) op := by
  simp [run]

theorem WInv.run (ops : List Op) (ok : ∀ op ∈ ops, OpOk op) (s : Bool) : WInv (run ops) s := by
  induction ops using List.reverseRecOn generalizing s with
  | nil => exact WInv.new s
  | append_singleton ops op ih =>
    rw [run_snoc]
    have ih' := ih (fun o ho => ok o (List.mem_append_left _ ho))
    exact (ih' s).step (ih' _) op (ok op (by simp))

/-- Exceptions: only the assertion of a locked connection. -/
theorem raised_step {w : World} (h : ∀ s, WInv w s) (hr : ∀ s, ∀ e ∈ (w.side s).raised, e = .assertionError)
    (op : Op) (s : Bool) : ∀ e ∈ ((step w op).side s).raised, e = .assertionError := by
  have hside : ∀ a : Bool, a = s ∨ a = !s := by intro a; cases a <;> cases s <;> simp
  have h2 : ∀ e ∈ (w.side s).raised ++ [PyErr.assertionError], e = .assertionError := by
    intro e he
    rcases List.mem_append.1 he with he | he
    · exact hr s e he
    · exact List.mem_singleton.1 he
  cases op with
  | lock a => rcases hside a with rfl | rfl <;> simpa [JuiceRpc.step] using hr _
  | lose a reason =>
    simp only [JuiceRpc.step, connectionLost]
    split
    · exact hr s
    · rcases hside a with rfl | rfl <;> simpa using hr _
  | send a c b ra =>
    simp only [JuiceRpc.step, sendBoxCommand]
    split
    · rcases hside a with rfl | rfl <;> simpa using hr _
    · split
      · unfold sendPacket
        split
        · rcases hside a with rfl | rfl
          · simpa using h2
          · simpa using hr _
        · rcases hside a with rfl | rfl <;> simpa using hr _
      · unfold sendPacket
        split
        · rcases hside a with rfl | rfl
          · simpa using h2
          · simpa using hr _
        · rcases hside a with rfl | rfl <;> simpa using hr _
  | deliver a =>
    simp only [JuiceRpc.step, deliver]
    split
    · rename_i d b rest hd hch
      rcases hside a with rfl | rfl
      · have h1 := h a
        have h3 := h (!a)
        unfold WInv at h1 h3
        rw [hd, hch] at h1
        rw [hch] at h3
        simp only [setSide_side_same]
        cases hrt : replyTag b with
        | some t =>
          have hcc := (h1.chanRep b (by simp) t hrt).1
          obtain ⟨n, rep, hg, ht, hb, -⟩ := h1.gotReply d b rest t hrt
          subst hb
          rw [received_reply _ d t rep n hcc hg]
          exact hr a
        | none =>
          have hcc := (h3.chanCmd b (by simp) hrt).1
          rw [received_command _ d b hrt hcc]
          split <;> exact hr a
      · simpa using hr s
    · exact hr s
  | respond a m r =>
    simp only [JuiceRpc.step, respond]
    split
    · exact hr s
    · split
      · rcases hside a with rfl | rfl <;> simpa using hr _
      · split
        · rcases hside a with rfl | rfl <;> simpa using hr _
        · split
          · rcases hside a with rfl | rfl
            · simpa using h2
            · simpa using hr _
          · rcases hside a with rfl | rfl <;> simpa using hr _

theorem raised_run (ops : List Op) (ok : ∀ op ∈ ops, OpOk op) (s : Bool) :
    ∀ e ∈ ((run ops).side s).raised, e = .assertionError := by
  induction ops using List.reverseRecOn generalizing s with
  | nil => intro e he; cases he
  | append_singleton ops op ih =>
    rw [run_snoc]
    have hok := fun o ho => ok o (List.mem_append_left _ ho)
    exact raised_step (fun s => WInv.run ops hok s) (fun s => ih hok s) op s

end Verif.JuiceRpc
