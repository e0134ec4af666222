import Verif.Props.JuiceRpc
/-!
# What handlers get is what was sent
-/
namespace Verif.JuiceRpc
open Verif.Py Verif.Juice

/-- The box is one that `s` sent for a `sendBoxCommand` call. -/
def Sent (ops : List Op) (w : World) (s : Bool) (q : Box) : Prop :=
  ∃ c b, (.send s c b false ∈ ops ∧ q = Dict.set b COMMAND c) ∨
    (.send s c b true ∈ ops ∧ ∃ n, (n, q) ∈ (w.side s).asked ∧ q = Dict.set (Dict.set b COMMAND c) ASK (hexStr n))

theorem asked_mono (w : World) (s : Bool) (op : Op) : ∀ x ∈ (w.side s).asked, x ∈ ((step w op).side s).asked := by
  intro x hx
  rcases asked_grows w s op with e | ⟨c, b, -, n', tag, e, -⟩ <;> rw [e]
  · exact hx
  · exact List.mem_append_left _ hx

theorem Sent.mono {ops : List Op} {w : World} {s : Bool} {q : Box} (h : Sent ops w s q) (op : Op) :
    Sent (ops ++ [op]) (step w op) s q := by
  obtain ⟨c, b, ⟨h1, h2⟩ | ⟨h1, n, h2, h3⟩⟩ := h
  · exact ⟨c, b, .inl ⟨List.mem_append_left _ h1, h2⟩⟩
  · exact ⟨c, b, .inr ⟨List.mem_append_left _ h1, n, asked_mono w s op _ h2, h3⟩⟩

theorem chan_step (w : World) (op : Op) (s : Bool) : ∀ q ∈ (step w op).chan s, q ∈ w.chan s ∨
    Dict.has q ANSWER = true ∨ Dict.has q ERROR = true ∨ Sent [op] (step w op) s q := by
  intro q
  cases op with
  | send a c b ra =>
    cases ra
    · simp only [step, sendBoxCommand, if_false, Bool.false_eq_true]
      split
      · exact fun h => .inl h
      · unfold sendPacket
        split
        · exact fun h => .inl h
        · intro h
          simp only [World.setChan, World.setSide] at h
          split at h
          · subst s
            rcases List.mem_append.1 h with h | h
            · exact .inl h
            · rw [List.mem_singleton] at h
              exact .inr (.inr (.inr ⟨c, b, .inl ⟨by simp, h⟩⟩))
          · exact .inl h
    · simp only [step, sendBoxCommand, if_true]
      split
      · exact fun h => .inl h
      · unfold sendPacket
        split
        · exact fun h => .inl h
        · intro h
          simp only [World.setChan, World.setSide] at h
          split at h
          · subst s
            rcases List.mem_append.1 h with h | h
            · exact .inl h
            · rw [List.mem_singleton] at h
              exact .inr (.inr (.inr ⟨c, b, .inr ⟨by simp, _, by simp [World.setChan, World.setSide, h], h⟩⟩))
          · exact .inl h
  | deliver a =>
    simp only [step, deliver]
    split
    · rename_i heq
      simp only [World.setSide, World.setChan]
      split
      · subst_vars; intro h; left; rw [heq]; exact List.mem_cons_of_mem _ h
      · exact fun h => .inl h
    · exact fun h => .inl h
  | respond a m r =>
    simp only [step, respond]
    repeat' split
    all_goals try exact fun h => .inl h
    simp only [World.setSide, World.setChan]
    split
    · subst_vars
      intro h
      rcases List.mem_append.1 h with h | h
      · exact .inl h
      · rw [List.mem_singleton] at h
        subst h
        right
        cases r with
        | answer b => left; simp [replyBox, Dict.has, Dict.get?_set_same]
        | error c d => right; left; rfl
    · exact fun h => .inl h
  | lose a r =>
    simp only [step, connectionLost]
    split <;> exact fun h => .inl h
  | lock a => exact fun h => .inl h

theorem handled_step (w : World) (op : Op) (s : Bool) : ∀ q ∈ ((step w op).side s).handled, q ∈ (w.side s).handled ∨
    (q ∈ w.chan (!s) ∧ Dict.has q ANSWER = false ∧ Dict.has q ERROR = false) := by
  intro q
  cases op with
  | send a c b ra =>
    intro h
    left
    cases ra
    all_goals
      simp only [step, sendBoxCommand, if_false, Bool.false_eq_true, if_true, sendPacket, World.setSide] at h
      repeat' split at h
      all_goals simp only [World.setChan] at h
      all_goals (split at h <;> (subst_vars; exact h))
  | deliver a =>
    simp only [step, deliver]
    split
    · rename_i heq
      simp only [World.setSide, World.setChan]
      split
      · subst_vars
        unfold juiceBoxReceived answerReceived
        split
        · exact fun h => .inl h
        split
        · repeat' split
          all_goals exact fun h => .inl h
        split
        · repeat' split
          all_goals exact fun h => .inl h
        split
        · intro h
          rcases List.mem_append.1 h with h | h
          · exact .inl h
          · rw [List.mem_singleton] at h
            subst h
            right
            refine ⟨by rw [heq]; simp, ?_, ?_⟩ <;> simp_all [Dict.has]
        · exact fun h => .inl h
      · exact fun h => .inl h
    · exact fun h => .inl h
  | respond a m r =>
    intro h
    left
    simp only [step, respond] at h
    repeat' split at h
    all_goals try simp only [World.setSide, World.setChan] at h
    all_goals first | exact h | (split at h <;> (subst_vars; exact h))
  | lose a r =>
    intro h
    left
    simp only [step, connectionLost] at h
    split at h
    · exact h
    · simp only [World.setSide] at h
      split at h <;> (subst_vars; exact h)
  | lock a =>
    intro h
    left
    simp only [step, World.setSide] at h
    split at h <;> (subst_vars; exact h)

theorem sent_key (ops : List Op) : (∀ s, ∀ q ∈ (run ops).chan s, Dict.has q ANSWER = true ∨ Dict.has q ERROR = true ∨ Sent ops (run ops) s q) ∧
    ∀ s, ∀ q ∈ ((run ops).side s).handled, Sent ops (run ops) (!s) q := by
    induction ops using List.reverseRecOn with
    | nil => exact ⟨fun s q h => by (cases h), fun s q h => by (cases h)⟩
    | append_singleton ops op ih =>
      rw [run_snoc]
      refine ⟨fun s q h => ?_, fun s q h => ?_⟩
      · rcases chan_step _ op s q h with h | h | h | h
        · rcases ih.1 s q h with h | h | h
          · exact .inl h
          · exact .inr (.inl h)
          · exact .inr (.inr (h.mono op))
        · exact .inl h
        · exact .inr (.inl h)
        · obtain ⟨c, b, ⟨h1, h2⟩ | ⟨h1, h2⟩⟩ := h
          · exact .inr (.inr ⟨c, b, .inl ⟨List.mem_append_right _ h1, h2⟩⟩)
          · exact .inr (.inr ⟨c, b, .inr ⟨List.mem_append_right _ h1, h2⟩⟩)
      · rcases handled_step _ op s q h with h | ⟨h, h1, h2⟩
        · exact (ih.2 s q h).mono op
        · rcases ih.1 (!s) q h with h | h | h
          · rw [h1] at h; cases h
          · rw [h2] at h; cases h
          · exact h.mono op

/-- C25/C94: what a handler gets is a box the peer sent for a command. -/
theorem handled_sent (ops : List Op) (s : Bool) : ∀ q ∈ ((run ops).side s).handled, Sent ops (run ops) (!s) q :=
  (sent_key ops).2 s

end Verif.JuiceRpc
