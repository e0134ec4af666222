import Verif.Lemmas.JuiceWire
/-!
# Evaluating the juice parser on concrete input

`dataReceived` is defined by well-founded recursion and does not reduce in the kernel.  `goF` is the same
function with fuel; it is only used to establish the concrete cases shown beside the theorems.
-/
namespace Verif.Juice
open Verif.Py

variable {A : Type} (U : Uni) (H : A → Box → Outcome A)

def goF : Nat → St A → Bytes → Option (St A × Option PyErr)
  | 0, _, _ => none
  | n + 1, st, buf =>
    if st.lineMode then
      match findDelim buf with
      | none => some ({ st with buffer := buf }, none)
      | some (line, rest) =>
        match lineReceived U H st line with
        | (st1, some e) => some (st1, some e)
        | (st1, none) => if st1.disconnecting then some (st1, none) else goF n st1 rest
    else if st.disconnecting then some (st, none)
    else if buf = [] then some (st, none)
    else if st.inner then some ({ st with trace := st.trace ++ buf.map .inner }, none)
    else
      let p := bodySplit st.bodyRemaining buf
      let st1 := { st with bodyRemaining := max p.1 0, bodyBuf := st.bodyBuf ++ p.2.1 }
      if p.1 ≤ 0 then
        match ensureStr st1.bodyBuf with
        | .error e => some (st1, some e)
        | .ok text =>
          match handle H { st1 with bodyBuf := [], pending := [] } (Dict.set st1.pending BODY text) with
          | (st2, some e) => some (st2, some e)
          | (st2, none) =>
            if st2.inner then some ({ st2 with trace := st2.trace ++ [.connect] ++ p.2.2.map .inner }, none)
            else if p.2.2 = [] then some ({ st2 with lineMode := true }, none)
            else goF n { st2 with lineMode := true } p.2.2
      else some (st1, none)

theorem goF_eq (n : Nat) (st : St A) (buf : Bytes) (r : St A × Option PyErr) (hb : st.buffer = [])
    (h : goF U H n st buf = some r) : go U H st buf = r := by
  induction n generalizing st buf with
  | zero => cases h
  | succ n ih =>
    rw [goF] at h
    split at h
    · rename_i hl
      split at h
      · rename_i hf
        cases h; exact go_line_none U H st buf hl hf
      · rename_i line rest hf
        have hkeep := lineReceived_keeps_buffer U H st line
        rw [go_line_some U H st buf line rest hl hf hb]
        split at h
        · rename_i heq; rw [heq]; cases h; rfl
        · rename_i st1 heq
          rw [heq] at hkeep ⊢
          simp only [hb] at hkeep
          simp only [andThen]
          split at h
          · rename_i hd; rw [if_pos hd]; cases h; rfl
          · rename_i hd; rw [if_neg hd]; exact ih st1 rest hkeep h
    · rename_i hl
      rw [go_raw U H st buf (by simpa using hl) hb]
      split at h
      · rename_i hd; rw [if_pos hd]; cases h; rfl
      · rename_i hd
        rw [if_neg hd]
        split at h
        · rename_i hx; rw [if_pos hx]; cases h; rfl
        · rename_i hx
          rw [if_neg hx, rawGo_eq U H st buf hb]
          split at h
          · rename_i hi; rw [if_pos hi]; cases h; rfl
          · rename_i hi
            rw [if_neg hi]
            dsimp only at h ⊢
            split at h
            · rename_i h0
              rw [if_pos h0]
              unfold finishBody
              dsimp only
              split at h
              · rename_i heq; rw [heq]; cases h; rfl
              · rename_i text heq
                rw [heq]
                dsimp only
                have hkeep := handle_keeps_buffer H { st with
                  bodyRemaining := max (bodySplit st.bodyRemaining buf).1 0, bodyBuf := [], pending := [] }
                  (Dict.set st.pending BODY text)
                split at h
                · rename_i heq2; rw [heq2]; cases h; rfl
                · rename_i st2 heq2
                  rw [heq2] at hkeep ⊢
                  dsimp only at hkeep ⊢
                  split at h
                  · rename_i hi2; rw [if_pos hi2]; cases h; rfl
                  · rename_i hi2
                    rw [if_neg hi2]
                    split at h
                    · rename_i hx2; rw [if_pos hx2]; cases h; rfl
                    · rename_i hx2; rw [if_neg hx2]
                      exact ih _ _ (by rw [← hb]; exact hkeep) h
            · rename_i h0; rw [if_neg h0]; cases h; rfl

/-- `feed` with fuel. -/
def feedF (n : Nat) (st : St A) : List Bytes → Option (St A × Option PyErr)
  | [] => some (st, none)
  | c :: cs =>
    match goF U H n { st with buffer := [] } (st.buffer ++ c) with
    | none => none
    | some (st, some e) => some (st, some e)
    | some (st, none) => if st.disconnecting then some (st, none) else feedF n st cs

theorem feedF_eq (n : Nat) (st : St A) (cs : List Bytes) (r : St A × Option PyErr)
    (h : feedF U H n st cs = some r) : norm (feed U H st cs) = r := by
  induction cs generalizing st with
  | nil => cases h; rfl
  | cons c cs ih =>
    rw [feedF] at h
    have e2 := dataReceived_go U H st c
    unfold feed
    split at h
    · cases h
    · rename_i st1 e heq
      have := goF_eq U H n _ _ _ (by rfl) heq
      have hg : go U H st (st.buffer ++ c) = (st1, some e) := this
      rw [hg] at e2
      cases h
      rcases hdr : dataReceived U H st c with ⟨st2, _ | e'⟩
      · rw [hdr] at e2; cases e2
      · rw [hdr] at e2; exact e2
    · rename_i st1 heq
      have := goF_eq U H n _ _ _ (by rfl) heq
      have hg : go U H st (st.buffer ++ c) = (st1, none) := this
      rw [hg] at e2
      rcases hdr : dataReceived U H st c with ⟨st2, _ | e'⟩
      · rw [hdr] at e2
        cases e2
        simp only
        split at h
        · rename_i hd; rw [if_pos hd]; cases h; rfl
        · rename_i hd; rw [if_neg hd]; exact ih st1 h
      · rw [hdr] at e2; cases e2

/-- What a run shows: the events and the exception. -/
def shown (r : St A × Option PyErr) : List Event × Option PyErr := (r.1.trace, r.2)

theorem shown_norm (r : St A × Option PyErr) : shown (norm r) = shown r := by
  obtain ⟨st, _ | e⟩ := r <;> rfl

theorem shown_feed (n : Nat) (st : St A) (cs : List Bytes) (x : List Event × Option PyErr)
    (h : (feedF U H n st cs).map shown = some x) : shown (feed U H st cs) = x := by
  cases hf : feedF U H n st cs with
  | none => rw [hf] at h; cases h
  | some r =>
    rw [hf] at h
    rw [← shown_norm, feedF_eq U H n st cs r hf]
    simpa using h

end Verif.Juice
