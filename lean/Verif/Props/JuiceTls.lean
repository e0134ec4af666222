import Verif.Model.JuiceTls
/-!
# C34: nothing is sent in the clear while TLS is being negotiated
-/
namespace Verif.JuiceTls
open Verif.Py

variable {Box : Type}

/-- The boxes given to `sendPacket` from outside, in order. -/
def sent : List (Op Box) → List Box
  | [] => []
  | .send b :: r => b :: sent r
  | .sendTls b :: r => b :: sent r
  | _ :: r => sent r

/-- The boxes written, in order. -/
def written : List (Ev Box) → List Box
  | [] => []
  | .write b :: r => b :: written r
  | .tls :: r => written r

theorem written_append (a b : List (Ev Box)) : written (a ++ b) = written a ++ written b := by
  induction a with
  | nil => rfl
  | cons e a ih => cases e <;> simp [written, ih]

theorem written_map (l : List Box) : written (l.map .write) = l := by
  induction l with
  | nil => rfl
  | cons b l ih => simp [written, ih]

theorem sent_append (a b : List (Op Box)) : sent (a ++ b) = sent a ++ sent b := by
  induction a with
  | nil => rfl
  | cons e a ih => cases e <;> simp [sent, ih]

theorem run_append (ser : Box → Option PyErr) (st : St Box) (a b : List (Op Box)) :
    run ser st (a ++ b) = run ser (run ser st a) b := List.foldl_append

/-- On an unlocked connection that is not buffering, `flush` writes everything that can be serialised. -/
theorem flush_ok (ser : Box → Option PyErr) (l : List Box) (hs : ∀ b ∈ l, ser b = none) (st : St Box)
    (hl : st.locked = false) (hb : st.buffer = none) :
    flush ser st l = { st with wire := st.wire ++ l.map .write } := by
  induction l generalizing st with
  | nil => simp [flush]
  | cons b l ih =>
    have h1 : sendPacket ser st b = (true, { st with wire := st.wire ++ [.write b] }) := by
      simp [sendPacket, hl, hb, hs b (by simp)]
    rw [flush, h1]
    simp only
    rw [ih (fun b hb => hs b (by simp [hb])) _ (by exact hl) (by exact hb)]
    simp

/-- C34, what the transport sees: any sends, `prepareTLS`, any sends, `startTLS`, any sends.  The boxes sent in between
are written after TLS has started, in the order sent, each once, before the later ones.

Missing (see the `_fails` theorems): a second `prepareTLS`, boxes that cannot be serialised. -/
theorem tls_partial (ser : Box → Option PyErr) (pre mid post : List Box)
    (hs : ∀ b ∈ pre ++ mid ++ post, ser b = none) :
    run ser St.new (pre.map .send ++ [.prepare] ++ mid.map .send ++ [.start] ++ post.map .send) =
      { St.new with certified := true, wire := pre.map .write ++ [.tls] ++ mid.map .write ++ post.map .write } := by
  have hclear : ∀ (l : List Box), (∀ b ∈ l, ser b = none) → ∀ st : St Box, st.locked = false → st.buffer = none →
      run ser st (l.map .send) = { st with wire := st.wire ++ l.map .write } := by
    intro l
    induction l with
    | nil => intro _ st _ _; simp [run]
    | cons b l ih =>
      intro hs st hl hb
      have h1 : step ser st (.send b) = { st with wire := st.wire ++ [.write b] } := by
        simp [step, sendPacket, hl, hb, hs b (by simp)]
      show run ser (step ser st (.send b)) (l.map .send) = _
      rw [h1, ih (fun b hb => hs b (by simp [hb])) _ (by exact hl) (by exact hb)]
      simp
  have hbuf : ∀ (l : List Box) (st : St Box) (l0 : List Box), st.locked = false → st.buffer = some l0 →
      run ser st (l.map .send) = { st with buffer := some (l0 ++ l) } := by
    intro l
    induction l with
    | nil => intro st l0 _ hb; simp [run]; rw [← hb]
    | cons b l ih =>
      intro st l0 hl hb
      have h1 : step ser st (.send b) = { st with buffer := some (l0 ++ [b]) } := by
        simp [step, sendPacket, hl, hb]
      show run ser (step ser st (.send b)) (l.map .send) = _
      rw [h1, ih _ (l0 ++ [b]) (by exact hl) rfl]
      simp
  rw [run_append, run_append, run_append, run_append]
  rw [hclear pre (fun b hb => hs b (by simp [hb])) _ rfl rfl]
  show run ser (run ser (run ser (step ser _ .prepare) _) _) _ = _
  rw [step, hbuf mid _ [] rfl rfl]
  rw [show ∀ st : St Box, run ser st [.start] = startTLS ser st from fun _ => rfl, startTLS, if_neg (by simp [St.new])]
  simp only [List.nil_append]
  rw [flush_ok ser mid (fun b hb => hs b (by simp [hb])) _ rfl rfl,
    hclear post (fun b hb => hs b (by simp [hb])) _ rfl rfl]
  simp [St.new]

/-- C34, any history: while the connection is between `prepareTLS` and `startTLS`, nothing whatever is written. -/
theorem nothing_in_the_clear (ser : Box → Option PyErr) (st : St Box) (ops : List (Op Box))
    (h : ∀ op ∈ ops, op ≠ .start ∧ ∀ b, op ≠ .sendTls b) :
    (run ser st (.prepare :: ops)).wire = st.wire := by
  have key : ∀ (ops : List (Op Box)), (∀ op ∈ ops, op ≠ .start ∧ ∀ b, op ≠ .sendTls b) → ∀ st : St Box,
      st.buffer ≠ none → (run ser st ops).wire = st.wire := by
    intro ops
    induction ops with
    | nil => intro _ st _; rfl
    | cons op ops ih =>
      intro h st hb
      have ht := fun st hb => ih (fun op hm => h op (by simp [hm])) st hb
      show (run ser (step ser st op) ops).wire = _
      cases op with
      | start => exact absurd rfl (h .start (by simp)).1
      | sendTls b => exact absurd rfl ((h (.sendTls b) (by simp)).2 b)
      | prepare => rw [ht _ (by simp [step])]; rfl
      | lock => rw [ht _ (by simpa [step] using hb)]; rfl
      | send b =>
        simp only [step, sendPacket]
        split
        · rw [ht _ (by simpa using hb)]
        · cases hbf : st.buffer with
          | none => exact absurd hbf hb
          | some l => simp only; rw [ht _ (by simp)]
  show (run ser (step ser st .prepare) ops).wire = _
  rw [key ops h _ (by simp [step])]; rfl

/-- C34, any history without locking in which every box can be serialised and `prepareTLS` is not called while boxes
are waiting: the boxes written, followed by those waiting, are the boxes sent, in order — none lost, none twice. -/
theorem fifo_partial (ser : Box → Option PyErr) (hs : ∀ b, ser b = none) (ops : List (Op Box)) (hl : .lock ∉ ops)
    (hp : ∀ pre post, ops = pre ++ .prepare :: post → (run ser St.new pre).buffer.getD [] = []) :
    written (run ser St.new ops).wire ++ (run ser St.new ops).buffer.getD [] = sent ops := by
  have send : ∀ (st : St Box) (b : Box), st.locked = false → (sendPacket ser st b).1 = true ∧
      (sendPacket ser st b).2.locked = false ∧
      (sendPacket ser st b).2.certified = st.certified ∧
      written (sendPacket ser st b).2.wire ++ (sendPacket ser st b).2.buffer.getD [] =
        written st.wire ++ st.buffer.getD [] ++ [b] := by
    intro st b hl
    cases hb : st.buffer with
    | none => simp [sendPacket, hl, hb, hs, written_append, written]
    | some l => simp [sendPacket, hl, hb]
  have start : ∀ st : St Box, st.locked = false → (startTLS ser st).locked = false ∧
      written (startTLS ser st).wire ++ (startTLS ser st).buffer.getD [] = written st.wire ++ st.buffer.getD [] := by
    intro st hl
    unfold startTLS
    split
    · exact ⟨hl, rfl⟩
    · cases hb : st.buffer with
      | none => simp [hl, hb, written_append, written]
      | some l =>
        simp only [hb]
        rw [flush_ok ser l (fun b _ => hs b) _ (by exact hl) rfl]
        simp [hl, written_append, written, written_map]
  have key : ∀ n, ∀ ops : List (Op Box), ops.length = n → .lock ∉ ops →
      (∀ pre post, ops = pre ++ .prepare :: post → (run ser St.new pre).buffer.getD [] = []) →
      (run ser St.new ops).locked = false ∧
      written (run ser St.new ops).wire ++ (run ser St.new ops).buffer.getD [] = sent ops := by
    intro n
    induction n with
    | zero => intro ops hn _ _; rw [List.length_eq_zero_iff] at hn; subst hn; exact ⟨rfl, rfl⟩
    | succ n ih =>
      intro ops hn hl hp
      obtain ⟨ops', op, rfl⟩ : ∃ o p, ops = o ++ [p] := by
        refine ⟨ops.dropLast, ops.getLast (by intro e; simp [e] at hn), ?_⟩
        exact (List.dropLast_concat_getLast _).symm
      have hl' : .lock ∉ ops' := fun h => hl (by simp [h])
      obtain ⟨i1, i2⟩ := ih ops' (by simpa using hn) hl'
        (fun pre post e => hp pre (post ++ [op]) (by rw [e]; simp))
      have hr : run ser St.new (ops' ++ [op]) = step ser (run ser St.new ops') op := by rw [run_append]; rfl
      rw [hr, sent_append]
      cases op with
      | send b =>
        obtain ⟨s1, s2, -, s3⟩ := send (run ser St.new ops') b i1
        exact ⟨s2, by rw [step, s3, i2]; rfl⟩
      | prepare =>
        have := hp ops' [] rfl
        rw [this] at i2
        simp only [step]
        exact ⟨i1, by simpa [sent] using i2⟩
      | start =>
        obtain ⟨s1, s2⟩ := start (run ser St.new ops') i1
        exact ⟨s1, by rw [step, s2, i2]; simp [sent]⟩
      | lock => simp at hl
      | sendTls b =>
        obtain ⟨s1, s2, -, s3⟩ := send (run ser St.new ops') b i1
        simp only [step]
        rcases hsp : sendPacket ser (run ser St.new ops') b with ⟨r, st'⟩
        rw [hsp] at s1 s2 s3
        simp only at s1 s2 s3
        subst s1
        obtain ⟨t1, t2⟩ := start st' s2
        exact ⟨t1, by simp only; rw [t2, s3, i2]; rfl⟩
  exact (key _ ops rfl hl hp).2

/-- C34: in particular when `prepareTLS` is called at most once. -/
theorem fifo_once_partial (ser : Box → Option PyErr) (hs : ∀ b, ser b = none) (pre post : List (Op Box))
    (h1 : .lock ∉ pre) (h2 : .lock ∉ post) (h3 : .prepare ∉ pre) (h4 : .prepare ∉ post) :
    written (run ser St.new (pre ++ .prepare :: post)).wire ++
      (run ser St.new (pre ++ .prepare :: post)).buffer.getD [] = sent pre ++ sent post := by
  have hbuf : ∀ (ops : List (Op Box)) (st : St Box), .prepare ∉ ops → st.buffer = none → (run ser st ops).buffer = none := by
    intro ops
    induction ops with
    | nil => intro st _ hb; exact hb
    | cons op ops ih =>
      intro st hp hb
      show (run ser (step ser st op) ops).buffer = none
      apply ih _ (fun h => hp (by simp [h]))
      have hsp : ∀ st : St Box, st.buffer = none → ∀ b, (sendPacket ser st b).2.buffer = none := by
        intro st hb b
        simp only [sendPacket, hb, hs]; split <;> rfl
      have hst : ∀ st : St Box, st.buffer = none → (startTLS ser st).buffer = none := by
        intro st hb
        unfold startTLS
        split
        · exact hb
        · simp [hb]
      cases op with
      | send b => exact hsp st hb b
      | prepare => simp at hp
      | start => exact hst st hb
      | lock => exact hb
      | sendTls b =>
        simp only [step]
        have := hsp st hb b
        rcases hh : sendPacket ser st b with ⟨r, st'⟩
        rw [hh] at this
        cases r with
        | true => exact hst st' this
        | false => exact this
  have := fifo_partial ser hs (pre ++ .prepare :: post) (by simp [h1, h2]) ?_
  · rw [this, sent_append]; rfl
  · intro a b e
    have hab : a = pre := by
      have : ∀ (a pre b post : List (Op Box)), pre ++ .prepare :: post = a ++ .prepare :: b →
          .prepare ∉ pre → .prepare ∉ post → a = pre := by
        intro a
        induction a with
        | nil =>
          intro pre b post e h3 h4
          cases pre with
          | nil => rfl
          | cons p pre => simp at e; simp [e.1] at h3
        | cons x a ih =>
          intro pre b post e h3 h4
          cases pre with
          | nil =>
            simp at e
            exfalso; apply h4; rw [e.2]; simp
          | cons p pre =>
            simp at e
            rw [ih pre b post e.2 (fun h => h3 (by simp [h])) h4, e.1]
      exact this a pre b post e h3 h4
    rw [hab, hbuf pre St.new h3 rfl]; rfl

/-- C34: `startTLS`, the first time, leaves nothing waiting. -/
theorem start_empties (ser : Box → Option PyErr) (hs : ∀ b, ser b = none) (st : St Box) (hc : st.certified = false)
    (hl : st.locked = false) : (step ser st .start).buffer = none ∧
      (step ser st .start).wire = st.wire ++ [.tls] ++ (st.buffer.getD []).map .write := by
  simp only [step, startTLS, hc, Bool.false_eq_true, if_false]
  cases hb : st.buffer with
  | none => simp
  | some l =>
    simp only
    rw [flush_ok ser l (fun b _ => hs b) _ (by exact hl) rfl]
    simp

/-! ### Where C34 is false of the code -/

def noErr : Nat → Option PyErr := fun _ => none

/-- A second `prepareTLS` throws the waiting boxes away. -/
theorem prepare_twice_fails : (run noErr St.new [.prepare, .send 1, .prepare, .send 2, .start]).wire = [.tls, .write 2] := by
  decide

/-- After TLS has been started once, `prepareTLS` blocks the connection for good: whatever is done, nothing is ever
written again. -/
theorem prepare_after_tls_fails (ser : Box → Option PyErr) (st : St Box) (hc : st.certified = true) (ops : List (Op Box)) :
    (run ser st (.prepare :: ops)).wire = st.wire := by
  have key : ∀ (ops : List (Op Box)) (st : St Box), st.certified = true → st.buffer ≠ none →
      (run ser st ops).wire = st.wire := by
    intro ops
    induction ops with
    | nil => intro st _ _; rfl
    | cons op ops ih =>
      intro st hc hb
      have hsp : ∀ b, (sendPacket ser st b).2.wire = st.wire ∧ (sendPacket ser st b).2.certified = true ∧
          (sendPacket ser st b).2.buffer ≠ none := by
        intro b
        unfold sendPacket
        split
        · exact ⟨rfl, hc, hb⟩
        · cases h : st.buffer with
          | none => exact absurd h hb
          | some l => exact ⟨rfl, hc, by simp⟩
      show (run ser (step ser st op) ops).wire = _
      cases op with
      | send b => obtain ⟨a1, a2, a3⟩ := hsp b; rw [step, ih _ a2 a3, a1]
      | prepare => rw [step, ih { st with buffer := some [] } hc (by simp)]
      | start => rw [step, startTLS, if_pos hc, ih _ (by exact hc) (by exact hb)]
      | lock => rw [step, ih { st with locked := true } hc hb]
      | sendTls b =>
        obtain ⟨a1, a2, a3⟩ := hsp b
        simp only [step]
        rcases hh : sendPacket ser st b with ⟨r, st'⟩
        rw [hh] at a1 a2 a3
        cases r with
        | true => simp only at *; rw [startTLS, if_pos a2, ih _ (by exact a2) (by exact a3), a1]
        | false => simp only at *; rw [ih _ a2 a3, a1]
  show (run ser (step ser st .prepare) ops).wire = _
  rw [step, key ops { st with buffer := some [] } hc (by simp)]

/-- A box that cannot be serialised takes the ones behind it with it. -/
theorem unserialisable_fails :
    run (fun b : Nat => if b = 1 then some .unicodeError else none) St.new [.prepare, .send 1, .send 2, .start] =
      ⟨none, true, false, [.tls], [.unicodeError]⟩ := by decide

/-- A locked connection sends nothing, and a `TLSBox` that could not be sent does not start TLS. -/
theorem locked_sends_nothing (ser : Box → Option PyErr) (st : St Box) (h : st.locked = true) (b : Box) :
    step ser st (.send b) = { st with raised := st.raised ++ [.assertionError] } ∧
    step ser st (.sendTls b) = { st with raised := st.raised ++ [.assertionError] } := by
  simp [step, sendPacket, h]

/-- If the side that answers with a `TLSBox` has itself called `prepareTLS`, its answer waits for the TLS session that
it was meant to announce. -/
theorem tlsbox_delayed_fails : (run noErr St.new [.prepare, .sendTls 1]).wire = [.tls, .write 1] := by decide

example : (run noErr St.new ([1, 2].map .send ++ [.prepare] ++ [3, 4].map .send ++ [.start] ++ [5].map .send)).wire =
    [.write 1, .write 2, .tls, .write 3, .write 4, .write 5] := by
  rw [tls_partial noErr [1, 2] [3, 4] [5] (by simp [noErr])]; rfl

example : written (run noErr St.new [.send 1, .prepare, .send 2, .send 3, .start, .send 4]).wire ++ [] = [1, 2, 3, 4] := by
  have := fifo_once_partial noErr (fun _ => rfl) [.send 1] [.send 2, .send 3, .start, .send 4]
    (by simp) (by simp) (by simp) (by simp)
  exact this

end Verif.JuiceTls
