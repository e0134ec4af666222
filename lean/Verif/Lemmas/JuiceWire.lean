import Verif.Model.JuiceWire
import Mathlib.Tactic.ByContra
/-!
# Lemmas about the juice parser: feeding data in two pieces is the same as feeding it at once
-/
namespace Verif.Juice
open Verif.Py

variable {A : Type} (U : Uni) (H : A → Box → Outcome A)

/-- After an exception the contents of `buffer` are irrelevant: forget them. -/
def norm (r : St A × Option PyErr) : St A × Option PyErr :=
  match r with
  | (st, none) => (st, none)
  | (st, some e) => ({ st with buffer := [] }, some e)

theorem handle_buffer (st : St A) (box : Box) (b : Bytes) :
    handle H { st with buffer := b } box =
      ({ (handle H st box).1 with buffer := b }, (handle H st box).2) := by
  simp only [handle]
  split <;> rfl

theorem handle_keeps_buffer (st : St A) (box : Box) : (handle H st box).1.buffer = st.buffer := by
  simp only [handle]
  split <;> rfl

theorem lineReceived_buffer (st : St A) (line b : Bytes) :
    lineReceived U H { st with buffer := b } line =
      ({ (lineReceived U H st line).1 with buffer := b }, (lineReceived U H st line).2) := by
  unfold lineReceived
  split
  · rfl
  · simp only
    split
    · rfl
    · split
      · rfl
      · rename_i b' _ _
        exact handle_buffer H { st with reqBuf := [] } b' b

theorem lineReceived_keeps_buffer (st : St A) (line : Bytes) :
    (lineReceived U H st line).1.buffer = st.buffer := by
  unfold lineReceived
  split
  · rfl
  · simp only
    split
    · rfl
    · split
      · rfl
      · exact handle_keeps_buffer H _ _

theorem lineLoop_raw (st : St A) (buf : Bytes) (hl : st.lineMode = false) :
    lineLoop U H st buf = (st, buf, .raw) := by
  rw [lineLoop, if_neg (by simp [hl])]

theorem lineLoop_none (st : St A) (buf : Bytes) (hl : st.lineMode = true) (hf : findDelim buf = none) :
    lineLoop U H st buf = (st, buf, .more) := by
  rw [lineLoop, if_pos hl]
  split
  · rfl
  · rename_i h; rw [hf] at h; cases h

/-- The rest of the loop after a line has been handled. -/
def afterLine (st1 : St A) (rest : Bytes) : Option PyErr → St A × Bytes × Ended
  | some e => (st1, rest, .err e)
  | none => if st1.disconnecting then (st1, rest, .disconnecting) else lineLoop U H st1 rest

theorem lineLoop_some (st : St A) (buf line rest : Bytes) (hl : st.lineMode = true)
    (hf : findDelim buf = some (line, rest)) (st1 : St A) (e : Option PyErr)
    (hr : lineReceived U H st line = (st1, e)) :
    lineLoop U H st buf = afterLine U H st1 rest e := by
  rw [lineLoop, if_pos hl]
  split
  · rename_i h; rw [hf] at h; cases h
  · rename_i l r h
    rw [hf] at h; cases h
    rw [hr]
    cases e <;> rfl

theorem lineLoop_buffer (st : St A) (buf b : Bytes) :
    lineLoop U H { st with buffer := b } buf =
      ({ (lineLoop U H st buf).1 with buffer := b }, (lineLoop U H st buf).2) := by
  induction hn : buf.length using Nat.strongRecOn generalizing st buf with
  | ind n ih =>
    subst hn
    by_cases hl : st.lineMode = true
    · cases hf : findDelim buf with
      | none => rw [lineLoop_none U H st buf hl hf, lineLoop_none U H { st with buffer := b } buf hl hf]
      | some p =>
        obtain ⟨line, rest⟩ := p
        have hlen := findDelim_length hf
        rcases hlr : lineReceived U H st line with ⟨st1, e⟩
        have h2 := lineReceived_buffer U H st line b
        rw [hlr] at h2
        rw [lineLoop_some U H st buf line rest hl hf st1 e hlr,
          lineLoop_some U H { st with buffer := b } buf line rest hl hf _ _ h2]
        cases e with
        | some e => rfl
        | none =>
          simp only [afterLine]
          split
          · rfl
          · exact ih rest.length (by omega) st1 rest rfl
    · have hl : st.lineMode = false := by simpa using hl
      rw [lineLoop_raw U H st buf hl, lineLoop_raw U H { st with buffer := b } buf hl]

theorem lineLoop_keeps_buffer (st : St A) (buf : Bytes) : (lineLoop U H st buf).1.buffer = st.buffer := by
  have := lineLoop_buffer U H st buf st.buffer
  have h : ({ st with buffer := st.buffer } : St A) = st := rfl
  rw [h] at this
  rw [this]

/-- The rest of `dataReceived` after the loop. -/
def afterLoop (st' : St A) (rest : Bytes) : Ended → St A × Option PyErr
  | .err e => (st', some e)
  | .disconnecting => ({ st' with buffer := [] }, none)
  | .more => ({ st' with buffer := rest }, none)
  | .raw =>
    if st'.disconnecting then ({ st' with buffer := [] }, none)
    else if rest = [] then ({ st' with buffer := [] }, none)
    else rawDataReceived U H { st' with buffer := [] } rest

/-- `dataReceived` by how the loop ended. -/
theorem dataReceived_eq (st : St A) (d : Bytes) (st' : St A) (rest : Bytes) (e : Ended)
    (h : lineLoop U H st (st.buffer ++ d) = (st', rest, e)) :
    dataReceived U H st d = afterLoop U H st' rest e := by
  rw [dataReceived]
  split
  all_goals
    rename_i h'
    rw [h] at h'
    cases h'
    rfl

/-- `dataReceived` as a function of the pending bytes only. -/
def go (st : St A) (buf : Bytes) : St A × Option PyErr := norm (dataReceived U H { st with buffer := [] } buf)

def rawGo (st : St A) (data : Bytes) : St A × Option PyErr := norm (rawDataReceived U H { st with buffer := [] } data)

theorem norm_norm (r : St A × Option PyErr) : norm (norm r) = norm r := by
  obtain ⟨st, _ | e⟩ := r <;> rfl

theorem dataReceived_go (st : St A) (d : Bytes) :
    norm (dataReceived U H st d) = go U H st (st.buffer ++ d) := by
  unfold go
  rcases hl : lineLoop U H st (st.buffer ++ d) with ⟨st', rest, e⟩
  have h2 := lineLoop_buffer U H st (st.buffer ++ d) []
  rw [hl] at h2
  rw [dataReceived_eq U H st d _ _ _ hl, dataReceived_eq U H { st with buffer := [] } (st.buffer ++ d) _ _ _ h2]
  cases e <;> rfl

theorem setBuf_nil {st : St A} (hb : st.buffer = []) : ({ st with buffer := [] } : St A) = st := by
  cases st; simp_all

theorem go_line_none (st : St A) (buf : Bytes) (hl : st.lineMode = true) (hf : findDelim buf = none) :
    go U H st buf = ({ st with buffer := buf }, none) := by
  unfold go
  rw [dataReceived_eq U H { st with buffer := [] } buf _ _ _
    (lineLoop_none U H { st with buffer := [] } buf hl hf)]
  rfl

/-- Go on with `f` unless an exception escaped or the connection is being closed. -/
def andThen (r : St A × Option PyErr) (f : St A → St A × Option PyErr) : St A × Option PyErr :=
  match r with
  | (st, some e) => (st, some e)
  | (st, none) => if st.disconnecting then (st, none) else f st

theorem go_line_some (st : St A) (buf line rest : Bytes) (hl : st.lineMode = true)
    (hf : findDelim buf = some (line, rest)) (hb : st.buffer = []) :
    go U H st buf = andThen (lineReceived U H st line) (fun st1 => go U H st1 rest) := by
  rcases hlr : lineReceived U H st line with ⟨st1, e⟩
  have hkeep := lineReceived_keeps_buffer U H st line
  rw [hlr] at hkeep
  simp only [hb] at hkeep
  unfold go
  rw [setBuf_nil hb]
  have hbuf : st.buffer ++ buf = buf := by rw [hb]; rfl
  have hstep := lineLoop_some U H st buf line rest hl hf st1 e hlr
  cases e with
  | some e =>
    rw [dataReceived_eq U H st buf st1 rest (.err e) (by rw [hbuf]; exact hstep)]
    simp only [norm, afterLoop, andThen, setBuf_nil hkeep]
  | none =>
    simp only [afterLine, andThen] at hstep ⊢
    by_cases hd : st1.disconnecting = true
    · rw [if_pos hd] at hstep ⊢
      rw [dataReceived_eq U H st buf st1 rest .disconnecting (by rw [hbuf]; exact hstep)]
      simp only [norm, afterLoop, setBuf_nil hkeep]
    · rw [if_neg hd] at hstep ⊢
      rw [setBuf_nil hkeep]
      rcases hl2 : lineLoop U H st1 rest with ⟨st2, rest2, e2⟩
      rw [hl2] at hstep
      rw [dataReceived_eq U H st buf st2 rest2 e2 (by rw [hbuf]; exact hstep),
        dataReceived_eq U H st1 rest st2 rest2 e2 (by rw [hkeep]; exact hl2)]

theorem go_raw (st : St A) (buf : Bytes) (hl : st.lineMode = false) (hb : st.buffer = []) :
    go U H st buf = if st.disconnecting then (st, none) else if buf = [] then (st, none) else rawGo U H st buf := by
  unfold go rawGo
  rw [setBuf_nil hb, dataReceived_eq U H st buf st buf .raw (by rw [hb]; exact lineLoop_raw U H st buf hl)]
  simp only [afterLoop, setBuf_nil hb]
  split
  · rfl
  · split <;> rfl

theorem norm_of_buffer {r : St A × Option PyErr} (h : r.1.buffer = []) : norm r = r := by
  obtain ⟨⟨_, _, _, _, _, _, _, _, _, _⟩, _ | e⟩ := r
  · rfl
  · simp only at h; subst h; rfl

/-- What `rawDataReceived` does once the body is complete. -/
def finishBody (st : St A) (extra : Bytes) : St A × Option PyErr :=
  match ensureStr st.bodyBuf with
  | .error e => (st, some e)
  | .ok text =>
    match handle H { st with bodyBuf := [], pending := [] } (Dict.set st.pending BODY text) with
    | (st, some e) => (st, some e)
    | (st, none) =>
      if st.inner then ({ st with trace := st.trace ++ [.connect] ++ extra.map .inner }, none)
      else if extra = [] then ({ st with lineMode := true }, none)
      else go U H { st with lineMode := true } extra

theorem rawGo_eq (st : St A) (data : Bytes) (hb : st.buffer = []) :
    rawGo U H st data =
      if st.inner then ({ st with trace := st.trace ++ data.map .inner }, none)
      else
        let p := bodySplit st.bodyRemaining data
        let st1 := { st with bodyRemaining := max p.1 0, bodyBuf := st.bodyBuf ++ p.2.1 }
        if p.1 ≤ 0 then finishBody U H st1 p.2.2 else (st1, none) := by
  unfold rawGo finishBody
  rw [setBuf_nil hb, rawDataReceived]
  split
  · rfl
  · simp only
    split
    · cases hes : ensureStr (st.bodyBuf ++ (bodySplit st.bodyRemaining data).2.1) with
      | error e => simp [norm, hb]
      | ok text =>
        simp only
        generalize hs2 : (St.mk st.lineMode st.buffer st.reqBuf (max (bodySplit st.bodyRemaining data).1 0) [] []
          st.inner st.disconnecting st.app st.trace) = st2
        have hkeep := handle_keeps_buffer H st2 (Dict.set st.pending BODY text)
        have hb2 : st2.buffer = [] := by rw [← hs2]; exact hb
        rw [hb2] at hkeep
        rcases hh : handle H st2 (Dict.set st.pending BODY text) with ⟨st1, _ | e⟩
        · rw [hh] at hkeep
          simp only
          split
          · split
            · rename_i hx; simp [hx, norm]
            · simp [norm]
          · split
            · rfl
            · rfl
        · rw [hh] at hkeep
          exact norm_of_buffer hkeep
    · rfl

/-! ## Python slicing in `rawDataReceived` -/

theorem bodySplit_spec (r : Int) (x : Bytes) :
    bodySplit r x = (r - x.length,
      if r - x.length < 0 then x.take r.toNat else x, if r - x.length < 0 then x.drop r.toNat else []) := by
  unfold bodySplit
  simp only
  split
  · have : x.length - min (-(r - (x.length : Int))).toNat x.length = r.toNat := by omega
    rw [this]
  · rfl

/-! ## Well-formed states -/

/-- The states between deliveries: in line mode the buffer holds an incomplete line, in raw mode nothing. -/
def Ready (st : St A) : Prop :=
  (st.lineMode = true → findDelim st.buffer = none) ∧ (st.lineMode = false → st.buffer = [])

/-- A handler that does not disconnect while handling a box with a body. -/
def NoBodyDisconnect : Prop := ∀ a b, Dict.has b BODY = true → (H a b).disconnect = false

theorem findDelim_append (x y l r : Bytes) (h : findDelim x = some (l, r)) :
    findDelim (x ++ y) = some (l, r ++ y) := by
  induction x generalizing l with
  | nil => simp [findDelim] at h
  | cons c x ih =>
    unfold findDelim at h
    split at h
    · cases h
    · rename_i heq; cases heq; cases h; simp [findDelim]
    · rename_i hne heq
      cases heq
      cases hf : findDelim x with
      | none => rw [hf] at h; cases h
      | some p =>
        obtain ⟨a, b⟩ := p
        rw [hf] at h
        simp only [Option.map_some, Option.some.injEq, Prod.mk.injEq] at h
        obtain ⟨rfl, rfl⟩ := h
        have := ih a hf
        cases x with
        | nil => simp [findDelim] at hf
        | cons d x =>
          rw [List.cons_append, List.cons_append]
          unfold findDelim
          split
          · rename_i heq; cases heq
          · rename_i heq
            cases heq
            exact absurd rfl (hne x rfl)
          · rename_i heq; cases heq
            rw [← List.cons_append, this]; rfl

theorem handle_disc (st : St A) (box : Box) (h : Dict.has box BODY = true) (hno : NoBodyDisconnect H)
    (hd : st.disconnecting = false) : (handle H st box).1.disconnecting = false := by
  have := hno st.app box h
  simp only [handle, this, hd]
  split <;> rfl

theorem has_set_same (b : Box) (k v : Str) : Dict.has (Dict.set b k v) k = true := by
  unfold Dict.has; rw [Dict.get?_set_same]; rfl

theorem andThen_ok (st : St A) (f : St A → St A × Option PyErr) (hd : st.disconnecting = false) :
    andThen (st, none) f = f st := by simp [andThen, hd]

/-- In raw mode with an inner protocol every byte goes to it. -/
theorem go_inner (st : St A) (y : Bytes) (hl : st.lineMode = false) (hb : st.buffer = [])
    (hd : st.disconnecting = false) (hi : st.inner = true) :
    go U H st y = ({ st with trace := st.trace ++ y.map .inner }, none) := by
  rw [go_raw U H st y hl hb, if_neg (by simp [hd])]
  split
  · rename_i h; subst h; simp
  · rw [rawGo_eq U H st y hb, if_pos hi]

theorem go_nil (st : St A) (hd : st.disconnecting = false) (hb : st.buffer = []) : go U H st [] = (st, none) := by
  by_cases hl : st.lineMode = true
  · rw [go_line_none U H st [] hl rfl, setBuf_nil hb]
  · rw [go_raw U H st [] (by simpa using hl) hb]; simp

theorem finishBody_append (hno : NoBodyDisconnect H) (st : St A) (extra y : Bytes)
    (hd : st.disconnecting = false) (hb : st.buffer = []) (hl : st.lineMode = false)
    (ih : ∀ st' : St A, st'.disconnecting = false → st'.buffer = [] → st'.lineMode = true →
      go U H st' (extra ++ y) = andThen (go U H st' extra) (fun st'' => go U H st'' (st''.buffer ++ y))) :
    finishBody U H st (extra ++ y) =
      andThen (finishBody U H st extra) (fun st' => go U H st' (st'.buffer ++ y)) := by
  unfold finishBody
  cases hes : ensureStr st.bodyBuf with
  | error e => rfl
  | ok text =>
    simp only
    have hkeep := handle_keeps_buffer H { st with bodyBuf := [], pending := [] } (Dict.set st.pending BODY text)
    have hdisc := handle_disc H { st with bodyBuf := [], pending := [] } (Dict.set st.pending BODY text)
      (has_set_same _ _ _) hno hd
    have hlm : (handle H { st with bodyBuf := [], pending := [] } (Dict.set st.pending BODY text)).1.lineMode =
        false := by
      simp only [handle]; split <;> simp [hl]
    rcases hh : handle H { st with bodyBuf := [], pending := [] } (Dict.set st.pending BODY text) with ⟨st1, _ | e⟩
    · rw [hh] at hkeep hdisc hlm
      simp only [hb] at hkeep hdisc hlm
      simp only
      by_cases hi : st1.inner = true
      · rw [if_pos hi, if_pos hi, andThen_ok _ _ (by exact hdisc), go_inner U H _ _ (by exact hlm) (by exact hkeep)
          (by exact hdisc) (by exact hi)]
        simp [hkeep]
      · rw [if_neg hi, if_neg hi]
        by_cases hx : extra = []
        · subst hx
          rw [if_pos rfl, andThen_ok _ _ (by exact hdisc)]
          simp only [List.nil_append, hkeep]
          by_cases hy : y = []
          · subst hy
            rw [if_pos rfl, go_nil U H _ (by exact hdisc) (by rfl)]
          · rw [if_neg hy]
        · have hxy : ¬ extra ++ y = [] := by simp [hx]
          rw [if_neg hx, if_neg hxy]
          exact ih _ hdisc hkeep rfl
    · rfl

/-- **Additivity.** -/
theorem go_append (hno : NoBodyDisconnect H) (st : St A) (x y : Bytes)
    (hd : st.disconnecting = false) (hb : st.buffer = []) :
    go U H st (x ++ y) = andThen (go U H st x) (fun st' => go U H st' (st'.buffer ++ y)) := by
  induction hn : 2 * x.length + (if st.lineMode then 0 else 1) using Nat.strongRecOn generalizing st x with
  | ind n ih =>
    subst hn
    by_cases hl : st.lineMode = true
    · cases hf : findDelim x with
      | none =>
        rw [go_line_none U H st x hl hf, andThen_ok _ _ (by exact hd)]
        rfl
      | some p =>
        obtain ⟨line, rest⟩ := p
        have hlen := findDelim_length hf
        have hkeep := lineReceived_keeps_buffer U H st line
        rw [go_line_some U H st x line rest hl hf hb,
          go_line_some U H st (x ++ y) line (rest ++ y) hl (findDelim_append x y line rest hf) hb]
        rcases hlr : lineReceived U H st line with ⟨st1, e⟩
        rw [hlr] at hkeep
        simp only [hb] at hkeep
        cases e with
        | none =>
          by_cases hd1 : st1.disconnecting = true
          · simp only [andThen, hd1, if_true]
          · have hd1 : st1.disconnecting = false := by simpa using hd1
            rw [andThen_ok _ _ hd1, andThen_ok _ _ hd1]
            exact ih (2 * rest.length + (if st1.lineMode then 0 else 1)) (by split <;> simp [hl] <;> omega) st1 rest
              hd1 hkeep rfl
        | some e => rfl
    · have hl : st.lineMode = false := by simpa using hl
      by_cases hx : x = []
      · subst hx
        rw [go_nil U H st hd hb, andThen_ok _ _ hd, hb]
      · have hxy : ¬ x ++ y = [] := by simp [hx]
        have hd' : ¬ st.disconnecting = true := by simp [hd]
        rw [go_raw U H st x hl hb, go_raw U H st (x ++ y) hl hb, if_neg hd', if_neg hd', if_neg hx, if_neg hxy]
        rw [rawGo_eq U H st x hb, rawGo_eq U H st (x ++ y) hb]
        by_cases hi : st.inner = true
        · rw [if_pos hi, if_pos hi, andThen_ok _ _ (by exact hd), go_inner U H _ _ (by exact hl) (by exact hb)
            (by exact hd) (by exact hi)]
          simp [hb]
        · rw [if_neg hi, if_neg hi]
          simp only [bodySplit_spec, List.length_append, Int.natCast_add]
          by_cases h0 : st.bodyRemaining - (x.length : Int) ≤ 0
          · -- the body is complete within `x`
            have h0' : st.bodyRemaining - ((x.length : Int) + (y.length : Int)) ≤ 0 := by omega
            have hpart : st.bodyBuf ++ (if st.bodyRemaining - ((x.length : Int) + (y.length : Int)) < 0 then
                (x ++ y).take st.bodyRemaining.toNat else x ++ y) =
                st.bodyBuf ++ (if st.bodyRemaining - (x.length : Int) < 0 then
                x.take st.bodyRemaining.toNat else x) := by
              congr 1
              have hle : st.bodyRemaining.toNat ≤ x.length := by omega
              have e1 : (x ++ y).take st.bodyRemaining.toNat = x.take st.bodyRemaining.toNat :=
                List.take_append_of_le_length hle
              by_cases h1 : st.bodyRemaining - (x.length : Int) < 0
              · rw [if_pos h1, if_pos (by omega), e1]
              · rw [if_neg h1]
                have e2 : st.bodyRemaining.toNat = x.length := by omega
                split
                · rw [e1, e2, List.take_length]
                · have : y = [] := List.length_eq_zero_iff.1 (by omega)
                  rw [this, List.append_nil]
            have hextra : (if st.bodyRemaining - ((x.length : Int) + (y.length : Int)) < 0 then
                (x ++ y).drop st.bodyRemaining.toNat else []) =
                (if st.bodyRemaining - (x.length : Int) < 0 then x.drop st.bodyRemaining.toNat else []) ++ y := by
              have hle : st.bodyRemaining.toNat ≤ x.length := by omega
              have e1 : (x ++ y).drop st.bodyRemaining.toNat = x.drop st.bodyRemaining.toNat ++ y :=
                List.drop_append_of_le_length hle
              by_cases h1 : st.bodyRemaining - (x.length : Int) < 0
              · rw [if_pos h1, if_pos (by omega), e1]
              · rw [if_neg h1]
                have e2 : st.bodyRemaining.toNat = x.length := by omega
                split
                · rw [e1, e2, List.drop_length, List.nil_append]
                · have : y = [] := List.length_eq_zero_iff.1 (by omega)
                  rw [this, List.append_nil]
            have hm : max (st.bodyRemaining - ((x.length : Int) + (y.length : Int))) 0 = 0 := by omega
            have hm' : max (st.bodyRemaining - (x.length : Int)) 0 = 0 := by omega
            rw [if_pos h0, if_pos h0', hpart, hextra, hm, hm']
            apply finishBody_append U H hno
            · exact hd
            · exact hb
            · exact hl
            · intro st' h1 h2 h3
              refine ih _ ?_ st' _ h1 h2 rfl
              simp only [h3, hl, if_true, Bool.false_eq_true, if_false]
              split <;> simp <;> omega
          · have h1 : ¬ st.bodyRemaining - (x.length : Int) < 0 := by omega
            rw [if_neg h0, if_neg h1, andThen_ok _ _ (by exact hd)]
            simp only [hb, List.nil_append]
            rw [go_raw U H _ y (by exact hl) (by rfl)]
            dsimp only
            rw [if_neg hd']
            by_cases hy : y = []
            · subst hy; simp [h0, h1]
            · rw [if_neg hy, rawGo_eq U H _ y (by rfl), if_neg hi]
              have hm : max (st.bodyRemaining - (x.length : Int)) 0 = st.bodyRemaining - (x.length : Int) := by omega
              simp only [bodySplit_spec, hm, Int.sub_sub]
              have ht : st.bodyBuf ++ (if st.bodyRemaining - ((x.length : Int) + (y.length : Int)) < 0 then
                  (x ++ y).take st.bodyRemaining.toNat else x ++ y) =
                  st.bodyBuf ++ x ++ (if st.bodyRemaining - ((x.length : Int) + (y.length : Int)) < 0 then
                  y.take (st.bodyRemaining - (x.length : Int)).toNat else y) := by
                rw [List.append_assoc]; congr 1
                split
                · rw [List.take_append, List.take_of_length_le (by omega)]
                  congr 2; omega
                · rfl
              have he : (if st.bodyRemaining - ((x.length : Int) + (y.length : Int)) < 0 then
                  (x ++ y).drop st.bodyRemaining.toNat else []) =
                  (if st.bodyRemaining - ((x.length : Int) + (y.length : Int)) < 0 then
                  y.drop (st.bodyRemaining - (x.length : Int)).toNat else []) := by
                split
                · rw [List.drop_append, List.drop_of_length_le (by omega), List.nil_append]
                  congr 1; omega
                · rfl
              rw [ht, he]

/-- Deliveries leave the parser between lines (or in raw mode with nothing buffered). -/
theorem go_ready (st : St A) (x : Bytes) (st' : St A) (hb : st.buffer = [])
    (h : go U H st x = (st', none)) (hd : st'.disconnecting = false) : Ready st' := by
  induction hn : 2 * x.length + (if st.lineMode then 0 else 1) using Nat.strongRecOn generalizing st x with
  | ind n ih =>
    subst hn
    by_cases hl : st.lineMode = true
    · cases hf : findDelim x with
      | none =>
        rw [go_line_none U H st x hl hf] at h
        cases h
        exact ⟨fun _ => hf, fun h' => by rw [hl] at h'; cases h'⟩
      | some p =>
        obtain ⟨line, rest⟩ := p
        have hlen := findDelim_length hf
        have hkeep := lineReceived_keeps_buffer U H st line
        rw [go_line_some U H st x line rest hl hf hb] at h
        rcases hlr : lineReceived U H st line with ⟨st1, _ | e⟩
        · rw [hlr] at h hkeep
          simp only [hb] at hkeep
          by_cases hd1 : st1.disconnecting = true
          · simp only [andThen, hd1, if_true] at h
            cases h
            rw [hd1] at hd; cases hd
          · have hd1 : st1.disconnecting = false := by simpa using hd1
            rw [andThen_ok _ _ hd1] at h
            exact ih _ (by split <;> simp [hl] <;> omega) st1 rest hkeep h rfl
        · rw [hlr] at h; simp [andThen] at h
    · have hl : st.lineMode = false := by simpa using hl
      rw [go_raw U H st x hl hb] at h
      split at h
      · cases h; exact ⟨fun h' => (by rw [hl] at h'; cases h'), fun _ => hb⟩
      · split at h
        · cases h; exact ⟨fun h' => (by rw [hl] at h'; cases h'), fun _ => hb⟩
        · rename_i hx
          rw [rawGo_eq U H st x hb] at h
          split at h
          · cases h; exact ⟨fun h' => by simp [hl] at h', fun _ => hb⟩
          · dsimp only at h
            split at h
            · unfold finishBody at h
              split at h
              · cases h
              · rename_i text _
                generalize hs2 : (St.mk st.lineMode st.buffer st.reqBuf (max (bodySplit st.bodyRemaining x).1 0) [] []
                  st.inner st.disconnecting st.app st.trace) = st2 at h
                have hkeep := handle_keeps_buffer H st2 (Dict.set st.pending BODY text)
                have hb2 : st2.buffer = [] := by rw [← hs2]; exact hb
                have hl2 : st2.lineMode = false := by rw [← hs2]; exact hl
                have hlm : (handle H st2 (Dict.set st.pending BODY text)).1.lineMode = false := by
                  simp only [handle]; split <;> simp [hl2]
                rw [hb2] at hkeep
                dsimp only at h
                split at h
                · cases h
                · rename_i st3 heq
                  rw [heq] at hkeep hlm
                  simp only at hkeep hlm
                  split at h
                  · cases h; exact ⟨fun h' => by simp [hlm] at h', fun _ => hkeep⟩
                  · split at h
                    · cases h; exact ⟨fun _ => by show findDelim st3.buffer = none; rw [hkeep]; rfl, fun h' => by simp at h'⟩
                    · have hxl := bodySplit_length st.bodyRemaining x
                      refine ih _ ?_ _ _ ?_ h rfl
                      · simp [hl]; omega
                      · exact hkeep
            · cases h; exact ⟨fun h' => by simp [hl] at h', fun _ => hb⟩

theorem go_self (st : St A) (hr : Ready st) : go U H st st.buffer = (st, none) := by
  by_cases hl : st.lineMode = true
  · rw [go_line_none U H st _ hl (hr.1 hl)]
  · have hl : st.lineMode = false := by simpa using hl
    have hb := hr.2 hl
    rw [hb, go_raw U H st [] hl hb]; simp

/-- Feeding any chunks is the same as handing the whole stream over at once. -/
theorem norm_feed (hno : NoBodyDisconnect H) (st : St A) (cs : List Bytes) (hr : Ready st)
    (hd : st.disconnecting = false) : norm (feed U H st cs) = go U H st (st.buffer ++ cs.flatten) := by
  induction cs generalizing st with
  | nil => rw [List.flatten_nil, List.append_nil, go_self U H st hr]; rfl
  | cons c cs ih =>
    have e1 : go U H st (st.buffer ++ (c :: cs).flatten) =
        andThen (go U H st (st.buffer ++ c)) (fun st' => go U H st' (st'.buffer ++ cs.flatten)) := by
      rw [List.flatten_cons, ← List.append_assoc]
      exact go_append U H hno { st with buffer := [] } (st.buffer ++ c) cs.flatten hd rfl
    have e2 := dataReceived_go U H st c
    rw [e1, ← e2]
    unfold feed
    rcases hdr : dataReceived U H st c with ⟨st1, _ | e⟩
    · simp only [norm, andThen]
      by_cases hd1 : st1.disconnecting = true
      · simp only [hd1, if_true]
      · have hd1 : st1.disconnecting = false := by simpa using hd1
        simp only [hd1, Bool.false_eq_true, if_false]
        have : Ready st1 := go_ready U H { st with buffer := [] } (st.buffer ++ c) st1 rfl
          (by rw [hdr] at e2; exact e2.symm) hd1
        exact ih st1 this hd1
    · rfl

end Verif.Juice
