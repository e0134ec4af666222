import Verif.Lemmas.JuiceBox
import Verif.Lemmas.JuiceEval
/-!
# Properties of the juice wire format and parser (C22, C23, C24, C33)
-/
namespace Verif.Juice
open Verif.Py

/-! Concrete boxes, applications and streams used below. -/

/-- `{'_command': 'echo', 'text': 'a\r\n\r\nb: é', 'body': 'xyz'}` -/
def box1 : Box :=
  [([95, 99, 111, 109, 109, 97, 110, 100], [101, 99, 104, 111]),
   (BODY, [120, 121, 122]),
   ([116, 101, 120, 116], [97, 13, 10, 13, 10, 98, 58, 32, 233])]

/-- `{'Class': ' '}` -/
def box2 : Box := [([67, 108, 97, 115, 115], [32])]

theorem box1_legal : LegalBox box1 where
  wf := by decide
  noLength := by decide
  keys := by
    intro p hp
    have : p.1 ∈ [[95, 99, 111, 109, 109, 97, 110, 100], BODY, [116, 101, 120, 116]] := by
      rcases List.mem_cons.1 hp with rfl | hp
      · simp
      · rcases List.mem_cons.1 hp with rfl | hp
        · simp
        · rcases List.mem_cons.1 hp with rfl | hp
          · simp
          · cases hp
    generalize p.1 = k at this
    have hall : ∀ k ∈ ([[95, 99, 111, 109, 109, 97, 110, 100], BODY, [116, 101, 120, 116]] : List Str),
        ((∀ c ∈ k, c < 128) ∧ (¬ [58, 32] <:+: k) ∧ (¬ [13, 10] <:+: k) ∧ k.head? ≠ some 32) ∧
        ((∀ c ∈ k, ¬ (65 ≤ c ∧ c ≤ 90) ∧ c ≠ 45) ∧ k ∉ keywords) := by decide
    obtain ⟨⟨a, b, c, d⟩, e⟩ := hall k this
    exact ⟨⟨a, b, c, d⟩, .inl e⟩
  values := by decide
  body := by decide

theorem box2_legal : LegalBox box2 where
  wf := by decide
  noLength := by decide
  keys := by
    intro p hp
    rw [box2, List.mem_singleton] at hp
    subst hp
    exact ⟨⟨by decide, by decide, by decide, by decide⟩, .inr (by decide)⟩
  values := by decide
  body := by decide

/-- An application that counts boxes. -/
def counter : Nat → Box → Outcome Nat := fun n _ => ⟨n + 1, false, false, none⟩

theorem counter_benign : Benign counter := fun _ _ => ⟨rfl, rfl, rfl⟩

variable {A : Type} (U : Uni) (H : A → Box → Outcome A)

/-! ## C24: segmentation never matters -/

/-- **C24 (partial).**  For every byte stream, well-formed or not, and every two ways of cutting it into
chunks, the parser ends in the same state with the same events (boxes handled, in order, and bytes passed
on) and the same exception, if any — from any state between deliveries, and for every application that does
not drop the connection while handling a box that has a body.  After an exception nothing is claimed about
the leftover line buffer.

Missing from the full statement: applications that drop the connection while handling a box with a body; for
these the claim is false (`segmentation_fails`). -/
theorem segmentation_partial (hno : ∀ a b, Dict.has b BODY = true → (H a b).disconnect = false)
    (st : St A) (hr : (st.lineMode = true → ¬ [13, 10] <:+: st.buffer) ∧ (st.lineMode = false → st.buffer = []))
    (hd : st.disconnecting = false) (cs₁ cs₂ : List Bytes) (h : cs₁.flatten = cs₂.flatten) :
    (feed U H st cs₁).2 = (feed U H st cs₂).2 ∧
    { (feed U H st cs₁).1 with buffer := [] } = { (feed U H st cs₂).1 with buffer := [] } ∧
    ((feed U H st cs₁).2 = none → feed U H st cs₁ = feed U H st cs₂) := by
  have hr' : Ready st := ⟨fun hl => by rw [findDelim_eq, splitPair_none_iff]; exact hr.1 hl, hr.2⟩
  have e1 := norm_feed U H hno st cs₁ hr' hd
  have e2 := norm_feed U H hno st cs₂ hr' hd
  rw [h, ← e2] at e1
  rcases h1 : feed U H st cs₁ with ⟨s1, _ | x1⟩ <;> rcases h2 : feed U H st cs₂ with ⟨s2, _ | x2⟩
  · rw [h1, h2] at e1
    simp only [norm, Prod.mk.injEq, and_true] at e1
    subst e1
    exact ⟨rfl, rfl, fun _ => rfl⟩
  · rw [h1, h2] at e1; simp [norm] at e1
  · rw [h1, h2] at e1; simp [norm] at e1
  · rw [h1, h2] at e1
    simp only [norm, Prod.mk.injEq] at e1
    exact ⟨e1.2, e1.1, fun h => by cases h⟩

/-- The states `segmentation_partial` talks about include a fresh connection, and deliveries without an
exception or a disconnection stay among them. -/
theorem between_deliveries (st : St A) (c : Bytes) (h : (dataReceived U H st c).2 = none)
    (hd : (dataReceived U H st c).1.disconnecting = false) :
    ((dataReceived U H st c).1.lineMode = true → ¬ [13, 10] <:+: (dataReceived U H st c).1.buffer) ∧
    ((dataReceived U H st c).1.lineMode = false → (dataReceived U H st c).1.buffer = []) := by
  rcases hdr : dataReceived U H st c with ⟨st1, e⟩
  rw [hdr] at h hd
  simp only at h hd ⊢
  subst h
  have e2 := dataReceived_go U H st c
  rw [hdr] at e2
  have hr := go_ready U H { st with buffer := [] } (st.buffer ++ c) st1 rfl e2.symm hd
  refine ⟨fun hl => ?_, hr.2⟩
  have := hr.1 hl
  rwa [findDelim_eq, splitPair_none_iff] at this

/-- `-Length: 1`, blank line, `X`: a box with a one-byte body. -/
def bodyStream : Bytes := [45, 76, 101, 110, 103, 116, 104, 58, 32, 49, 13, 10, 13, 10, 88]

/-- Drops the connection on a box with a body and, like `juiceBoxReceived`, raises on an empty box. -/
def dropper : Unit → Box → Outcome Unit := fun _ b =>
  ⟨(), Dict.has b BODY, false, if b = [] then some .runtimeError else none⟩

/-- C24 fails for an application that drops the connection while handling a box with a body: if more data
arrived in the same chunk, one more line is processed. -/
theorem segmentation_fails : ∃ cs₁ cs₂ : List Bytes, cs₁.flatten = cs₂.flatten ∧
    shown (feed Uni.ascii dropper (St.init ()) cs₁) = ([.box [(BODY, [88])], .box []], some .runtimeError) ∧
    shown (feed Uni.ascii dropper (St.init ()) cs₂) = ([.box [(BODY, [88])]], none) :=
  ⟨[bodyStream ++ [13, 10]], [bodyStream, [13, 10]], rfl,
    shown_feed _ _ 10 _ _ _ (by decide), shown_feed _ _ 10 _ _ _ (by decide)⟩

/-- A run of the kind `segmentation_partial` is about that ends in an exception: the header line has no
colon. -/
example : shown (feed Uni.ascii counter (St.init 0) [bodyStream ++ [120], [13], [10, 13, 10]]) =
    ([.box [(BODY, [88])]], some (.other "MalformedJuiceBox")) :=
  shown_feed _ _ 10 _ _ _ (by decide)

/-! ## C22, C23: what is sent is what is received -/

theorem boxes_go (hH : Benign H) : ∀ (bs : List Box) (xs : List Bytes), (∀ b ∈ bs, LegalBox b) →
    List.Forall₂ (fun b x => serialize b = .ok x) bs xs → ∀ st : St A, st.lineMode = true → st.buffer = [] →
    st.reqBuf = [] → st.disconnecting = false → st.inner = false → ∀ rest,
    ∃ st' : St A, go U H st (xs.flatten ++ rest) = go U H st' rest ∧ st'.lineMode = true ∧ st'.buffer = [] ∧
      st'.reqBuf = [] ∧ st'.disconnecting = false ∧ st'.inner = false ∧
      st'.trace = st.trace ++ bs.map fun b => .box (arrived b)
  | [], _, _, .nil, st, h1, h2, h3, h4, h5, rest => ⟨st, by simp, h1, h2, h3, h4, h5, by simp⟩
  | b :: bs, x :: xs, hl, .cons hx hxs, st, h1, h2, h3, h4, h5, rest => by
    obtain ⟨x', e1, e2⟩ := go_box U H b (hl b (by simp))
    rw [hx] at e1
    cases e1
    obtain ⟨st1, f1, f2, f3, f4, f5, f6, f7, -⟩ := e2 st (xs.flatten ++ rest) h1 h2 h3 h4 h5 hH
    obtain ⟨st2, g1, g2, g3, g4, g5, g6, g7⟩ :=
      boxes_go hH bs xs (fun b hb => hl b (List.mem_cons_of_mem _ hb)) hxs st1 f2 f3 f4 f5 f6 rest
    refine ⟨st2, ?_, g2, g3, g4, g5, g6, ?_⟩
    · rw [List.flatten_cons, List.append_assoc, f1, g1]
    · rw [g7, f7]; simp

/-- Every legal box can be serialised. -/
theorem legal_serializes (b : Box) (hb : LegalBox b) : ∃ x, serialize b = .ok x := by
  obtain ⟨x, h, -⟩ := go_box Uni.ascii counter b hb
  exact ⟨x, h⟩

/-- **C23.**  Serialise any list of legal boxes and deliver the bytes in any sequence of chunks to a fresh
connection: exactly these boxes are handled, in this order, nothing else happens, and the parser is ready for
the next box. -/
theorem boxes_received (hH : Benign H) (bs : List Box) (hl : ∀ b ∈ bs, LegalBox b) (a : A) :
    ∃ xs : List Bytes, List.Forall₂ (fun b x => serialize b = .ok x) bs xs ∧
    ∀ cs : List Bytes, cs.flatten = xs.flatten →
    ∃ bs' : List Box, List.Forall₂ SameBox bs bs' ∧
      (feed U H (St.init a) cs).2 = none ∧
      (feed U H (St.init a) cs).1.trace = bs'.map .box ∧
      (feed U H (St.init a) cs).1.lineMode = true ∧
      (feed U H (St.init a) cs).1.buffer = [] ∧ (feed U H (St.init a) cs).1.reqBuf = [] := by
  have hxs : ∃ xs : List Bytes, List.Forall₂ (fun b x => serialize b = .ok x) bs xs := by
    clear hH
    induction bs with
    | nil => exact ⟨[], .nil⟩
    | cons b bs ih =>
      obtain ⟨xs, h⟩ := ih (fun b hb => hl b (List.mem_cons_of_mem _ hb))
      obtain ⟨x, hx⟩ := legal_serializes b (hl b (by simp))
      exact ⟨x :: xs, .cons hx h⟩
  obtain ⟨xs, hxs⟩ := hxs
  refine ⟨xs, hxs, fun cs hcs => ?_⟩
  have hr : Ready (St.init a) := ⟨fun _ => rfl, fun _ => rfl⟩
  have e := norm_feed U H (fun a b _ => (hH a b).2.1) (St.init a) cs hr rfl
  obtain ⟨st', g1, g2, g3, g4, g5, g6, g7⟩ := boxes_go U H hH bs xs hl hxs (St.init a) rfl rfl rfl rfl rfl []
  have hbuf : (St.init a).buffer ++ cs.flatten = xs.flatten ++ [] := by rw [hcs]; simp [St.init]
  rw [hbuf, g1, go_nil U H st' g5 g3] at e
  have e' : feed U H (St.init a) cs = (st', none) := by
    rcases hf : feed U H (St.init a) cs with ⟨s, _ | x⟩
    · rw [hf] at e; exact e
    · rw [hf] at e; simp [norm] at e
  refine ⟨bs.map arrived, ?_, ?_⟩
  · rw [List.forall₂_map_right_iff]
    exact List.forall₂_same.2 fun b hb => arrived_same b (hl b hb).wf
  · rw [e']
    exact ⟨rfl, by rw [g7]; simp [St.init], g2, g3, g4⟩

/-- **C22.**  Parsing the serialisation of a legal box yields exactly one box, with the same keys and
values. -/
theorem box_roundtrip_partial (b : Box) (hb : LegalBox b) (a : A) (hH : Benign H) :
    ∃ x b', serialize b = .ok x ∧ SameBox b b' ∧
      (dataReceived U H (St.init a) x).2 = none ∧
      (dataReceived U H (St.init a) x).1.trace = [.box b'] := by
  obtain ⟨xs, h1, h2⟩ := boxes_received U H hH [b] (by simpa using hb) a
  cases h1 with
  | cons hx hnil =>
    cases hnil
    rename_i x
    obtain ⟨bs', f1, f2, f3, f4, f5, f6⟩ := h2 [x] rfl
    cases f1 with
    | cons hs hnil =>
      cases hnil
      rename_i b'
      have e : ∀ r : St A × Option PyErr, r = dataReceived U H (St.init a) x →
          (feed U H (St.init a) [x]).2 = r.2 ∧ (feed U H (St.init a) [x]).1.trace = r.1.trace := by
        rintro ⟨s, _ | e⟩ hr
        · simp only [feed, ← hr]; split <;> simp
        · simp [feed, ← hr]
      obtain ⟨e1, e2⟩ := e _ rfl
      exact ⟨x, b', hx, hs, by rw [← e1]; exact f2, by rw [← e2]; exact f3⟩

/-- C23 is about something: two boxes, one with line breaks, a colon, non-ASCII text and a body. -/
example : ∀ b ∈ [box1, box2], LegalBox b := by
  intro b hb
  rcases List.mem_cons.1 hb with rfl | hb
  · exact box1_legal
  · rw [List.mem_singleton] at hb; subst hb; exact box2_legal

example : (serialize box2).toOption = some [67, 108, 97, 115, 115, 58, 32, 32, 13, 10, 13, 10] := by decide

/-- A box whose body is empty loses it: the statement of C22 without the condition on the body is false. -/
theorem empty_body_fails : serialize [(BODY, [])] = .ok [45, 76, 101, 110, 103, 116, 104, 58, 32, 48, 13, 10, 13, 10] ∧
    shown (feed Uni.ascii counter (St.init 0) [[45, 76, 101, 110, 103, 116, 104, 58, 32, 48, 13, 10, 13, 10]]) =
      ([.box []], none) :=
  ⟨by rfl, shown_feed _ _ 10 _ _ _ (by decide)⟩

/-- The announced length counts characters, not bytes: a body of one `é` makes the receiver fail to decode
the first of its two bytes. -/
theorem nonascii_body_fails : ∃ x, serialize [(BODY, [233])] = .ok x ∧
    shown (feed Uni.ascii counter (St.init 0) [x]) = ([], some .unicodeError) :=
  ⟨[45, 76, 101, 110, 103, 116, 104, 58, 32, 49, 13, 10, 13, 10, 195, 169], by rfl,
    shown_feed _ _ 10 _ _ _ (by decide)⟩

/-- A key that is a Python keyword arrives capitalised. -/
theorem keyword_key_fails : ∃ x, serialize [([105, 102], [49])] = .ok x ∧
    shown (feed Uni.ascii counter (St.init 0) [x]) = ([.box [([73, 102], [49])]], none) :=
  ⟨[73, 102, 58, 32, 49, 13, 10, 13, 10], by rfl, shown_feed _ _ 10 _ _ _ (by decide)⟩

/-! ## Closing the connection -/

theorem lineReceived_sticks (st : St A) (line : Bytes) (h : st.disconnecting = true) :
    (lineReceived U H st line).1.disconnecting = true := by
  unfold lineReceived
  split
  · exact h
  · simp only
    split
    · exact h
    · split
      · exact h
      · simp only [handle]; split <;> simp [h]

theorem lineLoop_sticks (st : St A) (buf : Bytes) (h : st.disconnecting = true) :
    (lineLoop U H st buf).1.disconnecting = true := by
  rw [lineLoop]
  split
  · split
    · exact h
    · rename_i line rest hf
      have := lineReceived_sticks U H st line h
      rcases hr : lineReceived U H st line with ⟨st1, e⟩
      rw [hr] at this
      cases e with
      | some e => exact this
      | none => simp only; rw [if_pos this]; exact this
  · exact h

/-- Once the application has asked for the connection to be closed it stays so, whatever arrives. -/
theorem disconnect_sticks (st : St A) (data : Bytes) (h : st.disconnecting = true) :
    (dataReceived U H st data).1.disconnecting = true := by
  have := lineLoop_sticks U H st (st.buffer ++ data) h
  rw [dataReceived]
  rcases hr : lineLoop U H st (st.buffer ++ data) with ⟨st1, rest, e⟩
  rw [hr] at this
  split
  all_goals (rename_i heq; cases heq)
  · exact this
  · exact this
  · exact this
  · simp only; rw [if_pos this]; exact this

/-- … and it handles at most one more box (the one completed by the line being received), after which the
transport delivers nothing more. -/
theorem nothing_after_disconnect (st : St A) (c : Bytes) (cs : List Bytes) (h : st.disconnecting = true) :
    feed U H st (c :: cs) = feed U H st [c] := by
  have := disconnect_sticks U H st c h
  simp only [feed]
  rcases hr : dataReceived U H st c with ⟨st1, e⟩
  rw [hr] at this
  cases e with
  | some e => rfl
  | none => simp only; rw [if_pos this, if_pos this]

/-- Non-vacuity: a box handled while the flag is set. -/
example : shown (feed Uni.ascii counter { St.init 0 with disconnecting := true }
    [[97, 58, 32, 98, 13, 10, 13, 10, 97, 58, 32, 98, 13, 10, 13, 10], [97, 58, 32, 98, 13, 10, 13, 10]]) = ([], none) :=
  shown_feed _ _ 10 _ _ _ (by decide)

/-! ## C33: protocol switching -/

/-- **C33, after the switch.**  Once the connection has switched, every byte — including a partial line that
was waiting in the line buffer — goes to the inner protocol, exactly once and in order, whatever the chunks;
no box is handled and the inner protocol is not connected again. -/
theorem switched_bytes (st : St A) (hl : st.lineMode = false) (hi : st.inner = true)
    (hd : st.disconnecting = false) (c : Bytes) (cs : List Bytes) :
    (feed U H st (c :: cs)).2 = none ∧
    (feed U H st (c :: cs)).1.trace = st.trace ++ (st.buffer ++ (c :: cs).flatten).map .inner := by
  induction cs generalizing st c with
  | nil =>
    have e2 := dataReceived_go U H st c
    have hg : go U H st (st.buffer ++ c) = _ :=
      go_inner U H { st with buffer := [] } (st.buffer ++ c) hl rfl hd hi
    rw [hg] at e2
    rcases hdr : dataReceived U H st c with ⟨st2, _ | e'⟩
    · rw [hdr] at e2
      simp only [norm, Prod.mk.injEq, and_true] at e2
      subst e2
      simp [feed, hdr, hd]
    · rw [hdr] at e2; simp [norm] at e2
  | cons c' cs ih =>
    have e2 := dataReceived_go U H st c
    have hg : go U H st (st.buffer ++ c) = _ :=
      go_inner U H { st with buffer := [] } (st.buffer ++ c) hl rfl hd hi
    rw [hg] at e2
    rcases hdr : dataReceived U H st c with ⟨st2, _ | e'⟩
    · rw [hdr] at e2
      simp only [norm, Prod.mk.injEq, and_true] at e2
      subst e2
      rw [feed, hdr]
      simp only [hd, Bool.false_eq_true, if_false]
      have := ih { st with buffer := [], trace := st.trace ++ (st.buffer ++ c).map .inner } hl hi hd c'
      rw [hd] at this
      refine ⟨this.1, ?_⟩
      rw [this.2]
      simp
    · rw [hdr] at e2; simp [norm] at e2

/-- **C33, the switch itself (partial).**  When a legal box without a body makes the application switch, the
inner protocol is connected exactly once, and every byte that follows the box reaches it exactly once and in
order, however the stream is cut — also when the bytes are in the same chunk as the box.

Missing from the full statement: switching on a box that has a body, where the inner protocol is connected
twice (`switch_on_body_fails`). -/
theorem switch_partial (hno : ∀ a b, Dict.has b BODY = true → (H a b).disconnect = false)
    (b : Box) (hb : LegalBox b) (hbody : ∀ p ∈ b, p.1 ≠ BODY) (a : A)
    (hsw : (H a b).switch = true) (herr : (H a b).err = none) (hdisc : (H a b).disconnect = false) :
    ∃ x, serialize b = .ok x ∧ ∀ (data : Bytes) (cs : List Bytes), cs.flatten = x ++ data →
      shown (feed U H (St.init a) cs) = ([.box b, .connect] ++ data.map .inner, none) := by
  obtain ⟨ls, e1, e2, e3⟩ := header_of_box U b hb.wf hb.noLength hb.keys hb.values
  have hnl : Dict.has b LENGTH = false := by
    rw [Bool.eq_false_iff]
    intro h
    rw [Dict.has_iff] at h
    obtain ⟨p, hp, e⟩ := List.mem_map.1 h
    exact hb.noLength p hp e
  have hbk : BODY ∉ Dict.keys b := by
    intro h
    obtain ⟨p, hp, e⟩ := List.mem_map.1 h
    exact hbody p hp e
  have hbg := (Dict.get?_eq_none_iff b BODY).2 hbk
  rw [hbg, erase_of_not_mem b BODY hbk] at e3
  refine ⟨unlines ls ++ CRLF, ?_, ?_⟩
  · unfold serialize
    rw [if_neg (by simp [hnl]), e1, hbg]; rfl
  · intro data cs hcs
    have e := norm_feed U H hno (St.init a) cs ⟨fun _ => rfl, fun _ => rfl⟩ rfl
    have hbuf : (St.init a).buffer ++ cs.flatten = unlines ls ++ (CRLF ++ data) := by
      rw [hcs]; simp [St.init]
    rw [hbuf, go_lines U H (St.init a) ls _ rfl rfl rfl e2, go_blank U H _ _ rfl rfl] at e
    have hlr : lineReceived U H { St.init a with reqBuf := (St.init a).reqBuf ++ ls } [] =
        ({ St.init (H a b).app with lineMode := false, inner := true, trace := [.box b, .connect] }, none) := by
      unfold lineReceived
      simp [St.init, e3, handle, hsw, herr, hdisc]
    rw [hlr, andThen_ok _ _ rfl, go_inner U H _ _ rfl rfl rfl rfl] at e
    rw [← shown_norm, e]
    simp [shown]

/-- Switches on every box. -/
def switcher : Unit → Box → Outcome Unit := fun _ _ => ⟨(), false, true, none⟩

/-- `switch_partial` applies to a box and bytes that would parse as another box. -/
example : ∃ x, serialize box2 = .ok x ∧ shown (feed Uni.ascii switcher (St.init ()) [x ++ x]) =
    ([.box box2, .connect] ++ x.map .inner, none) := by
  obtain ⟨x, h1, h2⟩ := switch_partial Uni.ascii switcher (fun _ _ _ => rfl) box2 box2_legal (by decide) () rfl rfl rfl
  exact ⟨x, h1, h2 x _ (by simp)⟩

/-- If the switching box has a body, `rawDataReceived` connects the inner protocol a second time. -/
theorem switch_on_body_fails : shown (feed Uni.ascii switcher (St.init ()) [bodyStream ++ [7]]) =
    ([.box [(BODY, [88])], .connect, .connect, .inner 7], none) :=
  shown_feed _ _ 10 _ _ _ (by decide)

/-- **C33, switching on a box with a body.**  Every byte that follows still reaches the inner protocol exactly once and in order,
however the stream is cut; but the inner protocol is always connected twice. -/
theorem switch_body_partial (hno : ∀ a b, Dict.has b BODY = true → (H a b).disconnect = false)
    (b : Box) (hb : LegalBox b) (v : Str) (hbody : (BODY, v) ∈ b) (a : A)
    (hsw : ∀ b', SameBox b b' → (H a b').switch = true ∧ (H a b').err = none) :
    ∃ x b', serialize b = .ok x ∧ SameBox b b' ∧ ∀ (data : Bytes) (cs : List Bytes), cs.flatten = x ++ data →
      shown (feed U H (St.init a) cs) = ([.box b', .connect, .connect] ++ data.map .inner, none) := by
  obtain ⟨ls, e1, e2, e3⟩ := header_of_box U b hb.wf hb.noLength hb.keys hb.values
  have hnl : Dict.has b LENGTH = false := by
    rw [Bool.eq_false_iff]
    intro h
    rw [Dict.has_iff] at h
    obtain ⟨p, hp, e⟩ := List.mem_map.1 h
    exact hb.noLength p hp e
  have hget : Dict.get? b BODY = some v := Dict.get?_of_mem (show Dict.WF b from hb.wf) hbody
  have hm := hb.body _ hbody rfl
  simp only at hm
  have harr : arrived b = Dict.erase b BODY ++ [(BODY, v)] := by unfold arrived; rw [hget]
  have hsame := arrived_same b hb.wf
  rw [harr] at hsame
  obtain ⟨h1, h2⟩ := hsw _ hsame
  have hhas : Dict.has (Dict.erase b BODY ++ [(BODY, v)]) BODY = true := by
    rw [Dict.has_iff]
    simp [Dict.keys]
  have h3 := hno a _ hhas
  refine ⟨unlines ls ++ CRLF ++ v, _, ?_, hsame, ?_⟩
  · unfold serialize
    rw [if_neg (by simp [hnl]), e1, hget]
    simp [ensureBinary, utf8Encode_ascii v hm.2, bind, Except.bind, pure, Except.pure]
  · intro data cs hcs
    have e := norm_feed U H hno (St.init a) cs ⟨fun _ => rfl, fun _ => rfl⟩ rfl
    have hbuf : (St.init a).buffer ++ cs.flatten = unlines ls ++ (CRLF ++ (v ++ data)) := by
      rw [hcs]; simp [St.init]
    rw [← shown_norm]
    generalize norm (feed U H (St.init a) cs) = F at e ⊢
    rw [hbuf, go_lines U H (St.init a) ls _ rfl rfl rfl e2, go_blank U H _ _ rfl rfl] at e
    rw [hget] at e3
    simp only [Option.getD_some] at e3
    have hlen : (v.length : Int) ≠ 0 := by
      have : v.length ≠ 0 := fun e => hm.1 (List.length_eq_zero_iff.1 e)
      omega
    have hlr : lineReceived U H { St.init a with reqBuf := (St.init a).reqBuf ++ ls } [] =
        ({ St.init a with bodyRemaining := (v.length : Int), pending := Dict.erase b BODY, lineMode := false }, none) := by
      unfold lineReceived
      simp only [St.init, List.nil_append, e3, ne_eq, not_true_eq_false, if_false, hlen, not_false_eq_true, if_true]
    rw [hlr, andThen_ok _ _ rfl, go_raw U H _ _ rfl rfl] at e
    dsimp only [St.init] at e
    rw [if_neg (show ¬ (v ++ data = []) by simp [hm.1])] at e
    simp only [Bool.false_eq_true, if_false] at e
    rw [rawGo_eq U H _ _ rfl] at e
    simp only [Bool.false_eq_true, if_false] at e
    simp only [bodySplit_spec, List.length_append, Int.natCast_add, Int.toNat_natCast] at e
    have hsub : (v.length : Int) - ((v.length : Int) + (data.length : Int)) = -(data.length : Int) := by omega
    rw [hsub, if_pos (by omega)] at e
    have hp1 : (if -(data.length : Int) < 0 then (v ++ data).take v.length else v ++ data) = v := by
      split
      · simp
      · have : data = [] := List.length_eq_zero_iff.1 (by omega)
        rw [this, List.append_nil]
    have hp2 : (if -(data.length : Int) < 0 then (v ++ data).drop v.length else []) = data := by
      split
      · simp
      · exact (List.length_eq_zero_iff.1 (by omega)).symm
    rw [hp1, hp2] at e
    have hnm : BODY ∉ Dict.keys (Dict.erase b BODY) := by
      intro h
      obtain ⟨p, hp, e⟩ := List.mem_map.1 h
      exact ((mem_erase b BODY hb.wf p).1 hp).2 e
    unfold finishBody at e
    simp only [List.nil_append, ensureStr, utf8Decode_ascii v hm.2, Dict.set_of_not_mem v hnm] at e
    simp only [handle, h1, h2, h3, Bool.or_false, if_true] at e
    rw [e]
    simp [shown]

/-- A box with a body and bytes that would parse as another box. -/
example : ∃ x b', serialize box1 = .ok x ∧ SameBox box1 b' ∧ shown (feed Uni.ascii switcher (St.init ()) [x ++ x]) =
    ([.box b', .connect, .connect] ++ x.map .inner, none) := by
  obtain ⟨x, b', h1, h2, h3⟩ := switch_body_partial Uni.ascii switcher (fun _ _ _ => rfl) box1 box1_legal _
    (Dict.mem_of_get? (k := BODY) (v := (Dict.get? box1 BODY).getD []) (by decide)) () (fun _ _ => ⟨rfl, rfl⟩)
  exact ⟨x, b', h1, h2, h3 x _ (by simp)⟩

end Verif.Juice
