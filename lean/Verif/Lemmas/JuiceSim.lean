import Verif.Lemmas.JuiceBox
/-!
# The juice parser does not depend on the application

What the parser makes of a piece of the stream is the same for every application that takes the boxes without raising,
disconnecting or switching: the same new parser state and the same boxes.
-/
namespace Verif.Juice
open Verif.Py

variable (U : Uni)

/-- The application that notes the boxes it gets. -/
def recorder (l : List Box) (b : Box) : Outcome (List Box) := ⟨l ++ [b], false, false, none⟩

/-- A parser state with an application and a trace. -/
def plug {A : Type} (k : St Unit) (a : A) (t : List Event) : St A :=
  ⟨k.lineMode, k.buffer, k.reqBuf, k.bodyRemaining, k.bodyBuf, k.pending, k.inner, k.disconnecting, a, t⟩

/-- The parser part of a state. -/
def core {A : Type} (st : St A) : St Unit :=
  ⟨st.lineMode, st.buffer, st.reqBuf, st.bodyRemaining, st.bodyBuf, st.pending, st.inner, st.disconnecting, (), []⟩

@[simp] theorem plug_core {A : Type} (st : St A) : plug (core st) st.app st.trace = st := rfl

/-- The application takes all these boxes. -/
def Takes {A : Type} (H : A → Box → Outcome A) (a : A) : List Box → Prop
  | [] => True
  | b :: bs => (H a b).err = none ∧ (H a b).disconnect = false ∧ (H a b).switch = false ∧ Takes H (H a b).app bs

/-- The application after these boxes. -/
def after {A : Type} (H : A → Box → Outcome A) (a : A) : List Box → A
  | [] => a
  | b :: bs => after H (H a b).app bs

theorem takes_recorder (l : List Box) : ∀ bs, Takes recorder l bs := by
  intro bs
  induction bs generalizing l with
  | nil => trivial
  | cons b bs ih => exact ⟨rfl, rfl, rfl, ih _⟩

theorem after_recorder (l bs : List Box) : after recorder l bs = l ++ bs := by
  induction bs generalizing l with
  | nil => simp [after]
  | cons b bs ih => rw [after, ih]; simp [recorder]

theorem takes_append {A : Type} (H : A → Box → Outcome A) (a : A) (bs cs : List Box) :
    Takes H a (bs ++ cs) ↔ Takes H a bs ∧ Takes H (after H a bs) cs := by
  induction bs generalizing a with
  | nil => simp [Takes, after]
  | cons b bs ih => simp only [List.cons_append, Takes, after, ih, and_assoc]

theorem handle_plug {A : Type} (H : A → Box → Outcome A) (k : St Unit) (a : A) (t : List Event) (b : Box)
    (h1 : (H a b).err = none) (h2 : (H a b).disconnect = false) (h3 : (H a b).switch = false) :
    handle H (plug k a t) b = (plug k (H a b).app (t ++ [.box b]), none) := by
  simp only [handle, plug, h1, h2, h3, Bool.or_false, Bool.false_eq_true, if_false]

/-- The piece `x` takes the parser from `k` to `k'` and yields the boxes `bs`, whatever the application. -/
def Yields (k : St Unit) (x : Bytes) (k' : St Unit) (bs : List Box) : Prop :=
  ∀ ⦃A : Type⦄ (H : A → Box → Outcome A) (a : A) (t : List Event), Takes H a bs →
    go U H (plug k a t) x = (plug k' (after H a bs) (t ++ bs.map .box), none)

theorem yields_or (k : St Unit) (x : Bytes) (hb : k.buffer = []) (hd : k.disconnecting = false) (hi : k.inner = false) :
    (∀ l t, (go U recorder (plug k l t) x).2 ≠ none) ∨
    ∃ k' bs, k'.disconnecting = false ∧ k'.inner = false ∧ Yields U k x k' bs := by
  induction hn : 2 * x.length + (if k.lineMode then 0 else 1) using Nat.strongRecOn generalizing k x with
  | ind n ih =>
    subst hn
    by_cases hl : k.lineMode = true
    · cases hf : findDelim x with
      | none =>
        refine .inr ⟨{ k with buffer := x }, [], hd, hi, ?_⟩
        intro A H a t _
        rw [go_line_none U H (plug k a t) x hl hf]
        simp [plug, after]
      | some p =>
        obtain ⟨line, rest⟩ := p
        have hlen := findDelim_length hf
        have step : ∀ {A : Type} (H : A → Box → Outcome A) (a : A) (t : List Event),
            go U H (plug k a t) x = andThen (lineReceived U H (plug k a t) line) (fun st1 => go U H st1 rest) :=
          fun H a t => go_line_some U H (plug k a t) x line rest hl hf hb
        by_cases hline : line = []
        · cases hp : parseJuiceHeaders U k.reqBuf with
          | error e =>
            left
            intro l t
            rw [step]
            simp [lineReceived, hline, plug, hp, andThen]
          | ok q =>
            obtain ⟨bodylen, b⟩ := q
            by_cases hlen0 : bodylen = 0
            · have e1 : ∀ {A : Type} (H : A → Box → Outcome A) (a : A) (t : List Event),
                  lineReceived U H (plug k a t) line = handle H (plug { k with reqBuf := [] } a t) b := by
                intro A H a t
                simp [lineReceived, hline, plug, hp, hlen0]
              rcases ih _ (by simp only [hl, if_true]; omega) { k with reqBuf := [] } rest hb hd hi rfl with h | ⟨k', bs, g1, g2, g3⟩
              · left
                intro l t
                rw [step, e1, handle_plug _ _ _ _ _ rfl rfl rfl, andThen_ok _ _ (by exact hd)]
                exact h _ _
              · refine .inr ⟨k', b :: bs, g1, g2, ?_⟩
                intro A H a t ⟨h1, h2, h3, h4⟩
                rw [step, e1, handle_plug H _ a t b h1 h2 h3, andThen_ok _ _ (by exact hd), g3 H _ _ h4]
                simp [after]
            · have e1 : ∀ {A : Type} (H : A → Box → Outcome A) (a : A) (t : List Event),
                  lineReceived U H (plug k a t) line =
                    (plug { k with reqBuf := [], bodyRemaining := bodylen, bodyBuf := [], pending := b, lineMode := false }
                      a t, none) := by
                intro A H a t
                simp [lineReceived, hline, plug, hp, hlen0]
              rcases ih _ (by simp [hl]; omega)
                { k with reqBuf := [], bodyRemaining := bodylen, bodyBuf := [], pending := b, lineMode := false }
                rest hb hd hi rfl with h | ⟨k', bs, g1, g2, g3⟩
              · left
                intro l t
                rw [step, e1, andThen_ok _ _ (by exact hd)]
                exact h _ _
              · refine .inr ⟨k', bs, g1, g2, ?_⟩
                intro A H a t h4
                rw [step, e1, andThen_ok _ _ (by exact hd), g3 H _ _ h4]
        · have e1 : ∀ {A : Type} (H : A → Box → Outcome A) (a : A) (t : List Event),
              lineReceived U H (plug k a t) line = (plug { k with reqBuf := k.reqBuf ++ [line] } a t, none) := by
            intro A H a t
            simp [lineReceived, hline, plug]
          rcases ih _ (by simp [hl]; omega) { k with reqBuf := k.reqBuf ++ [line] }
            rest hb hd hi rfl with h | ⟨k', bs, g1, g2, g3⟩
          · left
            intro l t
            rw [step, e1, andThen_ok _ _ (by exact hd)]
            exact h _ _
          · refine .inr ⟨k', bs, g1, g2, ?_⟩
            intro A H a t h4
            rw [step, e1, andThen_ok _ _ (by exact hd), g3 H _ _ h4]
    · have hl : k.lineMode = false := by simpa using hl
      by_cases hx : x = []
      · refine .inr ⟨k, [], hd, hi, ?_⟩
        intro A H a t _
        rw [go_raw U H (plug k a t) x hl hb]
        simp [hx, after]
      · have step : ∀ {A : Type} (H : A → Box → Outcome A) (a : A) (t : List Event),
            go U H (plug k a t) x =
              if (bodySplit k.bodyRemaining x).1 ≤ 0 then
                finishBody U H (plug { k with bodyRemaining := max (bodySplit k.bodyRemaining x).1 0,
                                              bodyBuf := k.bodyBuf ++ (bodySplit k.bodyRemaining x).2.1 } a t)
                  (bodySplit k.bodyRemaining x).2.2
              else (plug { k with bodyRemaining := max (bodySplit k.bodyRemaining x).1 0,
                                  bodyBuf := k.bodyBuf ++ (bodySplit k.bodyRemaining x).2.1 } a t, none) := by
          intro A H a t
          rw [go_raw U H (plug k a t) x hl hb, if_neg (by simp [plug, hd]), if_neg hx, rawGo_eq U H (plug k a t) x hb,
            if_neg (by simp [plug, hi])]
          rfl
        have hxl := bodySplit_length k.bodyRemaining x
        by_cases hp : (bodySplit k.bodyRemaining x).1 ≤ 0
        · simp only [hp, if_true] at step
          cases hes : ensureStr (k.bodyBuf ++ (bodySplit k.bodyRemaining x).2.1) with
          | error e =>
            left
            intro l t
            rw [step]
            simp [finishBody, plug, hes]
          | ok text =>
            generalize hk2 : ({ k with bodyRemaining := max (bodySplit k.bodyRemaining x).1 0, bodyBuf := [],
                                       pending := [] } : St Unit) = k2
            have hd2 : k2.disconnecting = false := by rw [← hk2]; exact hd
            have hi2 : k2.inner = false := by rw [← hk2]; exact hi
            have hb2 : k2.buffer = [] := by rw [← hk2]; exact hb
            have e1 : ∀ {A : Type} (H : A → Box → Outcome A) (a : A) (t : List Event),
                (H a (Dict.set k.pending BODY text)).err = none →
                (H a (Dict.set k.pending BODY text)).disconnect = false →
                (H a (Dict.set k.pending BODY text)).switch = false →
                go U H (plug k a t) x =
                  if (bodySplit k.bodyRemaining x).2.2 = [] then
                    (plug { k2 with lineMode := true } (H a (Dict.set k.pending BODY text)).app
                      (t ++ [.box (Dict.set k.pending BODY text)]), none)
                  else go U H (plug { k2 with lineMode := true } (H a (Dict.set k.pending BODY text)).app
                      (t ++ [.box (Dict.set k.pending BODY text)])) (bodySplit k.bodyRemaining x).2.2 := by
              intro A H a t h1 h2 h3
              rw [step]
              unfold finishBody
              have : (plug { k with bodyRemaining := max (bodySplit k.bodyRemaining x).1 0,
                                    bodyBuf := k.bodyBuf ++ (bodySplit k.bodyRemaining x).2.1 } a t).bodyBuf =
                  k.bodyBuf ++ (bodySplit k.bodyRemaining x).2.1 := rfl
              rw [this, hes]
              have e : ({ plug { k with bodyRemaining := max (bodySplit k.bodyRemaining x).1 0,
                                        bodyBuf := k.bodyBuf ++ (bodySplit k.bodyRemaining x).2.1 } a t with
                          bodyBuf := [], pending := [] } : St A) = plug k2 a t := by rw [← hk2]; rfl
              dsimp only
              rw [e]
              have e' := handle_plug H k2 a t (Dict.set k.pending BODY text) h1 h2 h3
              simp only [plug] at e' ⊢
              rw [e']
              simp only [hi2, Bool.false_eq_true, if_false]
            by_cases hex : (bodySplit k.bodyRemaining x).2.2 = []
            · refine .inr ⟨{ k2 with lineMode := true }, [Dict.set k.pending BODY text], hd2, hi2, ?_⟩
              intro A H a t ⟨h1, h2, h3, _⟩
              rw [e1 H a t h1 h2 h3, if_pos hex]
              simp [after]
            · rcases ih _ (by simp [hl]; omega) { k2 with lineMode := true } (bodySplit k.bodyRemaining x).2.2
                hb2 hd2 hi2 rfl with h | ⟨k', bs, g1, g2, g3⟩
              · left
                intro l t
                rw [e1 recorder l t rfl rfl rfl, if_neg hex]
                exact h _ _
              · refine .inr ⟨k', Dict.set k.pending BODY text :: bs, g1, g2, ?_⟩
                intro A H a t ⟨h1, h2, h3, h4⟩
                rw [e1 H a t h1 h2 h3, if_neg hex, g3 H _ _ h4]
                simp [after]
        · simp only [hp, if_false] at step
          refine .inr ⟨{ k with bodyRemaining := max (bodySplit k.bodyRemaining x).1 0,
                                bodyBuf := k.bodyBuf ++ (bodySplit k.bodyRemaining x).2.1 }, [], hd, hi, ?_⟩
          intro A H a t _
          rw [step]
          simp [after]

/-- The parser between boxes. -/
structure Idle (k : St Unit) : Prop where
  lineMode : k.lineMode = true
  buffer : k.buffer = []
  reqBuf : k.reqBuf = []
  disconnecting : k.disconnecting = false
  inner : k.inner = false

theorem plug_eq {A : Type} {k k' : St Unit} {a a' : A} {t t' : List Event} (h : plug k a t = plug k' a' t') :
    a = a' ∧ ∀ {B : Type} (b : B) (u : List Event), plug k b u = plug k' b u := by
  simp only [plug, St.mk.injEq] at h
  obtain ⟨h1, h2, h3, h4, h5, h6, h7, h8, h9, h10⟩ := h
  refine ⟨h9, fun b u => ?_⟩
  simp only [plug, h1, h2, h3, h4, h5, h6, h7, h8]

theorem recorder_noBody : NoBodyDisconnect recorder := fun _ _ _ => rfl

theorem yields_of_recorder (k : St Unit) (x : Bytes) (hb : k.buffer = []) (hd : k.disconnecting = false)
    (hi : k.inner = false) {r : St (List Box)} (h : go U recorder (plug k [] []) x = (r, none)) :
    Yields U k x (core r) r.app := by
  rcases yields_or U k x hb hd hi with g | ⟨k', bs, -, -, g⟩
  · exact absurd (by rw [h]) (g [] [])
  · have e := g recorder [] [] (takes_recorder _ _)
    rw [h, after_recorder] at e
    simp only [Prod.mk.injEq, and_true, List.nil_append] at e
    subst e
    exact g

theorem Yields.append {k k1 k2 : St Unit} {x y : Bytes} {bs1 bs2 : List Box} (hb : k.buffer = [])
    (hd : k.disconnecting = false) (hi : k.inner = false) (hd1 : k1.disconnecting = false)
    (h1 : Yields U k x k1 bs1) (h2 : Yields U { k1 with buffer := [] } (k1.buffer ++ y) k2 bs2) :
    Yields U k (x ++ y) k2 (bs1 ++ bs2) := by
  have e : go U recorder (plug k [] []) (x ++ y) = (plug k2 (bs1 ++ bs2) (bs1.map .box ++ bs2.map .box), none) := by
    rw [go_append U recorder recorder_noBody (plug k [] []) x y hd hb, h1 recorder [] [] (takes_recorder _ _),
      andThen_ok _ _ (by exact hd1)]
    have e2 := h2 recorder bs1 (bs1.map .box) (takes_recorder _ _)
    rw [after_recorder] at e2
    rw [after_recorder, List.nil_append, List.nil_append]
    exact e2
  exact yields_of_recorder U k (x ++ y) hb hd hi e

theorem Yields.split {k k2 : St Unit} {x y : Bytes} {bs : List Box} (hb : k.buffer = [])
    (hd : k.disconnecting = false) (hi : k.inner = false) (h : Yields U k (x ++ y) k2 bs) :
    ∃ k1 bs1 bs2, k1.disconnecting = false ∧ k1.inner = false ∧ bs = bs1 ++ bs2 ∧ Yields U k x k1 bs1 ∧
      Yields U { k1 with buffer := [] } (k1.buffer ++ y) k2 bs2 := by
  have e := h recorder [] [] (takes_recorder _ _)
  rw [go_append U recorder recorder_noBody (plug k [] []) x y hd hb] at e
  rcases yields_or U k x hb hd hi with g | ⟨k1, bs1, g1, g2, g3⟩
  · exfalso
    apply g [] []
    rcases hg : go U recorder (plug k [] []) x with ⟨r, _ | z⟩
    · rfl
    · rw [hg] at e; simp [andThen] at e
  · rw [g3 recorder [] [] (takes_recorder _ _), andThen_ok _ _ (by exact g1), after_recorder, List.nil_append,
      List.nil_append] at e
    have e' : go U recorder (plug { k1 with buffer := [] } bs1 (bs1.map .box)) (k1.buffer ++ y) =
      (plug k2 (after recorder [] bs) ([] ++ bs.map .box), none) := e
    rcases yields_or U { k1 with buffer := [] } (k1.buffer ++ y) rfl g1 g2 with g | ⟨k2', bs2, -, -, g4⟩
    · exact absurd (by rw [e']) (g bs1 (bs1.map .box))
    · rw [g4 recorder bs1 _ (takes_recorder _ _)] at e'
      simp only [Prod.mk.injEq, and_true] at e'
      obtain ⟨e1, e2⟩ := plug_eq e'
      rw [after_recorder, after_recorder, List.nil_append] at e1
      refine ⟨k1, bs1, bs2, g1, g2, e1.symm, g3, ?_⟩
      intro A H a t ht
      rw [g4 H a t ht, e2]

theorem yields_nil {k : St Unit} (h : Idle k) : Yields U k [] k [] := by
  intro A H a t _
  rw [go_nil U H (plug k a t) h.disconnecting h.buffer]
  simp [after]

theorem yields_box {k : St Unit} (h : Idle k) {b : Box} (hb : LegalBox b) {x : Bytes} (hx : serialize b = .ok x) :
    ∃ k', Idle k' ∧ Yields U k x k' [arrived b] := by
  obtain ⟨x', e1, e2⟩ := go_box U recorder b hb
  rw [hx] at e1
  cases e1
  obtain ⟨st, f1, f2, f3, f4, f5, f6, -, f8⟩ := e2 (plug k [] []) [] h.lineMode h.buffer h.reqBuf h.disconnecting h.inner
    (fun _ _ => ⟨rfl, rfl, rfl⟩)
  rw [List.append_nil, go_nil U recorder st f5 f3] at f1
  have := yields_of_recorder U k x h.buffer h.disconnecting h.inner f1
  rw [f8] at this
  exact ⟨core st, ⟨f2, f3, f4, f5, f6⟩, this⟩

end Verif.Juice
