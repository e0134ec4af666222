import Verif.Props.JuiceArgs
/-!
# C29 for an argument that is called `body`

`JuiceBox.serialize` writes the value under `body` after the header, with its length in the header.
-/
namespace Verif.JuiceArgs
open Verif.Py Verif.Juice

/-- `box` is `tb` with some of the texts encoded; the body is as long as its text, which for bytes means ASCII. -/
def Encodes (box : Dict Str Val) (tb : Box) : Prop :=
  List.Forall₂ (fun p q => p.1 = q.1 ∧ WireText p.2 q.2 ∧ (p.1 = BODY → p.2.length = q.2.length)) box tb

theorem encodes_get {box : Dict Str Val} {tb : Box} (h : Encodes box tb) (k : Str) :
    (Dict.get? box k = none ∧ Dict.get? tb k = none) ∨
    ∃ v t, Dict.get? box k = some v ∧ Dict.get? tb k = some t ∧ WireText v t ∧ (k = BODY → v.length = t.length) := by
  unfold Encodes at h
  induction h with
  | nil => exact .inl ⟨rfl, rfl⟩
  | @cons p q l l' hp hl ih =>
    obtain ⟨k1, v1⟩ := p
    obtain ⟨k2, v2⟩ := q
    simp only at hp
    obtain ⟨rfl, h1, h2⟩ := hp
    rw [Dict.get?, Dict.get?]
    by_cases e : k1 = k
    · rw [if_pos e, if_pos e]
      exact .inr ⟨v1, v2, rfl, rfl, h1, fun hk => h2 (e.trans hk)⟩
    · rw [if_neg e, if_neg e]
      exact ih

theorem serialize_body_eq (box : Dict Str Val) (tb : Box) (h : Encodes box tb) : serialize box = Juice.serialize tb := by
  have hlen : ((Dict.get? box BODY).getD (.text [])).length = ((Dict.get? tb BODY).getD []).length := by
    rcases encodes_get h BODY with ⟨h1, h2⟩ | ⟨v, t, h1, h2, -, h3⟩
    · rw [h1, h2]; rfl
    · rw [h1, h2]; exact h3 rfl
  have hitems : ∀ (l : Dict Str Val) (l' : Box), Encodes l l' → serializeItems box l = Juice.serializeItems tb l' := by
    intro l l' hl
    unfold Encodes at hl
    induction hl with
    | nil => rfl
    | @cons p q l l' hp hl ih =>
      obtain ⟨k1, v1⟩ := p
      obtain ⟨k2, v2⟩ := q
      simp only at hp
      obtain ⟨rfl, hw, -⟩ := hp
      rw [serializeItems, Juice.serializeItems, serializeItem, ih]
      by_cases hb : k1 = BODY
      · simp only [hb, if_true, Val.bytes, hlen]
        cases ensureBinary LENGTH with
        | error e => rfl
        | ok kb =>
          simp only [bind, Except.bind, pure, Except.pure]
          cases ensureBinary (natStr ((Dict.get? tb BODY).getD []).length) <;> rfl
      · simp only [hb, if_false, bytes_of_wireText hw]
        cases ensureBinary k1 with
        | error e => rfl
        | ok kb =>
          cases ensureBinary v2 with
          | error e => rfl
          | ok vb => simp only [bind, Except.bind, pure, Except.pure]
  have hhas : Dict.has box LENGTH = Dict.has tb LENGTH := by
    unfold Dict.has
    rcases encodes_get h LENGTH with ⟨h1, h2⟩ | ⟨v, t, h1, h2, -⟩ <;> rw [h1, h2] <;> rfl
  unfold serialize Juice.serialize
  rw [hhas, hitems box tb h]
  rcases encodes_get h BODY with ⟨h1, h2⟩ | ⟨v, t, h1, h2, h3, -⟩
  · rw [h1, h2]
  · rw [h1, h2]
    simp only [bytes_of_wireText h3]

/-- **C29.** A box with encoded values, among them a body, is on the wire what its texts are, and arrives as these. -/
theorem body_crosses_the_wire (U : Uni) (box : Dict Str Val) (tb : Box) (h : Encodes box tb) (hl : LegalBox tb) :
    ∃ x b', serialize box = .ok x ∧ parseString U x = .ok [b'] ∧ SameBox tb b' := by
  obtain ⟨xs, bs', p1, p2, p3⟩ := parseString_boxes U [tb] (by simpa using hl)
  cases p1 with
  | @cons _ x _ xs1 px pn =>
    cases pn
    cases p2 with
    | @cons _ b' _ bs1 q qn =>
      cases qn
      refine ⟨x, b', by rw [serialize_body_eq box tb h]; exact px, by simpa using p3, q⟩

/-- `{'a': '1', 'body': b'xyz'}`: the length in the header, an empty line, the body. -/
example : (serialize [([97], .text [49]), (BODY, .raw [120, 121, 122])]).toOption = some
    [65, 58, 32, 49, 13, 10, 45, 76, 101, 110, 103, 116, 104, 58, 32, 51, 13, 10, 13, 10, 120, 121, 122] := by decide +kernel
example : Encodes [(BODY, .raw [120, 121, 122])] [(BODY, [120, 121, 122])] :=
  .cons ⟨rfl, by unfold WireText; decide, fun _ => rfl⟩ .nil

end Verif.JuiceArgs
