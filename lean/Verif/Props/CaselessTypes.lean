import Verif.Model.CaselessTypes
import Verif.Props.CaselessUnicode
import Verif.Props.Caseless
/-!
# C132: caseless text and caseless bytes

Text never equals bytes; everything else between them raises `TypeError`. The full claim also wants `str()` of a `Caseless` to be its
text and the items of a `Caseless` to be in it; both are false of bytes (and the second of text with a final sigma, C123).
-/
namespace Verif.CaselessTypes
open Verif.Py
open Verif.Caseless (Str CaseVariant)
open Verif.CaselessUnicode (Database)

/-- One is text and the other bytes. -/
def Mixed (a b : Value) : Prop := (∃ s t, a = .text s ∧ b = .bytes t) ∨ ∃ s t, a = .bytes s ∧ b = .text t

theorem both_mixed {α : Type} (f : Str → Str → α) (D : Database) {a b : Value} (h : Mixed a b) :
    both f (lower D a) (lower D b) = .error .typeError := by
  rcases h with ⟨s, t, rfl, rfl⟩ | ⟨s, t, rfl, rfl⟩ <;> rfl

/-- **C132.** Text and bytes are not equal, whatever they are; they cannot be ordered or searched in one another. -/
theorem mixed_partial (D : Database) {a b : Value} (h : Mixed a b) :
    eq D a b = false ∧ ne D a b = true ∧
    lt D a b = .error .typeError ∧ le D a b = .error .typeError ∧ gt D a b = .error .typeError ∧ ge D a b = .error .typeError ∧
    contains D a b = .error .typeError ∧ count D a b = .error .typeError ∧ find D a b = .error .typeError ∧
    rfind D a b = .error .typeError ∧ startswith D a b = .error .typeError ∧ endswith D a b = .error .typeError := by
  refine ⟨?_, ?_, both_mixed _ D h, both_mixed _ D h, both_mixed _ D h, both_mixed _ D h, both_mixed _ D h, both_mixed _ D h,
    both_mixed _ D h, both_mixed _ D h, both_mixed _ D h, both_mixed _ D h⟩
  · rcases h with ⟨s, t, rfl, rfl⟩ | ⟨s, t, rfl, rfl⟩ <;> simp [eq, lower]
  · rcases h with ⟨s, t, rfl, rfl⟩ | ⟨s, t, rfl, rfl⟩ <;> simp [ne, lower]

/-- **C132.** Text among text is as `CaselessUnicode` says, bytes among bytes as `Caseless` says. -/
theorem same_partial (D : Database) (s t : Str) :
    (eq D (.text s) (.text t) = CaselessUnicode.eq D s t ∧ lt D (.text s) (.text t) = .ok (CaselessUnicode.lt D s t) ∧
      le D (.text s) (.text t) = .ok (CaselessUnicode.le D s t) ∧ gt D (.text s) (.text t) = .ok (CaselessUnicode.gt D s t) ∧
      ge D (.text s) (.text t) = .ok (CaselessUnicode.ge D s t) ∧
      contains D (.text s) (.text t) = .ok (CaselessUnicode.contains D s t) ∧
      count D (.text s) (.text t) = .ok (CaselessUnicode.count D s t none none) ∧
      find D (.text s) (.text t) = .ok (CaselessUnicode.find D s t none none) ∧
      rfind D (.text s) (.text t) = .ok (CaselessUnicode.rfind D s t none none) ∧
      startswith D (.text s) (.text t) = .ok (CaselessUnicode.startswith D s (.one t) none none) ∧
      endswith D (.text s) (.text t) = .ok (CaselessUnicode.endswith D s (.one t) none none)) ∧
    ((eq D (.bytes s) (.bytes t) = true ↔ CaseVariant s t) ∧ (lt D (.bytes s) (.bytes t) = .ok true ↔ Caseless.Precedes s t) ∧
      le D (.bytes s) (.bytes t) = .ok (Caseless.le s t) ∧ gt D (.bytes s) (.bytes t) = .ok (Caseless.gt s t) ∧
      ge D (.bytes s) (.bytes t) = .ok (Caseless.ge s t) ∧
      contains D (.bytes s) (.bytes t) = .ok (Caseless.contains s t) ∧
      count D (.bytes s) (.bytes t) = .ok (Caseless.count s t none none) ∧
      find D (.bytes s) (.bytes t) = .ok (Caseless.find s t none none) ∧
      rfind D (.bytes s) (.bytes t) = .ok (Caseless.rfind s t none none) ∧
      startswith D (.bytes s) (.bytes t) = .ok (Caseless.startswith s (.one t) none none) ∧
      endswith D (.bytes s) (.bytes t) = .ok (Caseless.endswith s (.one t) none none)) := by
  refine ⟨⟨?_, rfl, rfl, rfl, rfl, rfl, rfl, rfl, rfl, rfl, rfl⟩, ⟨?_, ?_, rfl, rfl, rfl, rfl, rfl, rfl, rfl, rfl, rfl⟩⟩
  · simp only [eq, lower, CaselessUnicode.eq]
    rw [Bool.eq_iff_iff]
    simp
  · rw [← Caseless.caseless_eq_iff]
    simp [eq, lower, Caseless.eq]
  · rw [← Caseless.caseless_lt_iff]
    exact ⟨fun h => Except.ok.inj h, fun h => congrArg Except.ok h⟩

/-- **C132.** A tuple of prefixes or suffixes of both kinds: the answer is yes if one of the right kind fits and nothing of the wrong
kind is before it; `TypeError` if something of the wrong kind comes before any that fits; otherwise no. -/
theorem tuple_partial (f : Value → Except PyErr Bool) (ok : Value → Prop) (fits : Value → Prop)
    (h1 : ∀ p, ok p → (f p = .ok true ∧ fits p ∨ f p = .ok false ∧ ¬ fits p)) (h2 : ∀ p, ¬ ok p → f p = .error .typeError)
    (ps : List Value) :
    (anyOf f ps = .ok true ↔ ∃ pre p post, ps = pre ++ p :: post ∧ (∀ q ∈ pre, ok q) ∧ ok p ∧ fits p) ∧
    (anyOf f ps = .error .typeError ↔ ∃ pre p post, ps = pre ++ p :: post ∧ (∀ q ∈ pre, ok q ∧ ¬ fits q) ∧ ¬ ok p) ∧
    (anyOf f ps = .ok false ↔ ∀ p ∈ ps, ok p ∧ ¬ fits p) := by
  induction ps with
  | nil => simp [anyOf]
  | cons p ps ih =>
    obtain ⟨i1, i2, i3⟩ := ih
    by_cases hp : ok p
    · rcases h1 p hp with ⟨e, hf⟩ | ⟨e, hf⟩
      · have ea : anyOf f (p :: ps) = .ok true := by rw [anyOf, e]
        rw [ea]
        refine ⟨⟨fun _ => ⟨[], p, ps, rfl, by simp, hp, hf⟩, fun _ => rfl⟩, ⟨fun h => (by cases h), ?_⟩, ⟨fun h => (by cases h), fun h => absurd hf (h p (by simp)).2⟩⟩
        rintro ⟨pre, q, post, e1, hpre, hq⟩
        cases pre with
        | nil => cases e1; exact absurd hp hq
        | cons x pre => cases e1; exact absurd hf (hpre p (by simp)).2
      · have ea : anyOf f (p :: ps) = anyOf f ps := by rw [anyOf, e]
        rw [ea, i1, i2, i3]
        refine ⟨⟨?_, ?_⟩, ⟨?_, ?_⟩, ⟨?_, ?_⟩⟩
        · rintro ⟨pre, q, post, rfl, hpre, hq⟩
          exact ⟨p :: pre, q, post, rfl, fun x hx => by rcases List.mem_cons.1 hx with rfl | hx; exacts [hp, hpre x hx], hq⟩
        · rintro ⟨pre, q, post, e1, hpre, hq⟩
          cases pre with
          | nil => cases e1; exact absurd hq.2 hf
          | cons x pre => cases e1; exact ⟨pre, q, post, rfl, fun y hy => hpre y (by simp [hy]), hq⟩
        · rintro ⟨pre, q, post, rfl, hpre, hq⟩
          exact ⟨p :: pre, q, post, rfl, fun x hx => by rcases List.mem_cons.1 hx with rfl | hx; exacts [⟨hp, hf⟩, hpre x hx], hq⟩
        · rintro ⟨pre, q, post, e1, hpre, hq⟩
          cases pre with
          | nil => cases e1; exact absurd hp hq
          | cons x pre => cases e1; exact ⟨pre, q, post, rfl, fun y hy => hpre y (by simp [hy]), hq⟩
        · intro h x hx
          rcases List.mem_cons.1 hx with rfl | hx
          exacts [⟨hp, hf⟩, h x hx]
        · exact fun h x hx => h x (by simp [hx])
    · have ea : anyOf f (p :: ps) = .error .typeError := by rw [anyOf, h2 p hp]
      rw [ea]
      refine ⟨⟨fun h => (by cases h), ?_⟩, ⟨fun _ => ⟨[], p, ps, rfl, by simp, hp⟩, fun _ => rfl⟩, ⟨fun h => (by cases h), fun h => absurd (h p (by simp)).1 hp⟩⟩
      rintro ⟨pre, q, post, e1, hpre, hq⟩
      cases pre with
      | nil => cases e1; exact absurd hq.1 hp
      | cons x pre => cases e1; exact absurd (hpre p (by simp)) hp

/-- The kind of a value. -/
def SameKind (a b : Value) : Prop := ¬ Mixed a b

theorem sameKind_cases {a b : Value} (h : SameKind a b) : (∃ s t, a = .text s ∧ b = .text t) ∨ ∃ s t, a = .bytes s ∧ b = .bytes t := by
  cases a with
  | text s =>
    cases b with
    | text t => exact .inl ⟨s, t, rfl, rfl⟩
    | bytes t => exact absurd (.inl ⟨s, t, rfl, rfl⟩) h
  | bytes s =>
    cases b with
    | text t => exact absurd (.inr ⟨s, t, rfl, rfl⟩) h
    | bytes t => exact .inr ⟨s, t, rfl, rfl⟩

/-- **C132**, the same for the two methods. -/
theorem affixes_partial (D : Database) (a : Value) (ps : List Value) :
    (startswithAny D a ps = .error .typeError ↔
      ∃ pre p post, ps = pre ++ p :: post ∧ (∀ q ∈ pre, startswith D a q = .ok false) ∧ Mixed a p) ∧
    (endswithAny D a ps = .error .typeError ↔
      ∃ pre p post, ps = pre ++ p :: post ∧ (∀ q ∈ pre, endswith D a q = .ok false) ∧ Mixed a p) ∧
    (startswithAny D a ps = .ok true ↔
      ∃ pre p post, ps = pre ++ p :: post ∧ (∀ q ∈ pre, SameKind a q) ∧ startswith D a p = .ok true) ∧
    (endswithAny D a ps = .ok true ↔
      ∃ pre p post, ps = pre ++ p :: post ∧ (∀ q ∈ pre, SameKind a q) ∧ endswith D a p = .ok true) := by
  have key : ∀ f : Value → Except PyErr Bool, (∀ p, Mixed a p → f p = .error .typeError) →
      (∀ p, SameKind a p → ∃ b, f p = .ok b) →
      (anyOf f ps = .error .typeError ↔ ∃ pre p post, ps = pre ++ p :: post ∧ (∀ q ∈ pre, f q = .ok false) ∧ Mixed a p) ∧
      (anyOf f ps = .ok true ↔ ∃ pre p post, ps = pre ++ p :: post ∧ (∀ q ∈ pre, SameKind a q) ∧ f p = .ok true) := by
    intro f hm hs
    have t := tuple_partial f (SameKind a) (fun p => f p = .ok true) (fun p hp => by
      obtain ⟨b, hb⟩ := hs p hp
      cases b with
      | true => exact .inl ⟨hb, hb⟩
      | false => exact .inr ⟨hb, by rw [hb]; intro h; cases h⟩)
      (fun p hp => hm p (Classical.not_not.1 hp)) ps
    have e : ∀ q, (SameKind a q ∧ ¬ f q = .ok true) ↔ f q = .ok false := by
      intro q
      constructor
      · rintro ⟨h1, h2⟩
        obtain ⟨b, hb⟩ := hs q h1
        cases b with
        | true => exact absurd hb h2
        | false => exact hb
      · intro h
        refine ⟨fun hmix => ?_, by rw [h]; intro h'; cases h'⟩
        rw [hm q hmix] at h; cases h
    have e2 : ∀ p, (SameKind a p ∧ f p = .ok true) ↔ f p = .ok true := by
      intro p
      refine ⟨fun h => h.2, fun h => ⟨fun hmix => ?_, h⟩⟩
      rw [hm p hmix] at h; cases h
    refine ⟨t.2.1.trans ?_, t.1.trans ?_⟩
    · simp only [e]
      simp only [SameKind, Classical.not_not]
    · simp only [e2]
  have k1 := key (startswith D a) (fun p h => both_mixed _ D h) (fun p h => by
    rcases sameKind_cases h with ⟨s, t, rfl, rfl⟩ | ⟨s, t, rfl, rfl⟩ <;> exact ⟨_, rfl⟩)
  have k2 := key (endswith D a) (fun p h => both_mixed _ D h) (fun p h => by
    rcases sameKind_cases h with ⟨s, t, rfl, rfl⟩ | ⟨s, t, rfl, rfl⟩ <;> exact ⟨_, rfl⟩)
  exact ⟨k1.1, k2.1, k1.2, k2.2⟩

/-- **C132.** `str()` of caseless text is the text. -/
theorem str_text_partial (s : Str) : str (.text s) = s := rfl

/-- **C132 fails.** `str()` of caseless bytes is never their text, but `b'…'`: two characters at the beginning and one at the end more, at
least. -/
theorem str_bytes_fails (s : Str) : str (.bytes s) ≠ s ∧ s.length + 3 ≤ (str (.bytes s)).length ∧ (str (.bytes s)).head? = some 98 := by
  have hl : s.length + 3 ≤ (str (.bytes s)).length := by
    have key : ∀ (q : Nat) (l : Str), l.length ≤ (l.flatMap (Literal.reprByte q)).length := by
      intro q l
      induction l with
      | nil => simp
      | cons c l ih =>
        have : 1 ≤ (Literal.reprByte q c).length := by
          unfold Literal.reprByte
          repeat' split
          all_goals simp
        rw [List.flatMap_cons, List.length_append, List.length_cons]
        omega
    have := key (Literal.quoteOf s) s
    simp only [str, Literal.reprBytes, List.length_cons, List.length_append, List.length_nil]
    omega
  refine ⟨fun h => ?_, hl, rfl⟩
  rw [h] at hl
  omega

/-- **C132 fails.** `__unicode__` raises `NameError` on Python 3. -/
theorem unicode_fails (v : Value) : unicode v = .error (.other "NameError") := rfl

/-- **C132.** The items of caseless text without a capital sigma are its characters, in order, and each is in it. -/
theorem items_text_partial (D : Database) (s : Str) (h : 0x3A3 ∉ s) :
    iter (.text s) = s.map Item.char ∧ ∀ i ∈ iter (.text s), itemIn D (.text s) i = .ok true := by
  refine ⟨rfl, fun i hi => ?_⟩
  simp only [iter, List.mem_map] at hi
  obtain ⟨c, hc, rfl⟩ := hi
  obtain ⟨x, z, rfl⟩ := List.append_of_mem hc
  have := CaselessUnicode.unicode_contains_all D x [c] z [c] (by simpa using h) ((CaselessUnicode.sameText_iff D [c] [c]).2 rfl)
  simp only [List.append_assoc, List.singleton_append] at this
  exact congrArg Except.ok this

example : iter (.text [65, 66]) = [.char 65, .char 66] := rfl

/-- **C132 fails.** No item of caseless bytes is in them: asking raises `AttributeError`. -/
theorem items_bytes_fails (D : Database) (s : Str) (h : s ≠ []) :
    iter (.bytes s) ≠ [] ∧ ∀ i ∈ iter (.bytes s), itemIn D (.bytes s) i = .error .attributeError := by
  refine ⟨by simpa [iter] using h, fun i hi => ?_⟩
  simp only [iter, List.mem_map] at hi
  obtain ⟨c, -, rfl⟩ := hi
  rfl

/-- A database for ASCII. -/
def ascii : Database := ⟨fun c => [Caseless.lowerCp c], fun c => decide ((65 ≤ c ∧ c ≤ 90) ∨ (97 ≤ c ∧ c ≤ 122)), fun _ => false⟩

example : Mixed (.text [65]) (.bytes [65]) := .inl ⟨_, _, rfl, rfl⟩
/-- `Caseless('Ab').startswith(('a', b'x'))` is true; with the tuple the other way round it is a `TypeError`. -/
example : startswithAny ascii (.text [65, 98]) [.text [97], .bytes [120]] = .ok true ∧
    startswithAny ascii (.text [65, 98]) [.bytes [120], .text [97]] = .error .typeError := ⟨rfl, rfl⟩
/-- `str(Caseless(b'A'))` is `b'A'`. -/
example : str (.bytes [65]) = [98, 39, 65, 39] := rfl
example : itemIn ascii (.text [65, 66]) (.char 98) = .ok true := rfl

end Verif.CaselessTypes
