import Verif.Model.JuiceWire
/-!
# What a legal juice box is, and when two boxes are the same
-/
namespace Verif.Juice
open Verif.Py

/-- A key that can travel: ASCII, no `": "`, no line break, not starting with a space. -/
structure WireKey (k : Str) : Prop where
  ascii : ∀ c ∈ k, c < 128
  noColon : ¬ [58, 32] <:+: k
  noBreak : ¬ [13, 10] <:+: k
  noSpace : k.head? ≠ some 32

/-- The keys the protocol can carry faithfully: no upper-case letter, no hyphen, not a Python keyword — or a
capitalised Python keyword. -/
def CanonicalKey (k : Str) : Prop :=
  ((∀ c ∈ k, ¬ (65 ≤ c ∧ c ≤ 90) ∧ c ≠ 45) ∧ k ∉ keywords) ∨ k ∈ keywords.map asciiTitle

/-- A box that the protocol can carry: a dictionary with canonical keys, none of them `_length`, values that
are well-formed Unicode text, and a non-empty ASCII body if it has one. -/
structure LegalBox (b : Box) : Prop where
  wf : (b.map Prod.fst).Nodup
  noLength : ∀ p ∈ b, p.1 ≠ LENGTH
  keys : ∀ p ∈ b, WireKey p.1 ∧ CanonicalKey p.1
  values : ∀ p ∈ b, ∀ c ∈ p.2, IsScalar c
  body : ∀ p ∈ b, p.1 = BODY → p.2 ≠ [] ∧ ∀ c ∈ p.2, c < 128

/-- Equal as dictionaries: the same items, each key once. -/
def SameBox (b b' : Box) : Prop := (b'.map Prod.fst).Nodup ∧ ∀ p, p ∈ b' ↔ p ∈ b

/-- An application that just takes every box. -/
def Benign {A : Type} (H : A → Box → Outcome A) : Prop :=
  ∀ a b, (H a b).err = none ∧ (H a b).disconnect = false ∧ (H a b).switch = false

end Verif.Juice
