import Verif.Model.JuiceArgs
import Verif.Spec.Juice
/-!
# When an argument value survives
-/
namespace Verif.JuiceArgs
open Verif.Py Verif.Juice

/-- Python `==` on the objects modelled (except that `True == 1` and `1 == 1.0` are not counted): dictionaries are compared key by
key, whatever their order. -/
inductive Same : Obj → Obj → Prop where
  | none : Same .none .none
  | int (n : Int) : Same (.int n) (.int n)
  | str (s : Str) : Same (.str s) (.str s)
  | bool (b : Bool) : Same (.bool b) (.bool b)
  | bytes (b : Bytes) : Same (.bytes b) (.bytes b)
  | float {x y : PyFloat} (h : x.eq y) : Same (.float x) (.float y)
  /-- `Time.__eq__` compares the instants. -/
  | time {t t' : Extime.Time} (h : t.t = t'.t) : Same (.time t) (.time t')
  | path (p : Str) : Same (.path p) (.path p)
  | list {l l' : List Obj} (h : List.Forall₂ Same l l') : Same (.list l) (.list l')
  | dict {d d' : List (Str × Obj)} (h : ∀ k, Option.Rel Same (Dict.get? d k) (Dict.get? d' k)) : Same (.dict d) (.dict d')

/-- The text that arrives at the other end when `v` is put in a box. -/
def WireText : Val → Str → Prop
  | .text s, t => s = t
  | .raw b, t => utf8Encode t = some b

/-- `x` survives: it is encoded, as well-formed text, and decoding that — directly, or after a trip over the wire
has turned `bytes` into `str` — gives an equal object. -/
def Survives (c : Codec) (x : Obj) : Prop :=
  ∃ v t, c.enc x = .ok v ∧ WireText v t ∧ (∀ ch ∈ t, IsScalar ch) ∧
    (∃ y, c.dec v = .ok y ∧ Same x y) ∧ ∃ y, c.dec (.text t) = .ok y ∧ Same x y

/-- The object given for the argument `name`: the last one whose key normalises to it. -/
def given (U : Uni) (objects : List (Str × Obj)) (name : Str) : Option Obj :=
  ((objects.filter fun p => decide (normalizeKey U p.1 = name)).getLast?).map Prod.snd

/-- An acceptable object for an argument: one that survives, or nothing (or `None`) for an optional argument. -/
def Acceptable (c : Codec) (o : Option Obj) : Prop :=
  (∃ x, o = some x ∧ Survives c x) ∨ (c.optional = true ∧ (o = none ∨ o = some .none))

end Verif.JuiceArgs
