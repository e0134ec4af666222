import Verif.Py.Slice
/-!
# Model of `epsilon/view.py`
-/
namespace Verif.View
open Verif.Py

/-- A sequence object: a list variable (by reference, so that views are live) or a `SlicedView`
(`view.py:26-28`, fields `sequence` and `bounds`). -/
inductive Seq where
  | base (ref : Nat)
  | view (sequence : Seq) (bounds : Slice)
  deriving DecidableEq, Repr

/-- The current contents of all list variables. -/
abbrev Store (α : Type) := Nat → List α

/-- `len(seq)`: of a list, or `SlicedView.__len__` (`view.py:51-55`) with `_getIndices`
(`view.py:31-34`) inlined. -/
def Seq.len {α : Type} (σ : Store α) : Seq → Except PyErr Nat
  | .base r => .ok (σ r).length
  | .view s b => do
    let n ← s.len σ
    let (start, stop, step) ← b.indices n
    return rangeLen start stop step

/-- `seq[i]` for an integer index: of a list, or `SlicedView.__getitem__` (`view.py:37-48`, last line). -/
def Seq.getInt {α : Type} (σ : Store α) : Seq → Int → Except PyErr α
  | .base r, i => listGet (σ r) i
  | .view s b, i => do
    let n ← s.len σ
    let (start, stop, step) ← b.indices n
    let j ← rangeGet start stop step i
    s.getInt σ j

/-- `view[slice]`, the `isinstance(index, slice)` branch of `__getitem__` (`view.py:46-47`).  Only views
are sliced this way (slicing a list copies it). -/
def Seq.getSlice (s : Seq) (b : Slice) : Seq := .view s b

/-- Iteration over an object without `__iter__`: the interpreter calls `__getitem__` with `i, i+1, …`
until `IndexError`; another exception propagates.  `fuel` bounds the number of calls; `none` means the fuel
ran out. -/
def Seq.iterFrom {α : Type} (σ : Store α) (s : Seq) : Nat → Nat → Option (Except PyErr (List α))
  | 0, _ => none
  | fuel + 1, i =>
    match s.getInt σ (i : Int) with
    | .ok a => (s.iterFrom σ fuel (i + 1)).map (fun r => r.map (a :: ·))
    | .error .indexError => some (.ok [])
    | .error e => some (.error e)

end Verif.View
