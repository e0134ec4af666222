import Verif.Py.Core
/-!
# Python primitives: `slice.indices`, `range`, list indexing

These follow the CPython 3 *algorithms* (`Objects/sliceobject.c`, `Objects/rangeobject.c`).  The
declarative meaning of list slicing is stated separately in `Verif/Props/View.lean`.
-/
namespace Verif.Py

/-- A `slice` object with integer or `None` fields. -/
structure Slice where
  start : Option Int
  stop : Option Int
  step : Option Int
  deriving DecidableEq, Repr

/-- One bound of `slice.indices`: `None` takes the default; a negative value is shifted by the length and
clamped from below; any other value is clamped from above (`_PySlice_GetLongIndices`). -/
def adjustBound (dflt lower upper n : Int) : Option Int → Int
  | none => dflt
  | some x => if x < 0 then max (x + n) lower else min x upper

/-- `slice(start, stop, step).indices(n)`; `ValueError` for a zero step. -/
def Slice.indices (s : Slice) (n : Nat) : Except PyErr (Int × Int × Int) :=
  let step := s.step.getD 1
  if step = 0 then .error .valueError
  else
    let lower : Int := if step < 0 then -1 else 0
    let upper : Int := if step < 0 then (n : Int) - 1 else n
    .ok (adjustBound (if step < 0 then upper else lower) lower upper n s.start,
         adjustBound (if step < 0 then lower else upper) lower upper n s.stop,
         step)

/-- `len(range(start, stop, step))`, `step ≠ 0` (`compute_range_length`). -/
def rangeLen (start stop step : Int) : Nat :=
  if step > 0 then
    if start < stop then (1 + (stop - 1 - start) / step).toNat else 0
  else
    if start > stop then (1 + (start - 1 - stop) / (-step)).toNat else 0

/-- `range(start, stop, step)[i]` with negative indices; `IndexError` when out of range. -/
def rangeGet (start stop step : Int) (i : Int) : Except PyErr Int :=
  let n : Int := rangeLen start stop step
  let j := if i < 0 then i + n else i
  if j < 0 ∨ j ≥ n then .error .indexError else .ok (start + j * step)

/-- `l[i]` for a list and an integer index. -/
def listGet {α : Type} (l : List α) (i : Int) : Except PyErr α :=
  let j := if i < 0 then i + l.length else i
  if j < 0 then .error .indexError
  else match l[j.toNat]? with
    | some a => .ok a
    | none => .error .indexError

end Verif.Py
