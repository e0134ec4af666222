import Verif.Model.Extime
import Verif.Py.Split
import Verif.Py.Num
/-!
# Model of `epsilon/extime.py`: representation and order of Times, and the Time of now
-/
namespace Verif.Extime
open Verif.Py

/-- `Time.__init__` (`extime.py:186-192`), when `datetime.datetime.utcnow()` is `utcnow`. -/
def new (utcnow : DT) : Time := ⟨utcnow, resolution⟩

/-- `_fromNow` (`extime.py:264-266`). -/
def fromNow (now : Time) : Except PyErr Time := add now 0

/-- `Time.__cmp__` (`extime.py:936-939`), which only Python 2 calls; `none` is an object that is not a `Time`. -/
def cmp (x : Time) : Option Time → Except PyErr Int
  | none => .error .typeError
  | some y => .ok (dtCmp x.t y.t)

/-- The arguments in `repr` of a naive datetime (CPython `datetime_repr`): without microseconds if they are 0, and then without
seconds if they are 0. -/
def reprArgs (t : DT) : List Nat :=
  [t.year, t.month, t.day, t.hour, t.minute] ++
    (if t.us = 0 then (if t.second = 0 then [] else [t.second]) else [t.second, t.us])

/-- `datetime.datetime(` -/
def datetimeOpen : List Nat :=
  [100, 97, 116, 101, 116, 105, 109, 101, 46, 100, 97, 116, 101, 116, 105, 109, 101, 40]

/-- `repr` of a naive datetime. -/
def reprDatetime (t : DT) : List Nat := datetimeOpen ++ joinSep [44, 32] ((reprArgs t).map natStr) ++ [41]

/-- `extime.Time.fromDatetime(` -/
def fromDatetimeOpen : List Nat :=
  [101, 120, 116, 105, 109, 101, 46, 84, 105, 109, 101, 46, 102, 114, 111, 109, 68, 97, 116, 101, 116, 105, 109, 101, 40]

/-- `Time.__repr__` (`extime.py:949-950`). -/
def repr (x : Time) : List Nat := fromDatetimeOpen ++ reprDatetime x.t ++ [41]

end Verif.Extime
