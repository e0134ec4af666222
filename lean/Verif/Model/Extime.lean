import Verif.Py.Calendar
import Verif.Py.Float
/-!
# Model of `epsilon/extime.py`: the `Time` class without text formats

A `timedelta` is its number of microseconds.  Time zones are instances of the module's own `FixedOffset`
(a whole number of minutes); for other `tzinfo` classes see `Model/ExtimeZone` and `Model/ExtimeFold`.
-/
namespace Verif.Extime
open Verif.Py

/-- `FixedOffset(hours, minutes)` (`extime.py:83-100`): `hours * 60 + minutes`. -/
structure Tz where
  minutes : Int
  deriving DecidableEq, Repr

def fixedOffset (hours minutes : Int) : Tz := ⟨hours * 60 + minutes⟩

/-- `tzinfo.utcoffset(dt)` as `datetime` calls it: an offset of 24 hours or more raises `ValueError`. -/
def Tz.offset (z : Tz) : Except PyErr Int :=
  if -1440 < z.minutes ∧ z.minutes < 1440 then .ok (z.minutes * 60000000) else .error .valueError

/-- A `datetime`, naive or aware. -/
structure ADT where
  dt : DT
  tz : Option Tz
  deriving DecidableEq, Repr

/-- `dtime.astimezone(dst)` for a `dtime` in the zone `src`: subtract one offset, add the other
(`tzinfo.fromutc`; daylight saving is zero). -/
def astimezone (dt : DT) (src dst : Tz) : Except PyErr DT :=
  match src.offset with
  | .error e => .error e
  | .ok o =>
    match dt.add (-o) with
    | .error e => .error e
    | .ok utc =>
      match dst.offset with
      | .error e => .error e
      | .ok o' => utc.add o'

/-- `FixedOffset(0, 0)` -/
def utc : Tz := fixedOffset 0 0

/-- `a - b` for aware `datetime`s: the difference of the instants. -/
def ADT.sub (a b : ADT) : Except PyErr Int :=
  match (a.tz.getD utc).offset, (b.tz.getD utc).offset with
  | .ok o, .ok o' => .ok ((a.dt.toUs - o) - (b.dt.toUs - o'))
  | .error e, _ => .error e
  | _, .error e => .error e

/-- `datetime.__lt__`, `__eq__` on naive `datetime`s compare the fields in order. -/
def DT.fields (t : DT) : List Nat := [t.year, t.month, t.day, t.hour, t.minute, t.second, t.us]

def dtLt (a b : DT) : Bool := decide (DT.fields a < DT.fields b)

/-- `cmp(x, y)` of `epsilon/compat.py:4-8` on naive `datetime`s. -/
def dtCmp (a b : DT) : Int := (if dtLt b a then 1 else 0) - (if dtLt a b then 1 else 0)

/-- `timedelta.resolution` -/
def resolution : Int := 1

/-- A `Time`: `_time` (naive, UTC) and `resolution`. -/
structure Time where
  t : DT
  res : Int
  deriving DecidableEq, Repr

/-- `fromDatetime` (`extime.py:592-606`). -/
def fromDatetime (a : ADT) : Except PyErr Time :=
  match a.tz with
  | none => .ok ⟨a.dt, resolution⟩
  | some z =>
    match astimezone a.dt z utc with
    | .error e => .error e
    | .ok t => .ok ⟨t, resolution⟩

/-- `isAllDay` (`extime.py:920-922`). -/
def isAllDay (x : Time) : Bool := x.res == dayUs

/-- `isTimezoneDependent` (`extime.py:924-930`). -/
def isTimezoneDependent (x : Time) : Bool := x.res < dayUs

/-- `asDatetime` (`extime.py:672-684`). -/
def asDatetime (x : Time) (tz : Option Tz) : Except PyErr ADT :=
  let z := tz.getD utc
  if !isTimezoneDependent x then .ok ⟨x.t, some z⟩
  else
    match astimezone x.t utc z with
    | .error e => .error e
    | .ok t => .ok ⟨t, some z⟩

/-- `asNaiveDatetime` (`extime.py:686-693`). -/
def asNaiveDatetime (x : Time) (tz : Option Tz) : Except PyErr ADT :=
  match asDatetime x tz with
  | .error e => .error e
  | .ok a => .ok ⟨a.dt, none⟩

/-- `__add__` of a `timedelta` (`extime.py:966-969`). -/
def add (x : Time) (d : Int) : Except PyErr Time :=
  match x.t.add d with
  | .error e => .error e
  | .ok t => fromDatetime ⟨t, none⟩

/-- `__sub__` of a `timedelta` (`extime.py:987-988`). -/
def sub (x : Time) (d : Int) : Except PyErr Time :=
  match x.t.add (-d) with
  | .error e => .error e
  | .ok t => fromDatetime ⟨t, none⟩

/-- `__sub__` of a `Time` (`extime.py:990-991`). -/
def diff (x y : Time) : Except PyErr Int :=
  match asDatetime x none, asDatetime y none with
  | .ok a, .ok b => a.sub b
  | .error e, _ => .error e
  | _, .error e => .error e

/-- `__eq__` (`extime.py:941-944`); `none`: not a `Time`. -/
def eq (x : Time) : Option Time → Bool
  | some y => dtCmp x.t y.t == 0
  | none => false

/-- `__ne__` (`extime.py:946-947`). -/
def ne (x : Time) (y : Option Time) : Bool := !eq x y

/-- `other in self` (`extime.py:954-964`); `none`: not a `Time`. -/
def contains (x : Time) : Option Time → Except PyErr Bool
  | none => .error .typeError
  | some y =>
    if dtLt y.t x.t then .ok false
    else
      match x.t.add x.res, y.t.add y.res with
      | .ok a, .ok b => if dtLt a b then .ok false else .ok true
      | .error e, _ => .error e
      | _, .error e => .error e

/-- `oneDay` (`extime.py:904-914`). -/
def oneDay (x : Time) : Except PyErr Time :=
  match asDatetime x none with
  | .error e => .error e
  | .ok a =>
    match DT.mk? a.dt.year a.dt.month a.dt.day 0 0 0 0 with
    | .error e => .error e
    | .ok m =>
      match fromDatetime ⟨m, a.tz⟩ with
      | .error e => .error e
      | .ok y => .ok { y with res := dayUs }

/-- The four `Time`s `getBounds` compares (`extime.py:892-901`), in the order they are made. -/
def boundsArgs (x : Time) (tz : Option Tz) : Except PyErr ((Time × Time) × (Time × Time)) :=
  let time : ADT := if x.res ≥ dayUs ∧ tz ≠ none then ⟨x.t, tz⟩ else ⟨x.t, none⟩
  match fromDatetime time, fromDatetime ⟨x.t, none⟩ with
  | .ok a, .ok b =>
    match time.dt.add x.res with
    | .error e => .error e
    | .ok e' =>
      match fromDatetime ⟨e', time.tz⟩, fromDatetime ⟨e', none⟩ with
      | .ok c, .ok d => .ok ((a, b), (c, d))
      | .error e, _ => .error e
      | _, .error e => .error e
  | .error e, _ => .error e
  | _, .error e => .error e

/-- `getBounds` (`extime.py:860-902`) on Python 3: `min` needs `<`, which `Time` does not define (it has only
the Python 2 `__cmp__`), so the call raises `TypeError`, if making the arguments of `min` did not raise before. -/
def getBounds3 (x : Time) (tz : Option Tz) : Except PyErr (Time × Time) :=
  let time : ADT := if x.res ≥ dayUs ∧ tz ≠ none then ⟨x.t, tz⟩ else ⟨x.t, none⟩
  match fromDatetime time with
  | .error e => .error e
  | .ok _ => .error .typeError

/-- `getBounds` on Python 2: `min` and `max` with `__cmp__` (`extime.py:936-939`); they return the first of
equal arguments. -/
def getBounds2 (x : Time) (tz : Option Tz) : Except PyErr (Time × Time) :=
  match boundsArgs x tz with
  | .error e => .error e
  | .ok ((a, b), (c, d)) =>
    .ok (if dtCmp b.t a.t < 0 then b else a, if dtCmp d.t c.t > 0 then d else c)

/-! ## `struct_time` -/

/-- `sanitizeStructTime` (`extime.py:24-34`). -/
def sanitizeStructTime (struct : List Int) : List Int :=
  ((struct.take 6).zip ([9999, 12, 31, 23, 59, 59].zip [1, 1, 1, 0, 0, 0])).map
    (fun p => max p.2.2 (min p.1 p.2.1)) ++ struct.drop 6

/-- `fromStructTime` (`extime.py:573-590`). -/
def fromStructTime (s : List Int) (tz : Option Tz) : Except PyErr Time :=
  let dt := match s.take 6 with
    | [y, m, d, h, mi, se] => DT.mk? y m d h mi se 0
    | [y, m, d, h, mi] => DT.mk? y m d h mi 0 0
    | [y, m, d, h] => DT.mk? y m d h 0 0 0
    | [y, m, d] => DT.mk? y m d 0 0 0 0
    | _ => .error .typeError
  match dt with
  | .error e => .error e
  | .ok dt =>
    match fromDatetime ⟨dt, tz⟩ with
    | .error e => .error e
    | .ok x => .ok { x with res := 1000000 }

/-- `datetime.timetuple()`; `dst()` is zero.  With an offset of zero `utctimetuple()` is the same. -/
def timetuple (t : DT) : List Int :=
  [t.year, t.month, t.day, t.hour, t.minute, t.second, t.weekday,
    (beforeMonth (isLeap t.year) t.month + t.day : Nat), 0]

/-- `asStructTime` (`extime.py:800-810`). -/
def asStructTime (x : Time) (tz : Option Tz) : Except PyErr (List Int) :=
  match asDatetime x tz with
  | .error e => .error e
  | .ok a => .ok (timetuple a.dt)

end Verif.Extime
