import Verif.Model.ExtimeRfc
import Verif.Model.ExtimeHuman
/-!
# Model of `epsilon/extime.py`: `asHumanly`

`strftime` is that of the C locale; `%Y` prints the year without padding, as the GNU C library does.  `now` is always
given (the branch that reads the clock computes the same with `Time()`).
-/
namespace Verif.Extime
open Verif.Py

/-- `Time.Precision` (`extime.py:167-169`); `other` is any object that is neither of the two. -/
inductive Precision | minutes | seconds | other
  deriving DecidableEq, Repr

/-- `dtime.strftime(fmt)` for the two values of `_timeFormat` (`extime.py:172-174`): `%I:%M %p`, `%I:%M:%S %p`. -/
def clockText (secs : Bool) (t : DT) : List Nat :=
  padZero 2 (if t.hour % 12 = 0 then 12 else t.hour % 12) ++ [58] ++ padZero 2 t.minute ++
    (if secs then [58] ++ padZero 2 t.second else []) ++ [32] ++ (if t.hour < 12 then [65, 77] else [80, 77])

/-- `dtime.date() == now.date()` -/
def sameDate (a b : DT) : Bool := a.year == b.year && a.month == b.month && a.day == b.day

/-- What follows the conversions of `self` and `now` (`extime.py:842-854`). -/
def humanText (secs allDay : Bool) (d n : DT) : List Nat :=
  if sameDate d n then
    if allDay then [97, 108, 108, 32, 100, 97, 121]
    else (clockText secs d).map asciiLower
  else
    natStr d.day ++ [32] ++ rfcMonths.getD (d.month - 1) [] ++ (if d.year == n.year then [] else [32] ++ natStr d.year) ++
      (if allDay then [] else ([44, 32] ++ clockText secs d).map asciiLower)

/-- `asHumanly` (`extime.py:812-854`).  `InvalidPrecision` is the catch-all error of the model. -/
def asHumanly (x : Time) (tz : Option Tz) (now : Time) (p : Precision) : Except PyErr (List Nat) :=
  if p = .other then .error (.other "InvalidPrecision")
  else
    match asDatetime now tz with
    | .error e => .error e
    | .ok n =>
      match asDatetime x tz with
      | .error e => .error e
      | .ok d => .ok (humanText (p == .seconds) (isAllDay x) d.dt n.dt)

end Verif.Extime
