import Verif.Model.ExtimePosix
import Verif.Model.ExtimeRfc
/-!
# Model of `epsilon/extime.py`: RFC 1123 dates
-/
namespace Verif.Extime
open Verif.Py

/-- `datetime.fromtimestamp(q, timezone.utc)`: as `timedelta` does, `fromtimestamp` splits the float by `modf` and rounds
the microseconds half to even (`_PyTime_ObjectToTimeval`).  A year after 9999 is a `ValueError`. -/
def fromTimestamp (q : Rat) : Except PyErr DT :=
  let us := epoch.toUs + timedeltaSeconds (.float q)
  if 0 ≤ us ∧ us < maxUs then .ok (DT.ofUs us) else .error .valueError

/-- `email.utils._format_timetuple_and_zone(d.timetuple(), 'GMT')`: `'%s, %02d %s %04d %02d:%02d:%02d %s'`. -/
def formatGmt (d : DT) : List Nat :=
  rfcWeekdays.getD d.weekday [] ++ [44, 32] ++ (padZero 2 d.day ++ 32 :: (rfcMonths.getD (d.month - 1) [] ++
    32 :: (padZero 4 d.year ++ 32 :: (padZero 2 d.hour ++ 58 :: (padZero 2 d.minute ++ 58 :: (padZero 2 d.second ++
      [32, 71, 77, 84]))))))

/-- `asRFC1123` (`extime.py:732-740`); `email.utils.formatdate(t, False, True)` as in CPython 3.7. -/
def asRFC1123 (x : Time) : Except PyErr (List Nat) :=
  match fromTimestamp (asPOSIX x) with
  | .error e => .error e
  | .ok d => .ok (formatGmt d)

end Verif.Extime
