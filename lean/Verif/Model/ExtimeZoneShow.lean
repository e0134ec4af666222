import Verif.Model.ExtimeShow
import Verif.Model.ExtimeZone
/-!
# Model of `epsilon/extime.py`: `asHumanly` in the zones of `Model/ExtimeZone`
-/
namespace Verif.ExtimeZone
open Verif.Py
open Verif.Extime (Time Precision humanText isAllDay)

/-- `asHumanly` (`extime.py:812-854`) with a zone and `now` given.  `InvalidPrecision` is the catch-all error of the
model. -/
def asHumanly (x : Time) (z : Zone) (now : Time) (p : Precision) : Except PyErr (List Nat) :=
  if p = .other then .error (.other "InvalidPrecision")
  else
    match asDatetime now (some z) with
    | .error e => .error e
    | .ok n =>
      match asDatetime x (some z) with
      | .error e => .error e
      | .ok d => .ok (humanText (p == .seconds) (isAllDay x) d n)

end Verif.ExtimeZone
