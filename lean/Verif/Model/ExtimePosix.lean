import Verif.Model.Extime
/-!
# Model of `epsilon/extime.py`: POSIX timestamps
-/
namespace Verif.Extime
open Verif.Py

/-- `_EPOCH` (`extime.py:14`): 1 January 1970. -/
def epoch : DT := ⟨1970, 1, 1, 0, 0, 0, 0⟩

/-- A number of seconds: an `int` or a finite `float`. -/
inductive Secs where
  | int (n : Int)
  | float (q : Rat)

/-- The integral part, as `modf` has it: towards zero. -/
def trunc (q : Rat) : Int := if 0 ≤ q then ⌊q⌋ else ⌈q⌉

/-- `timedelta(seconds=s)`, in microseconds.  A float is split by `modf`; the microseconds are the product of the
fraction and `1e6`, rounded half to even. -/
def timedeltaSeconds : Secs → Int
  | .int n => n * 1000000
  | .float q => trunc q * 1000000 + rhe (fmul (q - trunc q) 1000000)

/-- `_timedeltaToSeconds` (`extime.py:53-81`): days and seconds are integers, the sum is a float. -/
def timedeltaToSeconds (d : Int) : Rat :=
  fadd ((d / dayUs * 86400 + d % dayUs / 1000000 : Int) : Rat) (fmul ((d % 1000000 : Int) : Rat) (roundF (1 / 1000000)))

/-- `asPOSIXTimestamp` (`extime.py:663-670`). -/
def asPOSIX (x : Time) : Rat := timedeltaToSeconds (x.t.toUs - epoch.toUs)

/-- `fromPOSIXTimestamp` (`extime.py:608-620`). -/
def fromPOSIX (s : Secs) : Except PyErr Time :=
  match epoch.add (timedeltaSeconds s) with
  | .error e => .error e
  | .ok d =>
    match fromDatetime ⟨d, none⟩ with
    | .error e => .error e
    | .ok x => .ok { x with res := 0 }

end Verif.Extime
