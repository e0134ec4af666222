import Verif.Model.Extime
import Verif.Py.Num
/-!
# Model of `epsilon/extime.py`: ISO 8601

The regular expression `iso8601pattern` is modelled by the list of all its matches, in the order in which a
backtracking matcher finds them; `re.match` takes the first.
-/
namespace Verif.Extime
open Verif.Py

/-- The characters `\d` matches, with the values `int` and `float` give them.  On Python 3 these are the Unicode
decimal digits (category `Nd`); only ASCII is fixed here. -/
structure Digits where
  val : Nat → Option Nat
  lt : ∀ c v, val c = some v → v < 10
  ascii : ∀ c, c < 128 → val c = if 48 ≤ c ∧ c ≤ 57 then some (c - 48) else none

/-- `\d` on Python 2 byte strings. -/
def asciiDigits : Digits where
  val c := if 48 ≤ c ∧ c ≤ 57 then some (c - 48) else none
  lt c v h := by split at h <;> simp at h; omega
  ascii _ _ := rfl

/-- `\d` -/
def Digits.is (D : Digits) (c : Nat) : Bool := (D.val c).isSome

/-- `int(s)` for a string of digits. -/
def Digits.int (D : Digits) (s : List Nat) : Nat := ofDigits 10 (s.map fun c => (D.val c).getD 0)

/-- `float('.' + s)` for a string of digits. -/
def Digits.float (D : Digits) (s : List Nat) : Rat := roundF ((D.int s : Rat) / 10 ^ s.length)

/-! ## The pattern -/

/-- The named groups; a group that took no part is `None`. -/
structure Groups where
  year : List Nat := []
  month1 : Option (List Nat) := none
  week1 : Option (List Nat) := none
  month2 : Option (List Nat) := none
  day : Option (List Nat) := none
  week2 : Option (List Nat) := none
  weekday : Option (List Nat) := none
  dayofyear : Option (List Nat) := none
  hour : Option (List Nat) := none
  minute : Option (List Nat) := none
  second : Option (List Nat) := none
  frac : Option (List Nat) := none
  zulu : Bool := false
  /-- whether the sign is `-`, and the digits -/
  tzhour : Option (Bool × List Nat) := none
  tzmin : Option (List Nat) := none
  deriving DecidableEq, Repr

/-- `\d{n}` -/
def rDigits (D : Digits) (n : Nat) (s : List Nat) : List (List Nat × List Nat) :=
  if (s.take n).length = n ∧ (s.take n).all D.is then [(s.take n, s.drop n)] else []

/-- a literal character -/
def rLit (c : Nat) : List Nat → List (List Nat)
  | [] => []
  | x :: s => if x = c then [s] else []

/-- `c?` -/
def rOpt (c : Nat) (s : List Nat) : List (List Nat) := rLit c s ++ [s]

/-- `\d+`: the longest first. -/
def rMany (D : Digits) (s : List Nat) : List (List Nat × List Nat) :=
  ((List.range (s.takeWhile D.is).length).reverse).map fun k => (s.take (k + 1), s.drop (k + 1))

/-- `c?\d{n}` -/
def rOptDigits (D : Digits) (c n : Nat) (s : List Nat) : List (List Nat × List Nat) :=
  (rOpt c s).flatMap (rDigits D n)

/-- `-?W\d{2}` -/
def rWeek (D : Digits) (s : List Nat) : List (List Nat × List Nat) :=
  (rOpt 45 s).flatMap fun s => (rLit 87 s).flatMap (rDigits D 2)

/-- a specific day (`extime.py:361-369`) -/
def rDay (D : Digits) (g : Groups) (s : List Nat) : List (Groups × List Nat) :=
  ((rOptDigits D 45 2 s).flatMap fun m => (rOptDigits D 45 2 m.2).map fun d =>
    ({ g with month2 := some m.1, day := some d.1 }, d.2)) ++
  ((rWeek D s).flatMap fun w => (rOptDigits D 45 1 w.2).map fun d =>
    ({ g with week2 := some w.1, weekday := some d.1 }, d.2)) ++
  (rOptDigits D 45 3 s).map fun d => ({ g with dayofyear := some d.1 }, d.2)

/-- `([\.,]\d+)?` (`extime.py:376-378`) -/
def rFrac (D : Digits) (g : Groups) (s : List Nat) : List (Groups × List Nat) :=
  ((rLit 46 s ++ rLit 44 s).flatMap fun s => (rMany D s).map fun f => ({ g with frac := some f.1 }, f.2)) ++ [(g, s)]

/-- `(:?\d{2}(…)?)?` for the second (`extime.py:374-379`) -/
def rSecond (D : Digits) (g : Groups) (s : List Nat) : List (Groups × List Nat) :=
  ((rOptDigits D 58 2 s).flatMap fun x => rFrac D { g with second := some x.1 } x.2) ++ [(g, s)]

/-- …for the minute (`extime.py:372-380`) -/
def rMinute (D : Digits) (g : Groups) (s : List Nat) : List (Groups × List Nat) :=
  ((rOptDigits D 58 2 s).flatMap fun x => rSecond D { g with minute := some x.1 } x.2) ++ [(g, s)]

/-- `[+\-]\d{2}` -/
def rTzHour (D : Digits) (s : List Nat) : List ((Bool × List Nat) × List Nat) :=
  ((rLit 43 s).flatMap fun s => (rDigits D 2 s).map fun x => ((false, x.1), x.2)) ++
  ((rLit 45 s).flatMap fun s => (rDigits D 2 s).map fun x => ((true, x.1), x.2))

/-- the zone (`extime.py:381-388`) -/
def rZone (D : Digits) (g : Groups) (s : List Nat) : List (Groups × List Nat) :=
  (rLit 90 s).map (fun s => ({ g with zulu := true }, s)) ++
  ((rTzHour D s).flatMap fun h =>
    ((rOptDigits D 58 2 h.2).map fun m => ({ g with tzhour := some h.1, tzmin := some m.1 }, m.2)) ++
      [({ g with tzhour := some h.1 }, h.2)]) ++ [(g, s)]

/-- the time of day (`extime.py:370-389`) -/
def rTime (D : Digits) (g : Groups) (s : List Nat) : List (Groups × List Nat) :=
  ((rLit 84 s).flatMap fun s => (rDigits D 2 s).flatMap fun h =>
    (rMinute D { g with hour := some h.1 } h.2).flatMap fun r => rZone D r.1 r.2) ++ [(g, s)]

/-- what may follow the year (`extime.py:347-391`) -/
def rRest (D : Digits) (g : Groups) (s : List Nat) : List (Groups × List Nat) :=
  ((rOptDigits D 45 2 s).map fun m => ({ g with month1 := some m.1 }, m.2)) ++
  ((rWeek D s).map fun w => ({ g with week1 := some w.1 }, w.2)) ++
  ((rDay D g s).flatMap fun r => rTime D r.1 r.2) ++ [(g, s), (g, s)]

/-- `$`: at the end, or before a newline at the end. -/
def atEnd (s : List Nat) : Bool := s == [] || s == [10]

/-- `iso8601pattern.match(s)` (`extime.py:345-391`). -/
def matchIso (D : Digits) (s : List Nat) : Option Groups :=
  (((rDigits D 4 s).flatMap fun y => rRest D { year := y.1 } y.2).find? fun r => atEnd r.2).map (·.1)

/-! ## Parsing -/

/-- The groups as numbers (`coerceGroups`, `extime.py:420-436`); `us` is `int(round(fractionalsec * 1000000))`. -/
structure Nums where
  year : Nat
  month : Nat
  day : Nat
  week : Nat
  weekday : Nat
  dayofyear : Nat
  hour : Nat
  minute : Nat
  second : Nat
  us : Int
  deriving DecidableEq, Repr

def optInt (D : Digits) (dflt : Nat) : Option (List Nat) → Nat
  | none => dflt
  | some s => D.int s

def coerceGroups (D : Digits) (g : Groups) : Nums where
  year := D.int g.year
  month := optInt D 1 (g.month1.or g.month2)
  day := optInt D 1 g.day
  week := optInt D 1 (g.week1.or g.week2)
  weekday := optInt D 1 g.weekday
  dayofyear := optInt D 1 g.dayofyear
  hour := optInt D 0 g.hour
  minute := optInt D 0 g.minute
  second := optInt D 0 g.second
  us := rhe (fmul (D.float (g.frac.getD [48])) 1000000)

/-- The range checks (`extime.py:438-463`). -/
def Nums.inRange (n : Nums) : Bool :=
  1 ≤ n.week && n.week ≤ 53 && 1 ≤ n.weekday && n.weekday ≤ 7 && 1 ≤ n.month && n.month ≤ 12 &&
  1 ≤ n.day && n.day ≤ 31 && n.hour ≤ 24 && n.minute ≤ 59 && n.second ≤ 61 &&
  1 ≤ n.dayofyear && n.dayofyear ≤ 366

/-- `calculateTimezone` (`extime.py:410-418`). -/
def calculateTimezone (D : Digits) (g : Groups) (tz : Option Tz) : Tz :=
  if g.zulu then fixedOffset 0 0
  else match g.tzhour with
    | some (neg, h) => fixedOffset (if neg then -(D.int h : Int) else D.int h) (optInt D 0 g.tzmin)
    | none => tz.getD (fixedOffset 0 0)

/-- `calculateDtime` (`extime.py:494-552`), without the zone, which it just attaches. -/
def calculateDtime (g : Groups) (n : Nums) : Except PyErr DT :=
  if g.week1 ≠ none ∨ g.week2 ≠ none then
    if ¬ (0 < n.week ∧ n.week ≤ 53) then .error .valueError
    else
      match DT.mk? n.year 1 4 n.hour n.minute n.second n.us with
      | .error e => .error e
      | .ok d =>
        match d.add (-(d.weekday : Int) * dayUs) with
        | .error e => .error e
        | .ok d =>
          match d.add ((((n.week : Int) - 1) * 7 + n.weekday - 1) * dayUs) with
          | .error e => .error e
          | .ok d => if d.isocalendar ≠ (n.year, n.week, n.weekday) then .error .valueError else .ok d
  else if g.dayofyear ≠ none then
    match DT.mk? n.year 1 1 n.hour n.minute n.second n.us with
    | .error e => .error e
    | .ok d =>
      match d.add (((n.dayofyear : Int) - 1) * dayUs) with
      | .error e => .error e
      | .ok d => if d.year ≠ n.year then .error .valueError else .ok d
  else DT.mk? n.year n.month n.day n.hour n.minute n.second n.us

/-- `d.replace(month=d.month + 1) - d` and the like. -/
def until? (t : Except PyErr DT) (d : DT) : Except PyErr Int :=
  match t with
  | .error e => .error e
  | .ok t => .ok (t.toUs - d.toUs)

/-- `determineResolution` (`extime.py:465-492`).  `10 ** -n` is the float nearest to its value (so it is with the
usual C libraries), and `timedelta(microseconds=f)` rounds half to even. -/
def determineResolution (g : Groups) (t : DT) : Except PyErr Int :=
  match g.frac with
  | some f => .ok (max resolution (rhe (fmul (roundF (1 / 10 ^ f.length)) 1000000)))
  | none =>
    if g.second ≠ none then .ok 1000000
    else if g.minute ≠ none then .ok 60000000
    else if g.hour ≠ none then .ok 3600000000
    else if g.weekday ≠ none then .ok dayUs
    else if g.dayofyear ≠ none then .ok dayUs
    else if g.day ≠ none then .ok dayUs
    else if g.week1 ≠ none then .ok (7 * dayUs)
    else if g.week2 ≠ none then .ok (7 * dayUs)
    else if g.month1 ≠ none ∨ g.month2 ≠ none then
      if t.month = 12 then .ok (31 * dayUs)
      else until? (DT.mk? t.year (t.month + 1) t.day t.hour t.minute t.second t.us) t
    else until? (DT.mk? (t.year + 1) t.month t.day t.hour t.minute t.second t.us) t

/-- The part of `fromISO8601TimeAndDate` after the match (`extime.py:561-569`). -/
def fromGroups (D : Digits) (g : Groups) (tz : Option Tz) : Except PyErr Time :=
  let n := coerceGroups D g
  if !n.inRange then .error .valueError
  else
    let timezone := if g.hour ≠ none then some (calculateTimezone D g tz) else none
    match calculateDtime g n with
    | .error e => .error e
    | .ok d =>
      match fromDatetime ⟨d, timezone⟩ with
      | .error e => .error e
      | .ok x =>
        match determineResolution g x.t with
        | .error e => .error e
        | .ok r => .ok { x with res := r }

/-- `fromISO8601TimeAndDate` (`extime.py:394-571`). -/
def parseIso (D : Digits) (s : List Nat) (tz : Option Tz) : Except PyErr Time :=
  match matchIso D s with
  | none => .error .valueError
  | some g => fromGroups D g tz

/-! ## Printing -/

/-- `_timedeltaToSignHrMin` (`extime.py:36-51`): whether negative, the hours, the minutes. -/
def signHrMin (offset : Int) : Bool × Nat × Nat :=
  let minutes := rhe (fdiv offset 60000000)
  let neg := decide (minutes < 0)
  let m := if neg then (-minutes).toNat else minutes.toNat
  (neg, m / 60, m % 60)

/-- `s.rstrip('0')` -/
def rstrip0 (s : List Nat) : List Nat := (s.reverse.dropWhile (· == 48)).reverse

/-- The zone printed (`extime.py:769-776`). -/
def timezoneText (timeSep : List Nat) (tz : Option Tz) (includeTimezone : Bool) : List Nat :=
  if includeTimezone then
    match tz with
    | none => [43, 48, 48] ++ timeSep ++ [48, 48]
    | some z =>
      let r := signHrMin (z.minutes * 60000000)
      [if r.1 then 45 else 43] ++ padZero 2 r.2.1 ++ timeSep ++ padZero 2 r.2.2
  else []

/-- `asISO8601TimeAndDate` (`extime.py:743-798`). -/
def asIso (x : Time) (includeDelimiters : Bool) (tz : Option Tz) (includeTimezone : Bool) :
    Except PyErr (List Nat) :=
  let tz := if !isTimezoneDependent x then none else tz
  match asDatetime x tz with
  | .error e => .error e
  | .ok a =>
    let dateSep := if includeDelimiters then [45] else []
    let timeSep := if includeDelimiters then [58] else []
    let timezone := timezoneText timeSep tz includeTimezone
    let us := rstrip0 (padZero 6 a.dt.us)
    let us := if us ≠ [] then 46 :: us else us
    let parts : List (List Nat × Int) :=
      [(padZero 4 a.dt.year, 366 * dayUs),
       (dateSep ++ padZero 2 a.dt.month, 31 * dayUs),
       (dateSep ++ padZero 2 a.dt.day, dayUs),
       ([84], 3600000000),
       (padZero 2 a.dt.hour, 3600000000),
       (timeSep ++ padZero 2 a.dt.minute, 60000000),
       (timeSep ++ padZero 2 a.dt.second, 1000000),
       (us, 1),
       (timezone, 3600000000)]
    .ok ((parts.filter fun p => decide (x.res ≤ p.2)).flatMap (·.1))

end Verif.Extime
