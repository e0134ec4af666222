import Verif.Model.ExtimeZone
/-!
# Model of `epsilon/extime.py` with time zones which look at `fold`

`Model/ExtimeZone` takes the offset of a zone to depend on the fields of a `datetime` only.  Since Python 3.6 a `datetime`
carries one bit more, `fold`, by which zones such as those of `zoneinfo` tell the first of two equal readings of the
clocks from the second; they bring their own `fromutc`.  Here a `datetime` is its fields and its `fold`, and a zone any
three functions of them.

Python 3.6 or later.  Adding a `timedelta` gives `fold` 0, `replace` keeps it, `==` and `<` of `datetime`s of the same zone
ignore it.  A `Time` keeps a naive `datetime`, and `fromDatetime` of a naive `datetime` keeps it with its `fold`; that `fold`
is taken to be 0.
-/
namespace Verif.ExtimeFold
open Verif.Py
open Verif.Extime (Time isTimezoneDependent resolution dtLt signHrMin rstrip0 hourOf lowerS
  wNoon wMidnight wNow wToday wTomorrow wYesterday icWord matchWeekday matchTime fromWeekday fromTodayOrTomorrow attempt
  rfcWeekdays rfcMonths strip)
open Verif.ExtimeZone (checked)

/-- A `tzinfo`: its methods `utcoffset` and `dst`, of the fields and the `fold`, in microseconds, and `fromutc`. -/
structure Zone where
  utcoffset : DT → Bool → Int
  dst : DT → Bool → Int
  fromutc : DT → Except PyErr (DT × Bool)

/-- A zone which ignores `fold` and has the `fromutc` of `datetime.tzinfo`. -/
def ofPlain (z : ExtimeZone.Zone) : Zone where
  utcoffset t _ := z.utcoffset t
  dst t _ := z.dst t
  fromutc t := match ExtimeZone.fromutc z t with
    | .error e => .error e
    | .ok t => .ok (t, false)

/-- `FixedOffset(hours, minutes)` (`extime.py:83-100`) -/
def fixedOffset (hours minutes : Int) : Zone := ofPlain (ExtimeZone.fixedOffset hours minutes)

/-- `dt.astimezone(dst)` for `dt` in the zone `src`, another object than `dst`. -/
def astimezone (dt : DT × Bool) (src dst : Zone) : Except PyErr (DT × Bool) :=
  match checked (src.utcoffset dt.1 dt.2) with
  | .error e => .error e
  | .ok o =>
    match dt.1.add (-o) with
    | .error e => .error e
    | .ok utc => dst.fromutc utc

/-- `fromDatetime` (`extime.py:592-606`) of a `datetime` in the zone `tz`. -/
def fromDatetime (dt : DT × Bool) (tz : Option Zone) : Except PyErr Time :=
  match tz with
  | some z =>
    match astimezone dt z (fixedOffset 0 0) with
    | .error e => .error e
    | .ok t => .ok ⟨t.1, resolution⟩
  | none => .ok ⟨dt.1, resolution⟩

/-- `asDatetime` (`extime.py:672-684`): the fields and the `fold`; the zone is the one given. -/
def asDatetime (x : Time) (z : Zone) : Except PyErr (DT × Bool) :=
  if !isTimezoneDependent x then .ok (x.t, false)
  else astimezone (x.t, false) (fixedOffset 0 0) z

/-- `asStructTime` (`extime.py:800-810`) with a zone.  The last field of `timetuple()` says whether `dst()` is nonzero. -/
def asStructTime (x : Time) (z : Zone) : Except PyErr (List Int) :=
  match asDatetime x z with
  | .error e => .error e
  | .ok (t, f) =>
    match checked (z.dst t f) with
    | .error e => .error e
    | .ok d => .ok [t.year, t.month, t.day, t.hour, t.minute, t.second, t.weekday,
        (beforeMonth (isLeap t.year) t.month + t.day : Nat), if d ≠ 0 then 1 else 0]

/-- `fromStructTime` (`extime.py:573-590`) with a zone; tuples of less than six fields are those of `Model/Extime`. -/
def fromStructTime (s : List Int) (z : Zone) : Except PyErr Time :=
  match s.take 6 with
  | [y, m, d, h, mi, se] =>
    match DT.mk? y m d h mi se 0 with
    | .error e => .error e
    | .ok dt =>
      match fromDatetime (dt, false) (some z) with
      | .error e => .error e
      | .ok x => .ok { x with res := 1000000 }
  | _ => .error .typeError

/-- `asRFC2822` (`extime.py:695-729`) with a zone. -/
def asRFC2822 (x : Time) (z : Zone) (includeDayOfWeek : Bool) : Except PyErr (List Nat) :=
  match asDatetime x z with
  | .error e => .error e
  | .ok (t, f) =>
    match checked (z.utcoffset t f) with
    | .error e => .error e
    | .ok o =>
      let r := signHrMin o
      let off := [if r.1 then 45 else 43] ++ padZero 2 r.2.1 ++ padZero 2 r.2.2
      let s := if includeDayOfWeek then rfcWeekdays.getD t.weekday [] ++ [44, 32] else []
      .ok (s ++ (natStr t.day ++ 32 :: (rfcMonths.getD (t.month - 1) [] ++ 32 :: (padSpace 4 t.year ++
        32 :: (padZero 2 t.hour ++ 58 :: (padZero 2 t.minute ++ 58 :: (padZero 2 t.second ++ 32 :: off)))))))

/-- `asISO8601TimeAndDate` (`extime.py:743-798`) with a zone, of a `Time` finer than a day (others ignore it). -/
def asIso (x : Time) (includeDelimiters : Bool) (z : Zone) (includeTimezone : Bool) : Except PyErr (List Nat) :=
  match asDatetime x z with
  | .error e => .error e
  | .ok (t, f) =>
    let dateSep := if includeDelimiters then [45] else []
    let timeSep := if includeDelimiters then [58] else []
    let timezone : Except PyErr (List Nat) :=
      if includeTimezone then
        match checked (z.utcoffset t f) with
        | .error e => .error e
        | .ok o =>
          let r := signHrMin o
          .ok ([if r.1 then 45 else 43] ++ padZero 2 r.2.1 ++ timeSep ++ padZero 2 r.2.2)
      else .ok []
    match timezone with
    | .error e => .error e
    | .ok timezone =>
      let us := rstrip0 (padZero 6 t.us)
      let us := if us ≠ [] then 46 :: us else us
      let parts : List (List Nat × Int) :=
        [(padZero 4 t.year, 366 * dayUs),
         (dateSep ++ padZero 2 t.month, 31 * dayUs),
         (dateSep ++ padZero 2 t.day, dayUs),
         ([84], 3600000000),
         (padZero 2 t.hour, 3600000000),
         (timeSep ++ padZero 2 t.minute, 60000000),
         (timeSep ++ padZero 2 t.second, 1000000),
         (us, 1),
         (timezone, 3600000000)]
      .ok ((parts.filter fun p => decide (x.res ≤ p.2)).flatMap (·.1))

/-- `calculateTimezone` (`extime.py:410-418`) with a zone given. -/
def calculateTimezone (D : Extime.Digits) (g : Extime.Groups) (z : Zone) : Zone :=
  if g.zulu then fixedOffset 0 0
  else match g.tzhour with
    | some (neg, h) => fixedOffset (if neg then -(D.int h : Int) else D.int h) (Extime.optInt D 0 g.tzmin)
    | none => z

/-- `fromISO8601TimeAndDate` (`extime.py:394-571`) with a zone given. -/
def parseIso (D : Extime.Digits) (s : List Nat) (z : Zone) : Except PyErr Time :=
  match Extime.matchIso D s with
  | none => .error .valueError
  | some g =>
    let n := Extime.coerceGroups D g
    if !n.inRange then .error .valueError
    else
      let timezone := if g.hour ≠ none then some (calculateTimezone D g z) else none
      match Extime.calculateDtime g n with
      | .error e => .error e
      | .ok d =>
        match fromDatetime (d, false) timezone with
        | .error e => .error e
        | .ok x =>
          match Extime.determineResolution g x.t with
          | .error e => .error e
          | .ok r => .ok { x with res := r }

/-- What `_fromTime` and `_fromNoonOrMidnight` do in the end (`extime.py:238-245, 255-263`).  `dtthen < dtnow` compares
the fields, for both have the same `tzinfo`. -/
def nextAt (dtnow : DT × Bool) (z : Zone) (hour minute : Int) : Except PyErr Time :=
  match DT.mk? dtnow.1.year dtnow.1.month dtnow.1.day hour minute dtnow.1.second dtnow.1.us with
  | .error e => .error e
  | .ok dtthen =>
    let later : Except PyErr (DT × Bool) :=
      if dtLt dtthen dtnow.1 then
        match dtthen.add dayUs with
        | .error e => .error e
        | .ok t => .ok (t, false)
      else .ok (dtthen, dtnow.2)
    match later with
    | .error e => .error e
    | .ok t =>
      match fromDatetime t (some z) with
      | .error e => .error e
      | .ok x => .ok { x with res := 60000000 }

/-- `_fromTime` (`extime.py:224-245`). -/
def fromTime (D : Extime.Digits) (g : List Nat × List Nat × List Nat) (z : Zone) (now : Time) : Except PyErr Time :=
  match hourOf (D.int g.1) (lowerS g.2.2) with
  | .error e => .error e
  | .ok hour =>
    match asDatetime now z with
    | .error e => .error e
    | .ok (t, f) => nextAt ({ t with second := 0, us := 0 }, f) z hour (D.int g.2.1)

/-- `_fromNoonOrMidnight` (`extime.py:248-263`). -/
def fromNoonOrMidnight (text : List Nat) (z : Zone) (now : Time) : Except PyErr Time :=
  let at_ (hour : Int) : Except PyErr Time :=
    match asDatetime now z with
    | .error e => .error e
    | .ok (t, f) => nextAt ({ t with minute := 0, second := 0, us := 0 }, f) z hour 0
  if lowerS text = wNoon then at_ 12
  else if lowerS text = wMidnight then at_ 0
  else .error .assertionError

/-- `fromHumanly` (`extime.py:310-340`) with `now` and a zone given. -/
def fromHumanly (D : Extime.Digits) (humanStr : List Nat) (z : Zone) (now : Time) : Except PyErr Time :=
  let s := strip humanStr
  attempt ((matchWeekday s).map fun g => fromWeekday g now) <|
  attempt (if icWord wToday s || icWord wTomorrow s || icWord wYesterday s then some (fromTodayOrTomorrow s now) else none) <|
  attempt ((matchTime D s).map fun g => fromTime D g z now) <|
  attempt (if icWord wNoon s || icWord wMidnight s then some (fromNoonOrMidnight s z now) else none) <|
  attempt (if icWord wNow s then some (Extime.add now 0) else none) <|
  .error .valueError

end Verif.ExtimeFold
