import Verif.Model.ExtimeHuman
import Verif.Model.ExtimeIso
import Verif.Model.ExtimeRfc
/-!
# Model of `epsilon/extime.py` with time zones other than `FixedOffset`

`Model/Extime` and the models of the text formats take every `tzinfo` to be a `FixedOffset`.  Here a zone is any
`tzinfo` whose `utcoffset` and `dst` depend on the fields of the `datetime` only and give an offset (not `None`), and
which keeps the `fromutc` of `datetime.tzinfo`; this is the kind of zone the documentation of the `datetime` module
shows for daylight saving time.  For zones which look at the `fold` of a `datetime` or
override `fromutc` see `Model/ExtimeFold`.
-/
namespace Verif.ExtimeZone
open Verif.Py
open Verif.Extime (Time isTimezoneDependent resolution dtLt dtCmp Tz signHrMin rstrip0 hourOf lowerS
  wNoon wMidnight wNow wToday wTomorrow wYesterday icWord matchWeekday matchTime fromWeekday fromTodayOrTomorrow attempt
  rfcWeekdays rfcMonths strip)

/-- A `tzinfo`: its methods `utcoffset` and `dst`, in microseconds. -/
structure Zone where
  utcoffset : DT → Int
  dst : DT → Int

/-- `dt.utcoffset()`, `dt.dst()`: the result must be less than 24 hours. -/
def checked (o : Int) : Except PyErr Int := if -dayUs < o ∧ o < dayUs then .ok o else .error .valueError

/-- `FixedOffset(hours, minutes)` (`extime.py:83-100`) -/
def fixedOffset (hours minutes : Int) : Zone := ⟨fun _ => (hours * 60 + minutes) * 60000000, fun _ => 0⟩

/-- `tzinfo.fromutc(dt)` of the `datetime` module. -/
def fromutc (z : Zone) (dt : DT) : Except PyErr DT :=
  match checked (z.utcoffset dt) with
  | .error e => .error e
  | .ok dtoff =>
    match checked (z.dst dt) with
    | .error e => .error e
    | .ok dtdst =>
      let delta := dtoff - dtdst
      if delta ≠ 0 then
        match dt.add delta with
        | .error e => .error e
        | .ok dt =>
          match checked (z.dst dt) with
          | .error e => .error e
          | .ok dtdst => dt.add dtdst
      else dt.add dtdst

/-- `dt.astimezone(dst)` for `dt` in the zone `src`, another object than `dst`. -/
def astimezone (dt : DT) (src dst : Zone) : Except PyErr DT :=
  match checked (src.utcoffset dt) with
  | .error e => .error e
  | .ok o =>
    match dt.add (-o) with
    | .error e => .error e
    | .ok utc => fromutc dst utc

/-- `fromDatetime` (`extime.py:592-606`) of a `datetime` with the fields `dt` in the zone `tz`. -/
def fromDatetime (dt : DT) (tz : Option Zone) : Except PyErr Time :=
  match tz with
  | some z =>
    match astimezone dt z (fixedOffset 0 0) with
    | .error e => .error e
    | .ok t => .ok ⟨t, resolution⟩
  | none => .ok ⟨dt, resolution⟩

/-- `asDatetime` (`extime.py:672-684`): the fields; the zone is the one given. -/
def asDatetime (x : Time) (tz : Option Zone) : Except PyErr DT :=
  let z := tz.getD (fixedOffset 0 0)
  if !isTimezoneDependent x then .ok x.t
  else astimezone x.t (fixedOffset 0 0) z

/-- `asStructTime` (`extime.py:800-810`).  The last field of `timetuple()` says whether `dst()` is nonzero;
`utctimetuple()` puts a zero there. -/
def asStructTime (x : Time) (tz : Option Zone) : Except PyErr (List Int) :=
  match asDatetime x tz with
  | .error e => .error e
  | .ok t =>
    match tz with
    | none => .ok [t.year, t.month, t.day, t.hour, t.minute, t.second, t.weekday,
        (beforeMonth (isLeap t.year) t.month + t.day : Nat), 0]
    | some z =>
      match checked (z.dst t) with
      | .error e => .error e
      | .ok d => .ok [t.year, t.month, t.day, t.hour, t.minute, t.second, t.weekday,
          (beforeMonth (isLeap t.year) t.month + t.day : Nat), if d ≠ 0 then 1 else 0]

/-- `fromStructTime` (`extime.py:573-590`); tuples of less than six fields are those of `Model/Extime`. -/
def fromStructTime (s : List Int) (tz : Option Zone) : Except PyErr Time :=
  match s.take 6 with
  | [y, m, d, h, mi, se] =>
    match DT.mk? y m d h mi se 0 with
    | .error e => .error e
    | .ok dt =>
      match fromDatetime dt tz with
      | .error e => .error e
      | .ok x => .ok { x with res := 1000000 }
  | _ => .error .typeError

/-- `asRFC2822` (`extime.py:695-729`) with a zone. -/
def asRFC2822 (x : Time) (z : Zone) (includeDayOfWeek : Bool) : Except PyErr (List Nat) :=
  match asDatetime x (some z) with
  | .error e => .error e
  | .ok t =>
    match checked (z.utcoffset t) with
    | .error e => .error e
    | .ok o =>
      let r := signHrMin o
      let off := [if r.1 then 45 else 43] ++ padZero 2 r.2.1 ++ padZero 2 r.2.2
      let s := if includeDayOfWeek then rfcWeekdays.getD t.weekday [] ++ [44, 32] else []
      .ok (s ++ (natStr t.day ++ 32 :: (rfcMonths.getD (t.month - 1) [] ++ 32 :: (padSpace 4 t.year ++
        32 :: (padZero 2 t.hour ++ 58 :: (padZero 2 t.minute ++ 58 :: (padZero 2 t.second ++ 32 :: off)))))))

/-- `asISO8601TimeAndDate` (`extime.py:743-798`) with a zone, of a `Time` finer than a day (others ignore it). -/
def asIso (x : Time) (includeDelimiters : Bool) (z : Zone) (includeTimezone : Bool) : Except PyErr (List Nat) :=
  match asDatetime x (some z) with
  | .error e => .error e
  | .ok t =>
    let dateSep := if includeDelimiters then [45] else []
    let timeSep := if includeDelimiters then [58] else []
    let timezone : Except PyErr (List Nat) :=
      if includeTimezone then
        match checked (z.utcoffset t) with
        | .error e => .error e
        | .ok o =>
          let r := signHrMin o
          .ok ([if r.1 then 45 else 43] ++ padZero 2 r.2.1 ++ timeSep ++ padZero 2 r.2.2)
      else .ok []
    match timezone with
    | .error e => .error e
    | .ok timezone =>
      let us := rstrip0 (padZero 6 t.us)
      let us := if us ≠ [] then 46 :: us else us
      let parts : List (List Nat × Int) :=
        [(padZero 4 t.year, 366 * dayUs),
         (dateSep ++ padZero 2 t.month, 31 * dayUs),
         (dateSep ++ padZero 2 t.day, dayUs),
         ([84], 3600000000),
         (padZero 2 t.hour, 3600000000),
         (timeSep ++ padZero 2 t.minute, 60000000),
         (timeSep ++ padZero 2 t.second, 1000000),
         (us, 1),
         (timezone, 3600000000)]
      .ok ((parts.filter fun p => decide (x.res ≤ p.2)).flatMap (·.1))

/-- `calculateTimezone` (`extime.py:410-418`) with a zone given. -/
def calculateTimezone (D : Extime.Digits) (g : Extime.Groups) (z : Zone) : Zone :=
  if g.zulu then fixedOffset 0 0
  else match g.tzhour with
    | some (neg, h) => fixedOffset (if neg then -(D.int h : Int) else D.int h) (Extime.optInt D 0 g.tzmin)
    | none => z

/-- `fromISO8601TimeAndDate` (`extime.py:394-571`) with a zone given. -/
def parseIso (D : Extime.Digits) (s : List Nat) (z : Zone) : Except PyErr Time :=
  match Extime.matchIso D s with
  | none => .error .valueError
  | some g =>
    let n := Extime.coerceGroups D g
    if !n.inRange then .error .valueError
    else
      let timezone := if g.hour ≠ none then some (calculateTimezone D g z) else none
      match Extime.calculateDtime g n with
      | .error e => .error e
      | .ok d =>
        match fromDatetime d timezone with
        | .error e => .error e
        | .ok x =>
          match Extime.determineResolution g x.t with
          | .error e => .error e
          | .ok r => .ok { x with res := r }

/-- What `_fromTime` and `_fromNoonOrMidnight` do in the end (`extime.py:238-245, 255-263`).  `dtthen < dtnow` compares
the fields, for both have the same `tzinfo`. -/
def nextAt (dtnow : DT) (z : Zone) (hour minute : Int) : Except PyErr Time :=
  match DT.mk? dtnow.year dtnow.month dtnow.day hour minute dtnow.second dtnow.us with
  | .error e => .error e
  | .ok dtthen =>
    match (if dtLt dtthen dtnow then dtthen.add dayUs else .ok dtthen) with
    | .error e => .error e
    | .ok t =>
      match fromDatetime t (some z) with
      | .error e => .error e
      | .ok x => .ok { x with res := 60000000 }

/-- `_fromTime` (`extime.py:224-245`). -/
def fromTime (D : Extime.Digits) (g : List Nat × List Nat × List Nat) (z : Zone) (now : Time) : Except PyErr Time :=
  match hourOf (D.int g.1) (lowerS g.2.2) with
  | .error e => .error e
  | .ok hour =>
    match asDatetime now (some z) with
    | .error e => .error e
    | .ok t => nextAt { t with second := 0, us := 0 } z hour (D.int g.2.1)

/-- `_fromNoonOrMidnight` (`extime.py:248-263`). -/
def fromNoonOrMidnight (text : List Nat) (z : Zone) (now : Time) : Except PyErr Time :=
  let at_ (hour : Int) : Except PyErr Time :=
    match asDatetime now (some z) with
    | .error e => .error e
    | .ok t => nextAt { t with minute := 0, second := 0, us := 0 } z hour 0
  if lowerS text = wNoon then at_ 12
  else if lowerS text = wMidnight then at_ 0
  else .error .assertionError

/-- `fromHumanly` (`extime.py:310-340`) with `now` and a zone given. -/
def fromHumanly (D : Extime.Digits) (humanStr : List Nat) (z : Zone) (now : Time) : Except PyErr Time :=
  let s := strip humanStr
  attempt ((matchWeekday s).map fun g => fromWeekday g now) <|
  attempt (if icWord wToday s || icWord wTomorrow s || icWord wYesterday s then some (fromTodayOrTomorrow s now) else none) <|
  attempt ((matchTime D s).map fun g => fromTime D g z now) <|
  attempt (if icWord wNoon s || icWord wMidnight s then some (fromNoonOrMidnight s z now) else none) <|
  attempt (if icWord wNow s then some (Extime.add now 0) else none) <|
  .error .valueError

/-- `getBounds` (`extime.py:860-902`) with a zone, on Python 2 (on Python 3 it raises `TypeError`, see `Model/Extime`). -/
def getBounds2 (x : Time) (z : Zone) : Except PyErr (Time × Time) :=
  let tz := if x.res ≥ dayUs then some z else none
  match fromDatetime x.t tz, fromDatetime x.t none with
  | .ok a, .ok b =>
    match x.t.add x.res with
    | .error e => .error e
    | .ok e' =>
      match fromDatetime e' tz, fromDatetime e' none with
      | .ok c, .ok d => .ok (if dtCmp b.t a.t < 0 then b else a, if dtCmp d.t c.t > 0 then d else c)
      | .error e, _ => .error e
      | _, .error e => .error e
  | .error e, _ => .error e
  | _, .error e => .error e

end Verif.ExtimeZone
