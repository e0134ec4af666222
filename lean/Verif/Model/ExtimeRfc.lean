import Verif.Model.ExtimeIso
import Verif.Py.Split
import Verif.Py.Str
import Verif.Py.Text
/-!
# Model of `epsilon/extime.py`: RFC 2822 dates

`parsedateTz` follows `email._parseaddr.parsedate_tz` of CPython 3.11, on ASCII text (its `split()`, `lower()`,
`upper()`, `isdigit()` and `int()` depend on Unicode tables elsewhere).
-/
namespace Verif.Extime
open Verif.Py

/-- `s.split()`: the parts between runs of whitespace. -/
def splitWs : List Nat → List Nat → List (List Nat)
  | cur, [] => if cur = [] then [] else [cur]
  | cur, c :: s =>
    if isAsciiSpace c then (if cur = [] then splitWs [] s else cur :: splitWs [] s) else splitWs (cur ++ [c]) s

/-- `_monthnames` of `email._parseaddr`. -/
def monthNames : List (List Nat) := [[106, 97, 110], [102, 101, 98], [109, 97, 114], [97, 112, 114], [109, 97, 121],
  [106, 117, 110], [106, 117, 108], [97, 117, 103], [115, 101, 112], [111, 99, 116], [110, 111, 118], [100, 101, 99],
  [106, 97, 110, 117, 97, 114, 121],
  [102, 101, 98, 114, 117, 97, 114, 121],
  [109, 97, 114, 99, 104],
  [97, 112, 114, 105, 108],
  [109, 97, 121],
  [106, 117, 110, 101],
  [106, 117, 108, 121],
  [97, 117, 103, 117, 115, 116],
  [115, 101, 112, 116, 101, 109, 98, 101, 114],
  [111, 99, 116, 111, 98, 101, 114],
  [110, 111, 118, 101, 109, 98, 101, 114],
  [100, 101, 99, 101, 109, 98, 101, 114]]

/-- `_daynames` -/
def dayNames : List (List Nat) := [[109, 111, 110], [116, 117, 101], [119, 101, 100], [116, 104, 117], [102, 114, 105],
  [115, 97, 116], [115, 117, 110]]

/-- `_timezones` -/
def zoneNames : List (List Nat × Int) := [([85, 84], 0), ([85, 84, 67], 0), ([71, 77, 84], 0), ([90], 0),
  ([65, 83, 84], -400), ([65, 68, 84], -300), ([69, 83, 84], -500), ([69, 68, 84], -400), ([67, 83, 84], -600),
  ([67, 68, 84], -500), ([77, 83, 84], -700), ([77, 68, 84], -600), ([80, 83, 84], -800), ([80, 68, 84], -700)]

/-- Skip a day name, or cut the first part after its last comma. -/
def skipDayName : List (List Nat) → List (List Nat)
  | [] => []
  | d :: r =>
    if d.getLast? = some 44 ∨ d.map asciiLower ∈ dayNames then r
    else (d.reverse.takeWhile (· ≠ 44)).reverse :: r

/-- An RFC 850 date `dd-mmm-yy` is split. -/
def splitRfc850 : List (List Nat) → List (List Nat)
  | [d, a, b] =>
    match splitSep [45] d with
    | [p, q, r] => [p, q, r, a, b]
    | _ => [d, a, b]
  | l => l

/-- Four parts: the zone may stick to the time, or be missing. -/
def splitZone : List (List Nat) → List (List Nat)
  | [a, b, c, s] =>
    let i := strFind s [43] none none
    let i := if i = -1 then strFind s [45] none none else i
    if i > 0 then [a, b, c, s.take i.toNat, s.drop i.toNat] else [a, b, c, s, []]
  | l => l

def dropComma (s : List Nat) : List Nat := if s.getLast? = some 44 then s.dropLast else s

/-- Hours, minutes and seconds. -/
def splitTime (tm : List Nat) : Option (List Nat × List Nat × List Nat) :=
  match splitSep [58] tm with
  | [h, m] => some (h, m, [48])
  | [h, m, s] => some (h, m, s)
  | [t] =>
    if 46 ∈ t then
      match splitSep [46] t with
      | [h, m] => some (h, m, [48])
      | [h, m, s] => some (h, m, s)
      | _ => none
    else none
  | _ => none

/-- The zone as a number `hhmm`; a `None` (unknown, or `-0000`) is 0 in the end. -/
def zoneNumber (tz : List Nat) : Int :=
  match zoneNames.find? (fun p => p.1 == tz.map asciiUpper) with
  | some p => p.2
  | none => (asciiInt (tz.map asciiUpper)).getD 0

/-- The zone, in seconds. -/
def zoneSeconds (tz : List Nat) : Int :=
  let o := zoneNumber tz
  if o < 0 then -((-o) / 100 * 3600 + (-o) % 100 * 60) else o / 100 * 3600 + o % 100 * 60

/-- Two-digit years. -/
def fullYear (yy : Int) : Int := if yy < 100 then (if yy > 68 then yy + 1900 else yy + 2000) else yy

/-- The part of `_parsedate_tz` after the text has been split in five. -/
def parseParts (dd mm yy tm tz : List Nat) : Option (List Int) :=
  if dd = [] ∨ mm = [] ∨ yy = [] then none
  else
    let mm := mm.map asciiLower
    let (dd, mm) := if mm ∉ monthNames then (mm, dd.map asciiLower) else (dd, mm)
    if mm ∉ monthNames then none
    else
      let month := monthNames.idxOf mm + 1
      let month := if month > 12 then month - 12 else month
      let dd := dropComma dd
      let (yy, tm) := if strFind yy [58] none none > 0 then (tm, yy) else (yy, tm)
      let yy := dropComma yy
      match yy with
      | [] => none
      | c :: _ =>
        let (yy, tz) := if !isDigit c then (tz, yy) else (yy, tz)
        match splitTime (dropComma tm) with
        | none => none
        | some (h, m, s) =>
          match asciiInt yy, asciiInt dd, asciiInt h, asciiInt m, asciiInt s with
          | some yy, some dd, some h, some m, some s =>
            some [fullYear yy, month, dd, h, m, s, 0, 1, -1, zoneSeconds tz]
          | _, _, _, _, _ => none

/-- `parsedate_tz(data)` -/
def parsedateTz (data : List Nat) : Option (List Int) :=
  match splitWs [] data with
  | [] => none
  | parts =>
    match splitZone (splitRfc850 (skipDayName parts)) with
    | dd :: mm :: yy :: tm :: tz :: _ => parseParts dd mm yy tm tz
    | _ => none

/-- `FixedOffset(hours=0, minutes=m)`: `timedelta` holds less than 10⁹ days. -/
def fixedOffsetChecked (m : Int) : Except PyErr Tz :=
  if -999999999 * 1440 ≤ m ∧ m < 1000000000 * 1440 then .ok (fixedOffset 0 m) else .error .overflowError

/-- `fromRFC2822` (`extime.py:624-655`). -/
def fromRFC2822 (s : List Nat) : Except PyErr Time :=
  match parsedateTz s with
  | none => .error .valueError
  | some st =>
    let st := sanitizeStructTime st
    match fixedOffsetChecked (st.getLastD 0 / 60) with
    | .error e => .error e
    | .ok z =>
      match fromStructTime st (some z) with
      | .error e => .error e
      | .ok x => .ok { x with res := 1000000 }

/-- `rfc2822Weekdays` (`extime.py:176`). -/
def rfcWeekdays : List (List Nat) := [[77, 111, 110], [84, 117, 101], [87, 101, 100], [84, 104, 117], [70, 114, 105],
  [83, 97, 116], [83, 117, 110]]

/-- `rfc2822Months` (`extime.py:178-179`). -/
def rfcMonths : List (List Nat) := [[74, 97, 110], [70, 101, 98], [77, 97, 114], [65, 112, 114], [77, 97, 121],
  [74, 117, 110], [74, 117, 108], [65, 117, 103], [83, 101, 112], [79, 99, 116], [78, 111, 118], [68, 101, 99]]

/-- The zone printed (`extime.py:711-714`). -/
def rfcOffset (tz : Option Tz) : Except PyErr (List Nat) :=
  match tz with
  | none => .ok [45, 48, 48, 48, 48]
  | some z =>
    match z.offset with
    | .error e => .error e
    | .ok o =>
      let r := signHrMin o
      .ok ([if r.1 then 45 else 43] ++ padZero 2 r.2.1 ++ padZero 2 r.2.2)

/-- `asRFC2822` (`extime.py:695-729`). -/
def asRFC2822 (x : Time) (tz : Option Tz) (includeDayOfWeek : Bool) : Except PyErr (List Nat) :=
  match asDatetime x tz with
  | .error e => .error e
  | .ok a =>
    match rfcOffset tz with
    | .error e => .error e
    | .ok off =>
      let s := if includeDayOfWeek then rfcWeekdays.getD a.dt.weekday [] ++ [44, 32] else []
      .ok (s ++ (natStr a.dt.day ++ 32 :: (rfcMonths.getD (a.dt.month - 1) [] ++ 32 :: (padSpace 4 a.dt.year ++
        32 :: (padZero 2 a.dt.hour ++ 58 :: (padZero 2 a.dt.minute ++ 58 :: (padZero 2 a.dt.second ++ 32 :: off)))))))

end Verif.Extime
