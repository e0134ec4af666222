import Verif.Model.ExtimeIso
import Verif.Py.Text
/-!
# Model of `epsilon/extime.py`: `fromHumanly`

The patterns are matched ignoring case; a match counts only if it spans the whole string.  Every alternative begins
and ends with a word character, so the `\b` at both ends always hold, and there is at most one way to match the whole
string, which the greedy matcher finds.  The matchers below therefore say whether the whole string matches.
-/
namespace Verif.Extime
open Verif.Py

/-- `str.isspace()` of one character, and `\s`. -/
def isSpace (c : Nat) : Bool :=
  (9 ≤ c && c ≤ 13) || (28 ≤ c && c ≤ 32) || c == 0x85 || c == 0xa0 || c == 0x1680 || (0x2000 ≤ c && c ≤ 0x200a) ||
    c == 0x2028 || c == 0x2029 || c == 0x202f || c == 0x205f || c == 0x3000

/-- `s.strip()` -/
def strip (s : List Nat) : List Nat := ((s.dropWhile isSpace).reverse.dropWhile isSpace).reverse

/-- Does the lower-case letter `p` of a pattern match the character `c`, ignoring case?  Beside its two forms, `i`
matches `İ` and `ı`, `s` matches `ſ`, and `k` the Kelvin sign. -/
def ic (p c : Nat) : Bool :=
  c == p || c + 32 == p || (p == 105 && (c == 0x130 || c == 0x131)) || (p == 115 && c == 0x17f) ||
    (p == 107 && c == 0x212a)

def icWord : List Nat → List Nat → Bool
  | [], [] => true
  | p :: w, c :: s => ic p c && icWord w s
  | _, _ => false

/-- `str.lower()` of a character that can occur in a match. -/
def lowerC (c : Nat) : List Nat :=
  if c = 0x130 then [105, 0x307] else if c = 0x212a then [107] else [asciiLower c]

def lowerS (s : List Nat) : List Nat := s.flatMap lowerC

/-- `weekdays` (`extime.py:269-270`). -/
def weekdays : List (List Nat) := [[109, 111, 110, 100, 97, 121], [116, 117, 101, 115, 100, 97, 121],
  [119, 101, 100, 110, 101, 115, 100, 97, 121], [116, 104, 117, 114, 115, 100, 97, 121], [102, 114, 105, 100, 97, 121],
  [115, 97, 116, 117, 114, 100, 97, 121], [115, 117, 110, 100, 97, 121]]

def wNext : List Nat := [110, 101, 120, 116]
def wThis : List Nat := [116, 104, 105, 115]
def wToday : List Nat := [116, 111, 100, 97, 121]
def wTomorrow : List Nat := [116, 111, 109, 111, 114, 114, 111, 119]
def wYesterday : List Nat := [121, 101, 115, 116, 101, 114, 100, 97, 121]
def wNoon : List Nat := [110, 111, 111, 110]
def wMidnight : List Nat := [109, 105, 100, 110, 105, 103, 104, 116]
def wNow : List Nat := [110, 111, 119]
def wAm : List Nat := [97, 109]
def wPm : List Nat := [112, 109]

/-- The first pattern (`extime.py:273-286`); the group `weekday`. -/
def matchWeekday (s : List Nat) : Option (List Nat) :=
  if weekdays.any (icWord · s) then some s
  else if icWord wNext (s.take 4) || icWord wThis (s.take 4) then
    let r := s.drop 4
    if (r.takeWhile isSpace).length > 0 && weekdays.any (icWord · (r.dropWhile isSpace)) then
      some (r.dropWhile isSpace)
    else none
  else none

/-- `_fromWeekday` (`extime.py:196-206`). -/
def fromWeekday (weekday : List Nat) (now : Time) : Except PyErr Time :=
  let w := lowerS weekday
  if w ∉ weekdays then .error .valueError
  else
    let w := weekdays.idxOf w
    match asDatetime now none with
    | .error e => .error e
    | .ok a =>
      let dtnow : DT := { a.dt with hour := 0, minute := 0, second := 0, us := 0 }
      let k : Int := ((w : Int) - dtnow.weekday) % 7
      let k := if k = 0 then 7 else k
      match dtnow.add (k * dayUs) with
      | .error e => .error e
      | .ok t =>
        match fromDatetime ⟨t, a.tz⟩ with
        | .error e => .error e
        | .ok x =>
          match asDatetime x none with
          | .error e => .error e
          | .ok b => if b.dt.weekday = w then .ok { x with res := dayUs } else .error .assertionError

/-- `_fromTodayOrTomorrow` (`extime.py:209-221`). -/
def fromTodayOrTomorrow (text : List Nat) (now : Time) : Except PyErr Time :=
  match asDatetime now none with
  | .error e => .error e
  | .ok a =>
    let dtnow : DT := { a.dt with hour := 0, minute := 0, second := 0, us := 0 }
    let moved : Except PyErr DT :=
      if lowerS text = wTomorrow then dtnow.add dayUs
      else if lowerS text = wYesterday then dtnow.add (-dayUs)
      else if lowerS text = wToday then .ok dtnow
      else .error .assertionError
    match moved with
    | .error e => .error e
    | .ok t =>
      match fromDatetime ⟨t, a.tz⟩ with
      | .error e => .error e
      | .ok x => .ok { x with res := dayUs }

/-- The end of the third pattern: nothing, or `am` or `pm` after any whitespace. -/
def matchAmPm (r : List Nat) : Option (List Nat) :=
  if r = [] then some []
  else if icWord wAm (r.dropWhile isSpace) || icWord wPm (r.dropWhile isSpace) then some (r.dropWhile isSpace)
  else none

/-- The third pattern (`extime.py:290-295`): the groups `hour`, `minute`, and `ampm` (or `''`). -/
def matchTime (D : Digits) (s : List Nat) : Option (List Nat × List Nat × List Nat) :=
  match s with
  | h :: 58 :: m1 :: m2 :: r =>
    if D.is h && D.is m1 && D.is m2 then (matchAmPm r).map fun ap => ([h], [m1, m2], ap) else none
  | h1 :: h2 :: 58 :: m1 :: m2 :: r =>
    if D.is h1 && D.is h2 && D.is m1 && D.is m2 then (matchAmPm r).map fun ap => ([h1, h2], [m1, m2], ap) else none
  | _ => none

/-- What `_fromTime` and `_fromNoonOrMidnight` do in the end (`extime.py:238-245, 255-263`): today at that time, or
tomorrow if that is before the truncated `now`. -/
def nextAt (dtnow : DT) (tz : Tz) (hour minute : Int) : Except PyErr Time :=
  match DT.mk? dtnow.year dtnow.month dtnow.day hour minute dtnow.second dtnow.us with
  | .error e => .error e
  | .ok dtthen =>
    match (if dtLt dtthen dtnow then dtthen.add dayUs else .ok dtthen) with
    | .error e => .error e
    | .ok t =>
      match fromDatetime ⟨t, some tz⟩ with
      | .error e => .error e
      | .ok x => .ok { x with res := 60000000 }

/-- The hour meant (`extime.py:227-236`). -/
def hourOf (hour : Int) (ampm : List Nat) : Except PyErr Int :=
  if ampm ≠ [] then
    if ¬ (1 ≤ hour ∧ hour ≤ 12) then .error .valueError
    else
      let hour := if hour = 12 ∧ ampm = wAm then 0 else if ampm = wPm then hour + 12 else hour
      if ¬ (0 ≤ hour ∧ hour ≤ 23) then .error .valueError else .ok hour
  else if ¬ (0 ≤ hour ∧ hour ≤ 23) then .error .valueError else .ok hour

/-- `_fromTime` (`extime.py:224-245`). -/
def fromTime (D : Digits) (g : List Nat × List Nat × List Nat) (tz : Tz) (now : Time) : Except PyErr Time :=
  match hourOf (D.int g.1) (lowerS g.2.2) with
  | .error e => .error e
  | .ok hour =>
    match asDatetime now (some tz) with
    | .error e => .error e
    | .ok a => nextAt { a.dt with second := 0, us := 0 } tz hour (D.int g.2.1)

/-- `_fromNoonOrMidnight` (`extime.py:248-263`). -/
def fromNoonOrMidnight (text : List Nat) (tz : Tz) (now : Time) : Except PyErr Time :=
  let at_ (hour : Int) : Except PyErr Time :=
    match asDatetime now (some tz) with
    | .error e => .error e
    | .ok a => nextAt { a.dt with minute := 0, second := 0, us := 0 } tz hour 0
  if lowerS text = wNoon then at_ 12
  else if lowerS text = wMidnight then at_ 0
  else .error .assertionError

/-- One round of the loop (`extime.py:331-339`): on no match, or a `ValueError`, go on. -/
def attempt (r : Option (Except PyErr Time)) (next : Except PyErr Time) : Except PyErr Time :=
  match r with
  | none => next
  | some (.error .valueError) => next
  | some r => r

/-- `fromHumanly` (`extime.py:310-340`) with `now` given. -/
def fromHumanly (D : Digits) (humanStr : List Nat) (tz : Option Tz) (now : Time) : Except PyErr Time :=
  let s := strip humanStr
  let tz := tz.getD utc
  attempt ((matchWeekday s).map fun g => fromWeekday g now) <|
  attempt (if icWord wToday s || icWord wTomorrow s || icWord wYesterday s then some (fromTodayOrTomorrow s now) else none) <|
  attempt ((matchTime D s).map fun g => fromTime D g tz now) <|
  attempt (if icWord wNoon s || icWord wMidnight s then some (fromNoonOrMidnight s tz now) else none) <|
  attempt (if icWord wNow s then some (add now 0) else none) <|
  .error .valueError

end Verif.Extime
