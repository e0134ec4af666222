import Verif.Py.Words
import Verif.Py.Text
import Verif.Py.Utf8
import Verif.Py.Path
import Verif.Model.Structlike
import Verif.Model.Timeout
import Mathlib.Data.List.Sort
/-!
# Model of `epsilon/scripts/benchmark.py`

Bytes and text are lists of numbers.  Times are integers, in milliseconds.
-/
namespace Verif.Benchmark
open Verif.Py

abbrev Str := List Nat

/-! ## Disk statistics -/

/-- The attributes of `diskstat` (`benchmark.py:24-27`): readCount mergedReadCount readSectorCount readMilliseconds writeCount mergedWriteCount writeSectorCount writeMilliseconds outstandingIOCount ioMilliseconds weightedIOMilliseconds -/
def diskNames : List Structlike.Name := [
    [114, 101, 97, 100, 67, 111, 117, 110, 116],
    [109, 101, 114, 103, 101, 100, 82, 101, 97, 100, 67, 111, 117, 110, 116],
    [114, 101, 97, 100, 83, 101, 99, 116, 111, 114, 67, 111, 117, 110, 116],
    [114, 101, 97, 100, 77, 105, 108, 108, 105, 115, 101, 99, 111, 110, 100, 115],
    [119, 114, 105, 116, 101, 67, 111, 117, 110, 116],
    [109, 101, 114, 103, 101, 100, 87, 114, 105, 116, 101, 67, 111, 117, 110, 116],
    [119, 114, 105, 116, 101, 83, 101, 99, 116, 111, 114, 67, 111, 117, 110, 116],
    [119, 114, 105, 116, 101, 77, 105, 108, 108, 105, 115, 101, 99, 111, 110, 100, 115],
    [111, 117, 116, 115, 116, 97, 110, 100, 105, 110, 103, 73, 79, 67, 111, 117, 110, 116],
    [105, 111, 77, 105, 108, 108, 105, 115, 101, 99, 111, 110, 100, 115],
    [119, 101, 105, 103, 104, 116, 101, 100, 73, 79, 77, 105, 108, 108, 105, 115, 101, 99, 111, 110, 100, 115]]

/-- The attributes of `partitionstat` (`benchmark.py:35-36`): readCount readSectorCount writeCount writeSectorCount -/
def partitionNames : List Structlike.Name := [
    [114, 101, 97, 100, 67, 111, 117, 110, 116],
    [114, 101, 97, 100, 83, 101, 99, 116, 111, 114, 67, 111, 117, 110, 116],
    [119, 114, 105, 116, 101, 67, 111, 117, 110, 116],
    [119, 114, 105, 116, 101, 83, 101, 99, 116, 111, 114, 67, 111, 117, 110, 116]]

/-- `int(b)` of a `bytes` without white space. -/
def bytesInt : Str → Except PyErr Int
  | 45 :: r => match intDigits false 0 r with | some n => .ok (-(n : Int)) | none => .error .valueError
  | 43 :: r => match intDigits false 0 r with | some n => .ok n | none => .error .valueError
  | r => match intDigits false 0 r with | some n => .ok n | none => .error .valueError

/-- `[int(x) for x in xs]` -/
def bytesInts : List Str → Except PyErr (List Int)
  | [] => .ok []
  | x :: xs =>
    match bytesInt x with
    | .error e => .error e
    | .ok n =>
      match bytesInts xs with
      | .error e => .error e
      | .ok ns => .ok (n :: ns)

/-- `parseDiskStatLine` (`benchmark.py:44-56`).  `six.ensure_str` decodes UTF-8 on Python 3.  The record is the instance's
attributes; its class is told by their names. -/
def parseDiskStatLine (line : Str) : Except PyErr (Str × Dict Structlike.Name Int) :=
  let parts := words isByteSpace line
  match parts[2]? with
  | none => .error .indexError
  | some device =>
    let factory := if parts.length = 7 then partitionNames else diskNames
    match utf8Decode device with
    | none => .error .unicodeError
    | some name =>
      match bytesInts ((parts.take 14).drop 3) with
      | .error e => .error e
      | .ok ns =>
        match Structlike.init ⟨factory, []⟩ ns [] with
        | .error e => .error e
        | .ok attrs => .ok (name, attrs)

/-- `captureStats` (`benchmark.py:70-76`): `dict(parseDiskStats(f))`, where `parseDiskStats` (`benchmark.py:60-66`) gives line by line. -/
def captureStats : List Str → Dict Str (Dict Structlike.Name Int) → Except PyErr (Dict Str (Dict Structlike.Name Int))
  | [], d => .ok d
  | l :: ls, d =>
    match parseDiskStatLine l with
    | .error e => .error e
    | .ok (k, v) => captureStats ls (d.set k v)

/-! ## The working device -/

/-- The order of tuples `(length, device)`. -/
def PossLe (a b : Nat × Str) : Prop := a.1 < b.1 ∨ (a.1 = b.1 ∧ strCmp a.2 b.2 ≠ .gt)

instance : DecidableRel PossLe := fun a b => by unfold PossLe; infer_instance

/-- `benchmark.py:422-428`: the loop over the lines of the mount table. -/
def possibilities (sp : Nat → Bool) (cwd : Str) : List Str → Except PyErr (List (Nat × Str))
  | [] => .ok []
  | l :: ls =>
    match words sp l with
    | dev :: mount :: _ =>
      match possibilities sp cwd ls with
      | .error e => .error e
      | .ok ps => .ok (if Path.startsWith cwd mount then (mount.length, dev) :: ps else ps)
    | _ => .error .indexError

/-- `discoverCurrentWorkingDevice` (`benchmark.py:417-433`); `sp` is `str.isspace`. -/
def discoverCurrentWorkingDevice (sp : Nat → Bool) (cwd : Str) (lines : List Str) : Except PyErr Str :=
  match possibilities sp cwd lines with
  | .error e => .error e
  | .ok ps =>
    match (ps.insertionSort PossLe).getLast? with
    | some p => .ok p.2
    | none => .ok [60, 117, 110, 107, 110, 111, 119, 110, 62]

/-! ## `BasicProcess` -/

/-- Why a process ended. -/
inductive Reason where
  | done (status : Int)
  | terminated (exitCode signal : Option Int) (status : Int)
  | other (n : Nat)
  deriving DecidableEq, Repr

abbrev Output := List (Nat × Option Str)

/-- What the completion Deferred is fired with. -/
inductive Outcome where
  | success (status : Int) (output : Output)
  | timeoutError
  /-- `ProcessDied.__init__` (`benchmark.py:103-108`) keeps what it is given -/
  | processDied (exitCode signal : Option Int) (status : Int) (output : Output)
  | failure (n : Nat)
  deriving DecidableEq, Repr

/-- A `BasicProcess` (`benchmark.py:112-125`), with the transport's and the Deferred's history. -/
structure Proc where
  timer : Timeout.St
  timedOut : Bool
  /-- whether `self.whenFinished` is a Deferred or `None` -/
  whenFinished : Bool
  output : Option Output
  /-- ghost: what the Deferred was fired with -/
  fired : List Outcome
  /-- ghost: how often the child was killed -/
  kills : Nat
  deriving DecidableEq, Repr

def Proc.new (now : Int) : Proc := ⟨Timeout.St.new now, false, true, some [], [], 0⟩

inductive Event where
  /-- `connectionMade` -/
  | made
  | data (fd : Nat) (bytes : Str)
  | lost (fd : Nat)
  | ended (r : Reason)
  /-- time passes -/
  | wait (ms : Nat)
  /-- a turn of the reactor -/
  | turn
  deriving DecidableEq, Repr

/-- 900 seconds (`benchmark.py:129`). -/
def quietMs : Int := 900000

/-- `setTimeout` in a place where its result does not matter. -/
def setTimer (t : Timeout.St) (p : Option Int) : Timeout.St := (Timeout.setTimeout t p).2

/-- `resetTimeout`; it does not raise here. -/
def resetTimer (t : Timeout.St) : Timeout.St := match Timeout.resetTimeout t with | .ok t => t | .error _ => t

/-- `self.output.append(x)`; an `AttributeError`, which the reactor logs, when `self.output` is `None`. -/
def Proc.append (p : Proc) (x : Nat × Option Str) : Proc :=
  match p.output with
  | some o => { p with output := some (o ++ [x]) }
  | none => p

/-- `processEnded` (`benchmark.py:147-166`).  Without a Deferred, `None.callback` raises before the timeout is cleared. -/
def Proc.processEnded (p : Proc) (r : Reason) : Proc :=
  let o := p.output.getD []
  let q := { p with whenFinished := false, output := none }
  if p.whenFinished then
    let outcome :=
      match r with
      | .done status => .success status o
      | .terminated code signal status => if p.timedOut then .timeoutError else .processDied code signal status o
      | .other n => if p.timedOut then .timeoutError else .failure n
    { q with fired := q.fired ++ [outcome], timer := setTimer q.timer none }
  else q

/-- A turn of the reactor; when the timer is among its calls, `timeoutConnection` (`benchmark.py:132-134`) kills the child. -/
def Proc.turn (p : Proc) : Proc :=
  let t := Timeout.turn (fun _ => []) p.timer
  if p.timer.call.isSome && t.call.isNone then { p with timer := t, timedOut := true, kills := p.kills + 1 }
  else { p with timer := t }

/-- `connectionMade` (`benchmark.py:128-129`; that of `BenchmarkProcess`, `benchmark.py:252-253`, calls it), `childDataReceived`
(`benchmark.py:137-139`), `childConnectionLost` (`benchmark.py:142-144`), `processEnded`. -/
def Proc.step (p : Proc) : Event → Proc
  | .made => { p with timer := setTimer p.timer (some quietMs) }
  | .data fd bytes => { p with timer := resetTimer p.timer }.append (fd, some bytes)
  | .lost fd => { p with timer := resetTimer p.timer }.append (fd, none)
  | .ended r => p.processEnded r
  | .wait ms => { p with timer := { p.timer with now := p.timer.now + ms } }
  | .turn => p.turn

def Proc.run (es : List Event) (p : Proc) : Proc := es.foldl Proc.step p

/-! ## `BenchmarkProcess` -/

/-- What a `BenchmarkProcess` does with one unit of data from its back channel. -/
inductive Reply where
  /-- `startTiming`: take the first snapshot, write START to the child -/
  | start
  /-- `stopTiming`: take the second snapshot, write STOP to the child -/
  | stop
  /-- `signalProcess('QUIT')` -/
  | quit
  deriving DecidableEq, Repr

/-- What iterating over `bytes` yields: characters on Python 2, numbers on Python 3. -/
inductive Item where
  | chr (c : Nat)
  | num (n : Nat)
  deriving DecidableEq, Repr

def items (py3 : Bool) (data : Str) : List Item := data.map fun c => if py3 then .num c else .chr c

/-- The loop of `BenchmarkProcess.childDataReceived` (`benchmark.py:266-277`); `START` and `STOP` are the strings `'\0'` and
`'\1'` (`benchmark.py:233-234`). -/
def backchannel (py3 : Bool) (data : Str) : List Reply :=
  (items py3 data).map fun x => if x = .chr 0 then .start else if x = .chr 1 then .stop else .quit

end Verif.Benchmark
