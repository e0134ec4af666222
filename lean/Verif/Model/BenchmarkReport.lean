import Verif.Model.Benchmark
import Verif.Py.Split
/-!
# Model of the measurements and reports of `epsilon/scripts/benchmark.py` (`200-282`, `359-405`, `468-501`)

What is measured is given by the environment: an `Obs` for every moment at which the parent looks at the clock, the disk
statistics and the directory.  Times are integers (they are floats).  A report is the arguments of the `Results` command; how a
command is written is C29 (`reportResults` appends the bytes to a file).
-/
namespace Verif.Benchmark
open Verif.Py

abbrev Stat := Dict Structlike.Name Int

/-- What there is to see at one moment: `time.time()`, `captureStats()`, `getSize(path)`. -/
structure Obs where
  time : Int
  stats : Dict Str Stat
  size : Int
  deriving DecidableEq, Repr

/-- `ResourceSnapshot` (`benchmark.py:80`). -/
structure Snapshot where
  time : Int
  disk : Option Stat
  partition : Option Stat
  size : Int
  deriving DecidableEq, Repr

/-- `Change.start` and `Change.stop` (`benchmark.py:204-227`) take the same kind of snapshot. -/
def snapshot (disk partition : Str) (o : Obs) : Snapshot :=
  ⟨o.time, Dict.get? o.stats disk, Dict.get? o.stats partition, o.size⟩

/-- A `Change`: its attributes `before` and `after`, if set. -/
structure Change where
  before : Option Snapshot
  after : Option Snapshot
  deriving DecidableEq, Repr

/-- `BenchmarkProcess.partition`: `device.split('/')[-1]` (`benchmark.py:241`) -/
def partitionName (device : Str) : Str := (splitSep [47] device).getLast?.getD []

/-- `BenchmarkProcess.disk`: `partition.rstrip('0123456789')` (`benchmark.py:242`) -/
def diskName (partition : Str) : Str := (partition.reverse.dropWhile fun c => decide (48 ≤ c ∧ c ≤ 57)).reverse

/-- The measuring half of a `BenchmarkProcess`. -/
structure Bench where
  disk : Str
  partition : Str
  overall : Change
  benchmark : Change
  deriving DecidableEq, Repr

/-- `BenchmarkProcess.__init__` (`benchmark.py:237-249`). -/
def Bench.new (device : Str) (o : Obs) : Bench :=
  let partition := partitionName device
  let disk := diskName partition
  ⟨disk, partition, ⟨some (snapshot disk partition o), none⟩, ⟨none, none⟩⟩

/-- What happens to it. -/
inductive Moment where
  /-- `startTiming` (`benchmark.py:256-258`) -/
  | start (o : Obs)
  /-- `stopTiming` (`benchmark.py:261-263`) -/
  | stop (o : Obs)
  /-- `processEnded` (`benchmark.py:280-282`) -/
  | ended (o : Obs)
  deriving DecidableEq, Repr

def Bench.step (b : Bench) : Moment → Bench
  | .start o => { b with benchmark := { b.benchmark with before := some (snapshot b.disk b.partition o) } }
  | .stop o => { b with benchmark := { b.benchmark with after := some (snapshot b.disk b.partition o) } }
  | .ended o => { b with overall := { b.overall with after := some (snapshot b.disk b.partition o) } }

def Bench.run (b : Bench) (ms : List Moment) : Bench := ms.foldl Bench.step b

/-- `after.<name> - before.<name>` -/
def minus (after before : Stat) (name : Structlike.Name) : Except PyErr Int :=
  match Dict.get? after name, Dict.get? before name with
  | some a, some b => .ok (a - b)
  | _, _ => .error .attributeError

/-- The differences of some counters (`benchmark.py:365-382`): all `None` if there are no later statistics; an `AttributeError`
if there are no earlier ones. -/
def differences (after before : Option Stat) (names : List Structlike.Name) : Except PyErr (Option (List Int)) :=
  match after with
  | none => .ok none
  | some a =>
    match before with
    | none => .error .attributeError
    | some b => (names.mapM (minus a b)).map some

/-- The arguments of `Results` (`benchmark.py:387-404`) that are not constants. -/
structure Report where
  name : Str
  error : Bool
  timeout : Bool
  sectorSize : Int
  elapsed : Int
  growth : Int
  /-- read_count, read_sectors, write_count, write_sectors -/
  counts : Option (List Int)
  /-- read_ms, write_ms -/
  blocked : Option (List Int)
  deriving DecidableEq, Repr

/-- readMilliseconds, writeMilliseconds -/
def msNames : List Structlike.Name :=
  [[114, 101, 97, 100, 77, 105, 108, 108, 105, 115, 101, 99, 111, 110, 100, 115],
   [119, 114, 105, 116, 101, 77, 105, 108, 108, 105, 115, 101, 99, 111, 110, 100, 115]]

/-- `formatResults` (`benchmark.py:359-405`). -/
def formatResults (name : Str) (sectorSize : Int) (before after : Snapshot) (error timeout : Bool) : Except PyErr Report := do
  let counts ← differences after.partition before.partition partitionNames
  let blocked ← differences after.disk before.disk msNames
  return ⟨name, error, timeout, sectorSize, after.time - before.time, after.size - before.size, counts, blocked⟩

/-- One round of the loop in `later` (`benchmark.py:490-499`). -/
def reportChange (name : Str) (sectorSize : Int) (c : Change) (error : Bool) : Except PyErr Report :=
  match c.before, c.after with
  | some b, some a => formatResults name sectorSize b a error false
  | _, _ => .error .attributeError

/-- `-overall`, `-benchmark` -/
def overallSuffix : Str := [45, 111, 118, 101, 114, 97, 108, 108]
def benchmarkSuffix : Str := [45, 98, 101, 110, 99, 104, 109, 97, 114, 107]

/-- `later` in `_bench` (`benchmark.py:470-499`): what it writes, and what it raises (which `bench` logs). `sectorSize` is what
`getSectorSize` gives (`benchmark.py:464-465`): the block size of the file system, by `os.statvfs`. -/
def later (name : Str) (sectorSize : Int) (b : Bench) : Outcome → List Report × Option PyErr
  | .success status output =>
    let stderr := (output.filter fun x => x.1 = 2).map Prod.snd
    let error := decide (status ≠ 0 ∨ stderr ≠ [none])
    match reportChange (name ++ overallSuffix) sectorSize b.overall error with
    | .error e => ([], some e)
    | .ok r =>
      match reportChange (name ++ benchmarkSuffix) sectorSize b.benchmark error with
      | .error e => ([r], some e)
      | .ok r' => ([r, r'], none)
  | _ => ([], none)

end Verif.Benchmark
