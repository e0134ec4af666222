import Verif.Model.BenchmarkReport
import Verif.Model.FilePathDirs
/-!
# Model of running a benchmark: `spawn`, `bench`, `makeBenchmarkRunner` and `main` of `epsilon/scripts/benchmark.py`
(`169-196`, `505-528`, `565-578`)

The `FilePath` that the script uses is Twisted's; its `makedirs` and `remove` do what those of `Model/FilePathDirs` and
`Model/FilePathOps` do.  No symbolic links.
-/
namespace Verif.Benchmark.Main
open Verif.Py Verif.Benchmark

/-! ## The child -/

/-- What the parent does with a file descriptor of the child: `'r'` reads what the child writes, `'w'` writes what it reads. -/
inductive Side where
  | r
  | w
  deriving DecidableEq, Repr

/-- `BACKCHANNEL_OUT` (`benchmark.py:119`) -/
def backchannelOut : Nat := 3
/-- `BACKCHANNEL_IN` (`benchmark.py:120`) -/
def backchannelIn : Nat := 4

/-- The arguments of `reactor.spawnProcess`, without the protocol and the environment, which are passed on. -/
structure Spawn where
  executable : Str
  argv : List Str
  path : List Str
  childFDs : Dict Nat Side

/-- `BasicProcess.spawn` (`benchmark.py:169-196`). -/
def spawn (executable : Str) (args : List Str) (path : List Str) : Spawn where
  executable := executable
  argv := [executable] ++ args
  path := path
  childFDs := [(0, .w), (1, .r), (2, .r), (backchannelOut, .r), (backchannelIn, .w)]

/-- `-Wignore` -/
def wIgnore : Str := [45, 87, 105, 103, 110, 111, 114, 101]

/-- The `runner` that `makeBenchmarkRunner` makes (`benchmark.py:516-528`). -/
def runner (executable : Str) (path : List Str) (args : List Str) : Spawn := spawn executable ([wIgnore] ++ args) path

/-- Where the child finds a file named on its command line: it changes to its working directory before it runs.  A name is its
components (none of them `.` or `..`) and whether it is absolute. -/
def seen (workingDirectory : List Str) (absolute : Bool) (name : List Str) : List Str :=
  if absolute then name else workingDirectory ++ name

/-! ## The loop -/

/-- What `func()` does. -/
inductive Called where
  | raises (e : PyErr)
  /-- a Deferred that has not been fired -/
  | pending
  /-- one that has -/
  | fired (b : Bench) (o : Outcome)
  deriving DecidableEq, Repr

/-- What happens while the reactor runs. -/
inductive Ev where
  /-- The Deferred is fired. -/
  | finished (b : Bench) (o : Outcome)
  | other
  deriving DecidableEq, Repr

/-- What is logged by `log.err`: the failed result (`benchmark.py:482`) or what `later` raised (`benchmark.py:510`). -/
inductive Logged where
  | result (n : Nat)
  | raised (e : PyErr)
  deriving DecidableEq, Repr

structure Loop where
  reports : List Report
  logged : List Logged
  /-- how often `reactor.stop()` has been called, and how often that raised `ReactorNotRunning` -/
  stops : Nat
  refused : Nat
  deriving DecidableEq, Repr

/-- The callbacks that `_bench` and `bench` add (`benchmark.py:501`, `510-511`), with whether the reactor is running.
`log.err` gives `None`, so the last callback is called in any case. -/
def fire (name : Str) (sectorSize : Int) (running : Bool) (s : Loop) (b : Bench) (o : Outcome) : Loop :=
  let r := later name sectorSize b o
  { reports := s.reports ++ r.1
    logged := s.logged ++ (match o with | .failure n => [.result n] | _ => []) ++ (match r.2 with | some e => [.raised e] | none => [])
    stops := s.stops + 1
    refused := if running then s.refused else s.refused + 1 }

/-- How `bench` ends. -/
inductive Ended where
  | raised (e : PyErr)
  /-- The reactor has stopped; these events are left. -/
  | returned (s : Loop) (rest : List Ev)
  /-- It is still running. -/
  | waiting (s : Loop)
  deriving DecidableEq, Repr

/-- `reactor.run()` -/
def loop (name : Str) (sectorSize : Int) (s : Loop) : List Ev → Ended
  | [] => .waiting s
  | .other :: evs => loop name sectorSize s evs
  | .finished b o :: evs => .returned (fire name sectorSize true s b o) evs

/-- `bench` (`benchmark.py:505-513`) with the `_bench` it calls (`benchmark.py:468-501`).  A Deferred fired before is not fired
again. -/
def bench (name : Str) (sectorSize : Int) (func : Called) (evs : List Ev) : Ended :=
  let s0 : Loop := ⟨[], [], 0, 0⟩
  match func with
  | .raises e => .raised e
  | .pending => loop name sectorSize s0 evs
  | .fired b o => loop name sectorSize (fire name sectorSize false s0 b o) (evs.filter fun e => e == .other)

/-! ## `main` -/

/-- `main` (`benchmark.py:565-578`) with the name `temporarySibling` gave, what `bench` does to the file system and whether it
raised.  `fuel` bounds the depth of what `remove` removes. -/
def main (fuel : Nat) (fs : FilePath.Node) (tmp : List Str) (bench : FilePath.Node → FilePath.Node × Option PyErr) :
    Option (FilePath.Node × Option PyErr) :=
  match FilePath.makedirs fs tmp with
  | (fs1, some e) => some (fs1, some e)
  | (fs1, none) =>
    let r := bench fs1
    match FilePath.remove fuel r.1 tmp with
    | none => none
    | some (fs3, some e) => some (fs3, some e)
    | some (fs3, none) => some (fs3, r.2)

end Verif.Benchmark.Main
