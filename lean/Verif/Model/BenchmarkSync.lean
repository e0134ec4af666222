import Verif.Model.Benchmark
/-!
# Model of a benchmark script and the process that measures it (`/repo/epsilon/scripts/benchmark.py`)

The script calls `start()` and `stop()` and does other work; the parent is a `BenchmarkProcess`.  Between them are two pipes.
The two run in any order.  The parent may end at any time.
-/
namespace Verif.Benchmark
open Verif.Py

/-- What a script does. -/
inductive Op
  | start
  | stop
  /-- anything else -/
  | work (n : Nat)
deriving DecidableEq, Repr

inductive Ev
  /-- the script calls `start` (0) or `stop` (1) -/
  | call (b : Nat)
  /-- the parent takes a snapshot for START (0) or STOP (1) -/
  | measure (b : Nat)
  /-- `start` or `stop` returns -/
  | ret (b : Nat)
  | work (n : Nat)
  /-- the parent sends SIGQUIT -/
  | quit
deriving DecidableEq, Repr

structure Sync where
  /-- what the script has still to do -/
  prog : List Op
  /-- the byte for which `start` or `stop` waits -/
  waiting : Option Nat
  /-- the error that `start` or `stop` raised -/
  failed : Option PyErr
  /-- written to `BACKCHANNEL_OUT` and not yet read -/
  up : List Nat
  /-- written to `BACKCHANNEL_IN` and not yet read -/
  down : List Nat
  parentUp : Bool
  trace : List Ev

def Sync.init (prog : List Op) : Sync := ⟨prog, none, none, [], [], true, []⟩

def epipe : PyErr := .other "BrokenPipeError"

/-- `START`, `STOP` (`benchmark.py:233-234`). -/
def opByte : Op → Option Nat
  | .start => some 0
  | .stop => some 1
  | .work _ => none

/-- The calls of `startTiming` and `stopTiming` (`benchmark.py:256-263`): snapshot, then the answer. -/
def answer (s : Sync) : Reply → Sync
  | .start => { s with trace := s.trace ++ [.measure 0], down := s.down ++ [0] }
  | .stop => { s with trace := s.trace ++ [.measure 1], down := s.down ++ [1] }
  | .quit => { s with trace := s.trace ++ [.quit] }

inductive Label
  | child
  /-- the parent reads so many bytes -/
  | parent (n : Nat)
  /-- a signal interrupts the script's `os.read`; `untilConcludes` calls it again -/
  | interrupt
  | parentExit

/-- One step; `none`: not possible.  `start` and `stop` (`benchmark.py:532-561`): write one byte, wait for one byte, compare.
On Python 3 `os.write` is given a `str`.  Writing to a parent that has ended raises `EPIPE` (SIGPIPE is ignored by Python);
reading from it gives `''` when nothing is left. -/
def Sync.step (py3 : Bool) (s : Sync) : Label → Option Sync
  | .child =>
    match s.failed with
    | some _ => none
    | none =>
      match s.waiting with
      | some b =>
        match s.down with
        | r :: rest =>
          if r = b then some { s with down := rest, waiting := none, trace := s.trace ++ [.ret b] }
          else some { s with down := rest, failed := some .runtimeError }
        | [] => if s.parentUp then none else some { s with failed := some .runtimeError }
      | none =>
        match s.prog with
        | [] => none
        | op :: prog =>
          match op with
          | .work n => some { s with prog := prog, trace := s.trace ++ [.work n] }
          | op =>
            match opByte op with
            | none => none
            | some b =>
              if py3 then some { s with prog := prog, failed := some .typeError }
              else if s.parentUp then
                some { s with prog := prog, up := s.up ++ [b], waiting := some b, trace := s.trace ++ [.call b] }
              else some { s with prog := prog, failed := some epipe }
  | .parent n =>
    if s.parentUp ∧ 0 < n ∧ n ≤ s.up.length then
      some ((backchannel py3 (s.up.take n)).foldl answer { s with up := s.up.drop n })
    else none
  | .interrupt => if s.waiting.isSome then some s else none
  | .parentExit => if s.parentUp then some { s with parentUp := false } else none

/-- States that can be reached. -/
inductive Sync.Reach (py3 : Bool) (prog : List Op) : Sync → Prop
  | init : Reach py3 prog (Sync.init prog)
  | step {s s' : Sync} (l : Label) : Reach py3 prog s → s.step py3 l = some s' → Reach py3 prog s'

end Verif.Benchmark
