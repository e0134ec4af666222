import Verif.Model.BenchmarkReport
import Verif.Model.JuiceArgs
import Verif.Model.JuiceRpc
/-!
# Model of the file `output` of benchmark results (`epsilon/scripts/benchmark.py:287-413`)

A report (`Report`, see `BenchmarkReport`) becomes a `Results` command, the command a box, and the box bytes appended to the file.
The names below are written as texts and turned into code points by `chars`.
-/
namespace Verif.BenchmarkFile
open Verif.Py Verif.Juice Verif.JuiceArgs
open Verif.Benchmark (Report Bench later)

/-- A text as code points. -/
def chars (s : String) : Str := s.toList.map Char.toNat

/-- What `formatResults` takes from its surroundings: the host name, `sys.hexversion`, the versions of Twisted and Epsilon, and
how `str` writes a time difference. -/
structure Env where
  host : Str
  hexversion : Int
  twisted : Str
  epsilon : Str
  showTime : Int → Str

/-- `Float` (`juice.py:530-532`).  Simplification: times are integers here, so it only writes numbers, with `showTime`; reading
(`float`) is not modelled. -/
def float (E : Env) (optional : Bool) : Codec where
  optional := optional
  enc
    | .int n => .ok (.text (E.showTime n))
    | _ => .error .typeError
  dec _ := .error .notImplementedError

/-- `Results.arguments` (`benchmark.py:290-350`). -/
def resultsArgs (U : Uni) (E : Env) : ArgList :=
  [(chars "version", integer U false),
   (chars "error", boolean false),
   (chars "timeout", boolean false),
   (chars "name", unicode false),
   (chars "host", unicode false),
   (chars "sector_size", integer U false),
   (chars "python_version", unicode false),
   (chars "twisted_version", unicode false),
   (chars "divmod_version", unicode false),
   (chars "elapsed", float E false),
   (chars "filesystem_growth", integer U false),
   (chars "read_count", integer U true),
   (chars "read_sectors", integer U true),
   (chars "write_count", integer U true),
   (chars "write_sectors", integer U true),
   (chars "read_ms", integer U true),
   (chars "write_ms", integer U true)]

/-- `STATS_VERSION` (`benchmark.py:286`) -/
def statsVersion : Int := 0

/-- The `i`-th of some differences, or `None`. -/
def nth (l : Option (List Int)) (i : Nat) : Obj :=
  match l with
  | none => .none
  | some l => match l[i]? with
    | some n => .int n
    | none => .none

/-- The keyword arguments of `Results` (`benchmark.py:387-404`). -/
def kwargs (E : Env) (r : Report) : List (Str × Obj) :=
  [(chars "version", .int statsVersion),
   (chars "error", .bool r.error),
   (chars "timeout", .bool r.timeout),
   (chars "name", .str r.name),
   (chars "host", .str E.host),
   (chars "elapsed", .int r.elapsed),
   (chars "sector_size", .int r.sectorSize),
   (chars "read_count", nth r.counts 0),
   (chars "read_sectors", nth r.counts 1),
   (chars "read_ms", nth r.blocked 0),
   (chars "write_count", nth r.counts 2),
   (chars "write_sectors", nth r.counts 3),
   (chars "write_ms", nth r.blocked 1),
   (chars "filesystem_growth", .int r.growth),
   (chars "python_version", .str (intStr E.hexversion)),
   (chars "twisted_version", .str E.twisted),
   (chars "divmod_version", .str E.epsilon)]

/-- `Results(...).do(jj, requiresAnswer=False)` and `output.getvalue()` (`benchmark.py:387-405`, `Command.__init__`
`juice.py:627-645`, `Command.do` `juice.py:656-672`, `sendBoxCommand` `juice.py:382-403`): the bytes written to the wrapped buffer.
A juice protocol that issues no greeting writes nothing when it is connected. -/
def formatBytes (U : Uni) (E : Env) (r : Report) : Except PyErr Bytes := do
  let structured ← commandInit U (resultsArgs U E) (kwargs E r)
  let box ← objectsToStrings U structured (resultsArgs U E)
  serialize (Dict.set box JuiceRpc.COMMAND (.text (chars "Result")))

/-- `reportResults` (`benchmark.py:409-413`): the file `output` is opened for appending. -/
def reportResults (file results : Bytes) : Bytes := file ++ results

/-- The loop of `later` (`benchmark.py:490-499`) over the reports it makes and what it raises then: the file afterwards, and what is
raised. -/
def writeAll (U : Uni) (E : Env) (file : Bytes) : List Report → Option PyErr → Bytes × Option PyErr
  | [], e => (file, e)
  | r :: rs, e =>
    match formatBytes U E r with
    | .error e' => (file, some e')
    | .ok x => writeAll U E (reportResults file x) rs e

/-- One benchmark: what was run and how it ended. -/
structure Run where
  name : Str
  sectorSize : Int
  bench : Bench
  outcome : Benchmark.Outcome

/-- `_bench` (`benchmark.py:468-501`): the file after one benchmark, and what is logged. -/
def bench (U : Uni) (E : Env) (file : Bytes) (x : Run) : Bytes × Option PyErr :=
  let l := later x.name x.sectorSize x.bench x.outcome
  writeAll U E file l.1 l.2

/-- Benchmarks one after the other, in the same directory. -/
def benchAll (U : Uni) (E : Env) (file : Bytes) (xs : List Run) : Bytes := xs.foldl (fun f x => (bench U E f x).1) file

end Verif.BenchmarkFile
