import Verif.Model.FilePathOps
/-!
# Model of `getSize` (`/repo/epsilon/scripts/benchmark.py:437-460`) and of `FilePath`'s `getsize` and `islink`
-/
namespace Verif.FilePath
open Verif.Py Verif.Py.Path

/-- What `os.stat` of a path gives; it follows symbolic links.  The errors are `ENOENT` and any other. -/
inductive StatOf
  | size (n : Nat)
  | enoent
  | error (e : PyErr)

/-- `getOneSize` (`benchmark.py:445-460`), with `FilePath.getsize` (`filepath_copyTo.py:167-172`) of a path not looked at before;
`link`: what `os.readlink` gives, if the path is a symbolic link. -/
def getOneSize (st : StatOf) (link : Option Str) : Except PyErr Nat :=
  match st with
  | .size n => .ok n
  | .enoent =>
    match link with
    | some text => .ok text.length
    | none => .error osError
  | .error e => .error e

/-- `sum(getOneSize(ch) for ch in …)` (`benchmark.py:442`). -/
def sumSizes (one : List Str → Except PyErr Nat) : List (List Str) → Nat → Except PyErr Nat
  | [], acc => .ok acc
  | p :: ps, acc =>
    match one p with
    | .ok n => sumSizes one ps (acc + n)
    | .error e => .error e

/-- `getSize` (`benchmark.py:437-442`) with a bound on the depth of the walk.  `walk` (`filepath_copyTo.py:326-331`) is that of
`Model/FilePathOps`; symbolic links to directories, which it would follow, are in `Model/SizeLinks`, other symbolic links are here
among `Node.other`. -/
def getSize (stat : List Str → StatOf) (link : List Str → Option Str) (fuel : Nat) (fs : Node) (p : List Str) :
    Option (Except PyErr Nat) :=
  match walk fuel fs p with
  | none => none
  | some l => some (sumSizes (fun q => getOneSize (stat q) (link q)) l 0)

/-- What a path is, links included. -/
inductive Target
  | absent
  | file
  | dir
  | special
  /-- a symbolic link to something else -/
  | link (target : Target)

/-- The type bits of a mode. -/
inductive ModeType
  | reg | dir | lnk | other
deriving DecidableEq

/-- The type that `os.stat` reports: that of what the links lead to. -/
def Target.stat : Target → Option ModeType
  | .absent => none
  | .file => some .reg
  | .dir => some .dir
  | .special => some .other
  | .link t => t.stat

/-- `FilePath.islink` (`filepath_copyTo.py:222-229`) of a fresh `FilePath`; `restat` calls `os.stat`. -/
def islink (t : Target) : Bool :=
  match t.stat with
  | none => false
  | some m => decide (m = .lnk)

end Verif.FilePath
