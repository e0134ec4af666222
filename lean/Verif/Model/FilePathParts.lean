import Verif.Model.FilePath
/-!
# Model of the parts of a path, of comparing and pickling `FilePath`s, and of what `stat` tells
(`/repo/epsilon/hotfixes/filepath_copyTo.py:76-86`, `159-193`, `231-241`, `272-294`)

A `FilePath` here is an object with its instance dictionary: `path`, `alwaysCreate` and, once it was looked at, `statinfo`.
The module imports `sha`, so this is Python 2.
-/
namespace Verif.FilePath.Parts
open Verif.Py Verif.Py.Path Verif.FilePath

/-- What `stat` gives of what the methods look at; times and sizes are integers. -/
structure Info where
  size : Int
  mtime : Int
  ctime : Int
  atime : Int
  deriving DecidableEq, Repr

/-- `statinfo`: the class attribute is `None`; `0` after a failed `restat`. -/
inductive Cache where
  | zero
  | info (i : Info)
  deriving DecidableEq, Repr

/-- An instance. -/
structure FP where
  path : Str
  alwaysCreate : Bool
  /-- `statinfo` in the instance dictionary -/
  statinfo : Option Cache
  deriving DecidableEq, Repr

/-- `FilePath(path, alwaysCreate)` (`filepath_copyTo.py:78-80`). -/
def new (cwd path : Str) (alwaysCreate : Bool) : FP := ⟨abspath cwd path, alwaysCreate, none⟩

/-- `isabs` (`filepath_copyTo.py:231-232`) -/
def FP.isabs (f : FP) : Bool := Path.isabs f.path
/-- `basename` (`filepath_copyTo.py:272-273`) -/
def FP.basename (f : FP) : Str := Path.basename f.path
/-- `dirname` (`filepath_copyTo.py:275-276`) -/
def FP.dirname (f : FP) : Str := Path.dirname f.path
/-- `splitext` (`filepath_copyTo.py:237-238`) -/
def FP.splitext (f : FP) : Str × Str := Path.splitext f.path
/-- `parent` (`filepath_copyTo.py:278-279`) -/
def FP.parent (cwd : Str) (f : FP) : FP := new cwd f.dirname false

/-- `repr` (`filepath_copyTo.py:240-241`), where `r` is what `%r` makes of a text. -/
def FP.repr (r : Str → Str) (f : FP) : Str := [70, 105, 108, 101, 80, 97, 116, 104, 40] ++ r f.path ++ [41]

/-- The `cmp` of text. -/
def cmpStr : Str → Str → Int
  | [], [] => 0
  | [], _ :: _ => -1
  | _ :: _, [] => 1
  | a :: s, b :: t => if a < b then -1 else if b < a then 1 else cmpStr s t

/-- `__cmp__` (`filepath_copyTo.py:291-294`, Python 2); `none` for the argument is an object that is not a `FilePath`, for the result
`NotImplemented`. -/
def FP.cmp (f : FP) : Option FP → Option Int
  | none => none
  | some g => some (cmpStr f.path g.path)

/-- `restat(reraise)` (`filepath_copyTo.py:159-165`) when `stat` of the path gives `now`, or raises `OSError`. -/
def FP.restat (f : FP) (now : Option Info) (reraise : Bool) : FP × Option PyErr :=
  match now with
  | some i => ({ f with statinfo := some (.info i) }, none)
  | none => ({ f with statinfo := some .zero }, if reraise then some osError else none)

/-- `getsize`, `getmtime`, `getctime`, `getatime` (`filepath_copyTo.py:167-193`), which differ in the field. -/
def FP.get (f : FP) (field : Info → Int) (now : Option Info) : FP × Except PyErr Int :=
  match f.statinfo with
  | some (.info i) => (f, .ok (field i))
  | _ =>
    match f.restat now true with
    | (f, some e) => (f, .error e)
    | (f, none) =>
      match f.statinfo with
      | some (.info i) => (f, .ok (field i))
      | _ => (f, .error .typeError)

/-- `getsize` (`filepath_copyTo.py:167-172`) -/
def FP.getsize (f : FP) (now : Option Info) : FP × Except PyErr Int := f.get Info.size now
/-- `getmtime` (`filepath_copyTo.py:174-179`) -/
def FP.getmtime (f : FP) (now : Option Info) : FP × Except PyErr Int := f.get Info.mtime now
/-- `getctime` (`filepath_copyTo.py:181-186`) -/
def FP.getctime (f : FP) (now : Option Info) : FP × Except PyErr Int := f.get Info.ctime now
/-- `getatime` (`filepath_copyTo.py:188-193`) -/
def FP.getatime (f : FP) (now : Option Info) : FP × Except PyErr Int := f.get Info.atime now

/-- `__getstate__` (`filepath_copyTo.py:82-86`), in Python 2: the instance dictionary without `statinfo`. -/
def FP.getstate (f : FP) : FP := { f with statinfo := none }

/-- Unpickling or `copy.copy` gives an instance with that dictionary. -/
def setstate (d : FP) : FP := d

/-- What may be done to an instance; `now` is what `stat` gives at that moment. -/
inductive Op where
  | restat (now : Option Info) (reraise : Bool)
  | get (field : Info → Int) (now : Option Info)
  /-- the instance is pickled and what was unpickled takes its place -/
  | pickle

/-- One operation: the instance afterwards, and what a getter answers. -/
def step (f : FP) : Op → FP × Option (Except PyErr Int)
  | .restat now r => ((f.restat now r).1, none)
  | .get field now => ((f.get field now).1, some (f.get field now).2)
  | .pickle => (setstate f.getstate, none)

/-- A sequence of operations. -/
def run (f : FP) : List Op → FP
  | [] => f
  | o :: os => run (step f o).1 os

end Verif.FilePath.Parts
