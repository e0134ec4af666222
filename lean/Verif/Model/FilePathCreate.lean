import Verif.Model.FilePathOps
/-!
# Model of exclusive creation through `FilePath` (`/repo/epsilon/hotfixes/filepath_copyTo.py`)

As in `Model/FilePath`: no symbolic links, paths are lists of components, and opening something special (a fifo, a device) is
an error.  Permissions are not modelled.  The module imports `sha`, so only Python 2 loads it; `IOError` and `OSError` are told
apart only where the code does so (`touch`).
-/
namespace Verif.FilePath
open Verif.Py Verif.Py.Path

/-- A `FilePath`: its place, and `alwaysCreate` (`filepath_copyTo.py:78-80`). -/
structure FP where
  path : List Str
  alwaysCreate : Bool

/-- `requireCreate` (`filepath_copyTo.py:299-300`). -/
def requireCreate (p : FP) (val : Bool) : FP := { p with alwaysCreate := val }

/-- The `FilePath` that `child` gives for an ordinary name (`filepath_copyTo.py:95`, `395`): `clonePath` is called with the
path alone. -/
def childF (p : FP) (c : Str) : FP := ⟨p.path ++ [c], false⟩

/-- The modes of `open` (without the `b` that is appended and without `+`). -/
inductive Mode
  | r | w | a
deriving DecidableEq

/-- `create` (`filepath_copyTo.py:302-313`): `os.open` with `O_EXCL`, `O_CREAT`. -/
def create (fs : Node) (p : List Str) : Except PyErr Node :=
  match lookup fs p with
  | some _ => .error osError
  | none =>
    match put fs p (.file []) with
    | some fs' => .ok fs'
    | none => .error osError

/-- `open(path, 'ab')`: creates the file if it is not there. -/
def openA (fs : Node) (p : List Str) : Except PyErr Node :=
  match lookup fs p with
  | some (.file _) => .ok fs
  | some _ => .error osError
  | none =>
    match put fs p (.file []) with
    | some fs' => .ok fs'
    | none => .error osError

/-- `open(path, 'rb')` -/
def openR (fs : Node) (p : List Str) : Except PyErr Node :=
  match lookup fs p with
  | some (.file _) => .ok fs
  | _ => .error osError

/-- `open` (`filepath_copyTo.py:151-155`): the file system once the file is open. -/
def openM (fs : Node) (p : FP) (mode : Mode) : Except PyErr Node :=
  if p.alwaysCreate then
    if mode = .a then .error .assertionError else create fs p.path
  else
    match mode with
    | .r => openR fs p.path
    | .w => openW fs p.path
    | .a => openA fs p.path

/-- `touch` (`filepath_copyTo.py:243-248`).  Times are not modelled; `utime` fails when there is nothing at the path. -/
def touch (fs : Node) (p : FP) : Node × Option PyErr :=
  match openM fs p .a with
  | .error e =>
    if e = osError then
      match lookup fs p.path with
      | some _ => (fs, none)
      | none => (fs, some osError)
    else (fs, some e)
  | .ok fs1 =>
    match lookup fs1 p.path with
    | some _ => (fs1, none)
    | none => (fs1, some osError)

/-- `getContent` (`filepath_copyTo.py:286-287`) of a `FilePath` that may have `alwaysCreate`. -/
def getContentF (fs : Node) (p : FP) : Node × Except PyErr (List Nat) :=
  match openM fs p .r with
  | .error e => (fs, .error e)
  | .ok fs1 =>
    match lookup fs1 p.path with
    | some (.file content) => (fs1, .ok content)
    | _ => (fs1, .error osError)

/-- `setContent` (`filepath_copyTo.py:281-284`) of a `FilePath` that may have `alwaysCreate`: the sibling comes from
`clonePath`, without it. -/
def setContentF (fs : Node) (dir : List Str) (name : Str) (_alwaysCreate : Bool) (content : List Nat) (ext : Str) :
    Node × Option PyErr :=
  setContent fs dir name content ext

/-- `copyTo` (`filepath_copyTo.py:335-367`) between `FilePath`s that may have `alwaysCreate`.  The children of either side come
from `child`, so below the top the flags are gone. -/
def copyToF (chunkSize fuel : Nat) (fs : Node) (src dst : FP) : Option (Node × Option PyErr) :=
  match lookup fs src.path with
  | some (.dir _) => copyTo chunkSize (fuel + 1) fs src.path dst.path
  | some (.file _) =>
    match openM fs dst .w with
    | .error e => some (fs, some e)
    | .ok fs1 =>
      match openM fs1 src .r with
      | .error e => some (fs1, some e)
      | .ok fs2 =>
        match lookup fs2 src.path with
        | some (.file content) =>
          match copyLoop chunkSize fuel content [] with
          | none => none
          | some written =>
            match put fs2 dst.path (.file written) with
            | some fs3 => some (fs3, none)
            | none => some (fs2, some osError)
        | _ => some (fs2, some osError)
  | _ => some (fs, some .notImplementedError)

/-- `temporarySibling` (`filepath_copyTo.py:315-321`) on the text of the path, for the 16 characters that
`_secureEnoughString` gives (`filepath_copyTo.py:47-51`). -/
def temporarySibling (cwd self random : Str) : Except PyErr (Str × Bool) :=
  match child cwd (parent cwd self) (random ++ basename self) with
  | .ok sib => .ok (sib, true)
  | .error e => .error e

/-- What several users of a file system may do in any order, nothing of which removes anything: `create`, `open('w')`,
`open('a')`, `createDirectory`, and writing to a file that is there. -/
inductive Act
  | create (p : List Str)
  | openW (p : List Str)
  | openA (p : List Str)
  | mkdir (p : List Str)
  | write (p : List Str) (content : List Nat)
deriving DecidableEq

/-- Writing to an open file, which is there. -/
def write (fs : Node) (p : List Str) (content : List Nat) : Except PyErr Node :=
  match lookup fs p with
  | some (.file _) =>
    match put fs p (.file content) with
    | some fs' => .ok fs'
    | none => .error osError
  | _ => .error osError

def act (fs : Node) : Act → Except PyErr Node
  | .create p => create fs p
  | .openW p => openW fs p
  | .openA p => openA fs p
  | .mkdir p => mkdir fs p
  | .write p content => write fs p content

/-- The actions one after the other; whether each succeeded. -/
def acts (fs : Node) : List Act → List (Act × Bool)
  | [] => []
  | a :: as =>
    match act fs a with
    | .ok fs' => (a, true) :: acts fs' as
    | .error _ => (a, false) :: acts fs as

end Verif.FilePath
