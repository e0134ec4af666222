import Verif.Model.FilePath
/-!
# Model of `FilePath`'s operations that change or walk the file system
(`/repo/epsilon/hotfixes/filepath_copyTo.py`)

As in `Model/FilePath`, there are no symbolic links and paths are lists of components.  The `FilePath` objects whose methods
call `exists`, `isdir` or `isfile` are taken to be fresh (`statinfo` is `None`), so that they look at the file system; the
cached answers are modelled separately below (`Stat`).
-/
namespace Verif.FilePath
open Verif.Py Verif.Py.Path

/-- The file system without the entry at a path; `none` if there is nothing there, or for the root. -/
def del : Node → List Str → Option Node
  | _, [] => none
  | .dir es, [c] =>
    match Dict.get? es c with
    | some _ => some (.dir (Dict.erase es c))
    | none => none
  | .dir es, c :: p =>
    match Dict.get? es c with
    | some m =>
      match del m p with
      | some m' => some (.dir (Dict.set es c m'))
      | none => none
    | none => none
  | _, _ :: _ => none

/-- `os.rmdir` -/
def rmdir (fs : Node) (p : List Str) : Except PyErr Node :=
  match lookup fs p with
  | some (.dir []) =>
    match del fs p with
    | some fs' => .ok fs'
    | none => .error osError
  | _ => .error osError

/-- `os.remove` -/
def osRemove (fs : Node) (p : List Str) : Except PyErr Node :=
  match lookup fs p with
  | some (.dir _) => .error osError
  | _ =>
    match del fs p with
    | some fs' => .ok fs'
    | none => .error osError

/-- `remove` (`filepath_copyTo.py:250-257`) with a bound on the depth. -/
def remove : Nat → Node → List Str → Option (Node × Option PyErr)
  | 0, _, _ => none
  | fuel + 1, fs, p =>
    match lookup fs p with
    | some (.dir es) =>
      match copyChildren (fun fs c => remove fuel fs (p ++ [c])) fs (es.map Prod.fst) with
      | none => none
      | some (fs1, some e) => some (fs1, some e)
      | some (fs1, none) =>
        match rmdir fs1 p with
        | .ok fs2 => some (fs2, none)
        | .error e => some (fs1, some e)
    | _ =>
      match osRemove fs p with
      | .ok fs1 => some (fs1, none)
      | .error e => some (fs, some e)

/-- The inner loops of `walk` (`filepath_copyTo.py:328-331`). -/
def walkChildren (rec : Str → Option (List (List Str))) : List Str → Option (List (List Str))
  | [] => some []
  | c :: cs =>
    match rec c with
    | none => none
    | some l =>
      match walkChildren rec cs with
      | none => none
      | some l' => some (l ++ l')

/-- `walk` (`filepath_copyTo.py:326-331`) with a bound on the depth; all that it yields while the file system stays as it is. -/
def walk : Nat → Node → List Str → Option (List (List Str))
  | 0, _, _ => none
  | fuel + 1, fs, p =>
    match lookup fs p with
    | some (.dir es) =>
      match walkChildren (fun c => walk fuel fs (p ++ [c])) (es.map Prod.fst) with
      | none => none
      | some l => some (p :: l)
    | _ => some [p]

/-- Whether `os.rename` may put something in the place of what is at the destination. -/
def mayReplace (m : Node) : Option Node → Bool
  | none => true
  | some (.dir []) => (match m with | .dir _ => true | _ => false)
  | some (.dir _) => false
  | some _ => (match m with | .dir _ => false | _ => true)

/-- `os.rename` within a file system. -/
def rename (fs : Node) (src dst : List Str) : Except PyErr Node :=
  match lookup fs src with
  | none => .error osError
  | some m =>
    if src = dst then .ok fs
    else if src.isPrefixOf dst then .error osError
    else if mayReplace m (lookup fs dst) = false then .error osError
    else
      match del fs src with
      | none => .error osError
      | some fs1 =>
        match put fs1 dst m with
        | none => .error osError
        | some fs2 => .ok fs2

/-- `setContent` (`filepath_copyTo.py:281-284`) up to the point where `i` of the bytes have reached the sibling. -/
def writeSibling (fs : Node) (dir : List Str) (name ext : Str) (content : List Nat) (i : Nat) : Except PyErr Node :=
  match openW fs (dir ++ [name ++ ext]) with
  | .error e => .error e
  | .ok fs1 =>
    match put fs1 (dir ++ [name ++ ext]) (.file (content.take i)) with
    | some fs2 => .ok fs2
    | none => .error osError

/-- `setContent` (`filepath_copyTo.py:281-284`).  The file is closed, and with that all written, when it is collected, which
CPython does at once.  The result has the state that is left in any case. -/
def setContent (fs : Node) (dir : List Str) (name : Str) (content : List Nat) (ext : Str) : Node × Option PyErr :=
  match writeSibling fs dir name ext content content.length with
  | .error e => (fs, some e)
  | .ok fs1 =>
    match rename fs1 (dir ++ [name ++ ext]) (dir ++ [name]) with
    | .error e => (fs1, some e)
    | .ok fs2 => (fs2, none)

/-- `getContent` (`filepath_copyTo.py:286-287`). -/
def getContent (fs : Node) (p : List Str) : Except PyErr (List Nat) :=
  match lookup fs p with
  | some (.file content) => .ok content
  | _ => .error osError

/-- `moveTo` (`filepath_copyTo.py:369-392`).  `sameDevice` tells whether the two places are on one file system; when they are
not, `os.rename` fails with `EXDEV`, and `destination.secureSibling()` is called, which no `FilePath` has. -/
def moveTo (sameDevice : Bool) (fs : Node) (src dst : List Str) : Node × Option PyErr :=
  if sameDevice then
    match rename fs src dst with
    | .ok fs1 => (fs1, none)
    | .error e => (fs, some e)
  else (fs, some .attributeError)

/-! ## The cached answers -/

/-- What `stat` tells that the methods look at. -/
inductive Kind
  | dir | file | other
deriving DecidableEq

/-- `statinfo` (`filepath_copyTo.py:76`, `159-165`): `unset` is `None`, `absent` is `0`. -/
inductive Stat
  | unset
  | absent
  | found (k : Kind)
deriving DecidableEq

/-- `restat(False)` (`filepath_copyTo.py:159-165`), for what the path is now. -/
def restat (now : Option Kind) : Stat :=
  match now with
  | none => .absent
  | some k => .found k

/-- `exists` (`filepath_copyTo.py:195-202`). -/
def existsM (now : Option Kind) : Stat → Stat × Bool
  | .found k => (.found k, true)
  | .absent => (.absent, false)
  | .unset =>
    match restat now with
    | .found k => (.found k, true)
    | s => (s, false)

/-- `isdir`, `isfile` (`filepath_copyTo.py:204-220`). -/
def isKind (want : Kind) (now : Option Kind) : Stat → Stat × Bool
  | .found k => (.found k, decide (k = want))
  | _ =>
    match restat now with
    | .found k => (.found k, decide (k = want))
    | s => (s, false)

/-- The queries. -/
inductive Query
  | exists
  | isdir
  | isfile
  | restat
deriving DecidableEq

/-- One query; `restat` answers whether the path is there. -/
def query (now : Option Kind) (s : Stat) : Query → Stat × Bool
  | .exists => existsM now s
  | .isdir => isKind .dir now s
  | .isfile => isKind .file now s
  | .restat => (Verif.FilePath.restat now, now.isSome)

end Verif.FilePath
