import Verif.Py.Path
/-!
# Model of `FilePath` (`/repo/epsilon/hotfixes/filepath_copyTo.py`)

A `FilePath` is represented by its `path`, an absolute path.  First the operations on the text of the path, then those on
the file system.
-/
namespace Verif.FilePath
open Verif.Py Verif.Py.Path

/-! ## Paths -/

/-- `FilePath(path).path` (`filepath_copyTo.py:78-80`); also `clonePath` (`395`). -/
def filePath (cwd path : Str) : Str := abspath cwd path

def insecure : PyErr := .other "InsecurePath"

/-- `child` (`filepath_copyTo.py:88-95`). -/
def child (cwd self path : Str) : Except PyErr Str :=
  let norm := normpath path
  if 47 ∈ norm then .error insecure
  else
    let newpath := abspath cwd (join self [norm])
    if !startsWith newpath self then .error insecure
    else .ok (filePath cwd newpath)

/-- `preauthChild` (`filepath_copyTo.py:97-106`). -/
def preauthChild (cwd self path : Str) : Except PyErr Str :=
  let newpath := abspath cwd (join self [normpath path])
  if !startsWith newpath self then .error insecure
  else .ok (filePath cwd newpath)

/-- `childSearchPreauth` (`filepath_copyTo.py:108-121`), with `os.path.exists`. -/
def childSearchPreauth (cwd : Str) (exists_ : Str → Bool) (self : Str) : List Str → Option Str
  | [] => none
  | c :: cs =>
    let jp := join self [c]
    if exists_ jp then some (filePath cwd jp) else childSearchPreauth cwd exists_ self cs

/-- `siblingExtension` (`filepath_copyTo.py:148-149`). -/
def siblingExtension (cwd self ext : Str) : Str := filePath cwd (self ++ ext)

/-- The search for any extension (`filepath_copyTo.py:139-143`) among the names in the directory. -/
def anyExtension (cwd self : Str) : List Str → Option Str
  | [] => none
  | fn :: fns =>
    if startsWith fn (basename self ++ [46]) then some (filePath cwd (join (dirname self) [fn])) else anyExtension cwd self fns

/-- `siblingExtensionSearch` (`filepath_copyTo.py:123-146`), with `os.path.exists` (also for `self.exists()`, which looks at
the path itself unless it was looked at before) and the names in the directory of the path. -/
def siblingExtensionSearch (cwd : Str) (exists_ : Str → Bool) (names : List Str) (self : Str) : List Str → Option Str
  | [] => none
  | ext :: exts =>
    if ext = [] ∧ exists_ self = true then some self
    else
      match (if ext = [42] then anyExtension cwd self names else none) with
      | some p => some p
      | none =>
        let p2 := self ++ ext
        if exists_ p2 then some (filePath cwd p2) else siblingExtensionSearch cwd exists_ names self exts

/-- `parent` (`filepath_copyTo.py:278-279`). -/
def parent (cwd self : Str) : Str := filePath cwd (dirname self)

/-! ## The file system

Regular files, directories with their entries in the order in which `listdir` gives them, and anything else (fifos, devices,
sockets).  There are no symbolic links.  Paths are lists of components below the root; that `child` and `basename` do what
appending and taking the last component do is proved with the properties (`child_name`, `basename_canon`). -/

inductive Node
  | file (content : List Nat)
  | dir (entries : List (Str × Node))
  | other

/-- What is at a path. -/
def lookup : Node → List Str → Option Node
  | n, [] => some n
  | .dir es, c :: p =>
    match Dict.get? es c with
    | some m => lookup m p
    | none => none
  | _, _ :: _ => none

/-- The file system with something put at a path; `none` if the directory in which it would be does not exist. -/
def put : Node → List Str → Node → Option Node
  | _, [], x => some x
  | .dir es, [c], x => some (.dir (Dict.set es c x))
  | .dir es, c :: p, x =>
    match Dict.get? es c with
    | some m =>
      match put m p x with
      | some m' => some (.dir (Dict.set es c m'))
      | none => none
    | none => none
  | _, _ :: _, _ => none

def osError : PyErr := .other "OSError"

/-- `os.mkdir` -/
def mkdir (fs : Node) (p : List Str) : Except PyErr Node :=
  match lookup fs p with
  | some _ => .error osError
  | none =>
    match put fs p (.dir []) with
    | some fs' => .ok fs'
    | none => .error osError

/-- `open(path, 'wb')`: creates or empties the file. -/
def openW (fs : Node) (p : List Str) : Except PyErr Node :=
  match lookup fs p with
  | some (.dir _) => .error osError
  | some .other => .error osError
  | _ =>
    match put fs p (.file []) with
    | some fs' => .ok fs'
    | none => .error osError

/-- The copying loop (`filepath_copyTo.py:349-358`): what is left to read, what has been written. -/
def copyLoop (chunkSize : Nat) : Nat → List Nat → List Nat → Option (List Nat)
  | 0, _, _ => none
  | fuel + 1, rest, written =>
    let chunk := rest.take chunkSize
    if chunk.length < chunkSize then some (written ++ chunk)
    else copyLoop chunkSize fuel (rest.drop chunkSize) (written ++ chunk)

/-- The loop over the children (`filepath_copyTo.py:343-345`). -/
def copyChildren (rec : Node → Str → Option (Node × Option PyErr)) : Node → List Str → Option (Node × Option PyErr)
  | fs, [] => some (fs, none)
  | fs, c :: cs =>
    match rec fs c with
    | none => none
    | some (fs', some e) => some (fs', some e)
    | some (fs', none) => copyChildren rec fs' cs

/-- `copyTo` (`filepath_copyTo.py:335-367`) with a bound on the depth of the calls and on the number of chunks; `none` means
that the bound was too small.  The destination is opened, and emptied, before the source is read. -/
def copyTo (chunkSize : Nat) : Nat → Node → List Str → List Str → Option (Node × Option PyErr)
  | 0, _, _, _ => none
  | fuel + 1, fs, src, dst =>
    match lookup fs src with
    | some (.dir _) =>
      match (match lookup fs dst with
             | some _ => Except.ok fs
             | none => mkdir fs dst) with
      | .error e => some (fs, some e)
      | .ok fs1 =>
        match lookup fs1 src with
        | some (.dir es) =>
          copyChildren (fun fs c => copyTo chunkSize fuel fs (src ++ [c]) (dst ++ [c])) fs1 (es.map Prod.fst)
        | _ => some (fs1, some osError)
    | some (.file _) =>
      match openW fs dst with
      | .error e => some (fs, some e)
      | .ok fs1 =>
        match lookup fs1 src with
        | some (.file content) =>
          match copyLoop chunkSize fuel content [] with
          | none => none
          | some written =>
            match put fs1 dst (.file written) with
            | some fs2 => some (fs2, none)
            | none => some (fs1, some osError)
        | _ => some (fs1, some osError)
    | _ => some (fs, some .notImplementedError)

end Verif.FilePath
