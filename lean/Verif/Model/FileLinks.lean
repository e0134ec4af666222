import Verif.Model.FilePathOps
/-!
# Model of `FilePath`'s tree operations in the presence of symbolic links
(`/repo/epsilon/hotfixes/filepath_copyTo.py`)

Path resolution is that of `path_resolution(7)`: `stat`, `listdir` and `open` follow a symbolic link in the last place, `rmdir`,
`unlink` and `mkdir` do not, and after `limit` links (40 on Linux) resolution fails.  A symbolic link is an entry of the tree that
is `other` and for which `Links` gives a text.  The text is given as the components of an absolute path without `.` and `..`; a
relative text stands for the absolute path that it denotes.  The operations here make no symbolic links.
-/
namespace Verif.FileLinks
open Verif.Py Verif.Py.Path Verif.FilePath

/-- The texts of the symbolic links, by the places where they are. -/
abbrev Links := List Str → Option (List Str)

/-- The text of the symbolic link at a place, if there is one. -/
def linkAt (L : Links) (fs : Node) (q : List Str) : Option (List Str) :=
  match lookup fs q with
  | some .other => L q
  | _ => none

/-- Resolving a path component by component, from the place `done`; `restart` goes on after a link.  With `new` the last component
need not exist. -/
def follow (L : Links) (fs : Node) (new : Bool) (restart : List Str → Option (List Str)) : List Str → List Str → Option (List Str)
  | done, [] => some done
  | done, c :: rest =>
    match lookup fs (done ++ [c]) with
    | none => if new && rest.isEmpty then some (done ++ [c]) else none
    | some _ =>
      match linkAt L fs (done ++ [c]) with
      | some t => restart (t ++ rest)
      | none => follow L fs new restart (done ++ [c]) rest

/-- The place that a path leads to. -/
def resolve (L : Links) (fs : Node) (new : Bool) : Nat → List Str → Option (List Str)
  | 0, p => follow L fs new (fun _ => none) [] p
  | n + 1, p => follow L fs new (resolve L fs new n) [] p

/-- `os.stat` -/
def stat (L : Links) (limit : Nat) (fs : Node) (p : List Str) : Option Node :=
  match resolve L fs false limit p with
  | some q => lookup fs q
  | none => none

/-- The place of the entry that a path names, when a link in the last place is not followed. -/
def place (L : Links) (limit : Nat) (fs : Node) (p : List Str) : Option (List Str) :=
  match p.getLast? with
  | none => some []
  | some c =>
    match resolve L fs false limit p.dropLast with
    | some d => some (d ++ [c])
    | none => none

/-- `remove` (`filepath_copyTo.py:250-257`) with a bound on the depth; `isdir` and `listdir` follow links, `os.rmdir` and
`os.remove` do not. -/
def remove (L : Links) (limit : Nat) : Nat → Node → List Str → Option (Node × Option PyErr)
  | 0, _, _ => none
  | fuel + 1, fs, p =>
    match stat L limit fs p with
    | some (.dir es) =>
      match copyChildren (fun fs c => remove L limit fuel fs (p ++ [c])) fs (es.map Prod.fst) with
      | none => none
      | some (fs1, some e) => some (fs1, some e)
      | some (fs1, none) =>
        match place L limit fs1 p with
        | none => some (fs1, some osError)
        | some q =>
          match rmdir fs1 q with
          | .ok fs2 => some (fs2, none)
          | .error e => some (fs1, some e)
    | _ =>
      match place L limit fs p with
      | none => some (fs, some osError)
      | some q =>
        match osRemove fs q with
        | .ok fs1 => some (fs1, none)
        | .error e => some (fs, some e)

/-- `walk` (`filepath_copyTo.py:326-331`) with a bound on the depth. -/
def walk (L : Links) (limit : Nat) : Nat → Node → List Str → Option (List (List Str))
  | 0, _, _ => none
  | fuel + 1, fs, p =>
    match stat L limit fs p with
    | some (.dir es) =>
      match walkChildren (fun c => walk L limit fuel fs (p ++ [c])) (es.map Prod.fst) with
      | none => none
      | some l => some (p :: l)
    | _ => some [p]

/-- `os.mkdir` -/
def mkdirAt (L : Links) (limit : Nat) (fs : Node) (p : List Str) : Except PyErr Node :=
  match place L limit fs p with
  | none => .error osError
  | some q => mkdir fs q

/-- `copyTo` (`filepath_copyTo.py:335-367`) with a bound on the depth of the calls and on the number of chunks. -/
def copyTo (L : Links) (limit chunkSize : Nat) : Nat → Node → List Str → List Str → Option (Node × Option PyErr)
  | 0, _, _, _ => none
  | fuel + 1, fs, src, dst =>
    match stat L limit fs src with
    | some (.dir _) =>
      match (match stat L limit fs dst with
             | some _ => Except.ok fs
             | none => mkdirAt L limit fs dst) with
      | .error e => some (fs, some e)
      | .ok fs1 =>
        match stat L limit fs1 src with
        | some (.dir es) =>
          copyChildren (fun fs c => copyTo L limit chunkSize fuel fs (src ++ [c]) (dst ++ [c])) fs1 (es.map Prod.fst)
        | _ => some (fs1, some osError)
    | some (.file _) =>
      match resolve L fs true limit dst with
      | none => some (fs, some osError)
      | some q =>
        match openW fs q with
        | .error e => some (fs, some e)
        | .ok fs1 =>
          match stat L limit fs1 src with
          | some (.file content) =>
            match copyLoop chunkSize fuel content [] with
            | none => none
            | some written =>
              match put fs1 q (.file written) with
              | some fs2 => some (fs2, none)
              | none => some (fs1, some osError)
          | _ => some (fs1, some osError)
    | _ => some (fs, some .notImplementedError)

end Verif.FileLinks
