import Verif.Model.FileLinks
import Verif.Model.BenchmarkSize
/-!
# Model of `getSize` (`/repo/epsilon/scripts/benchmark.py:437-460`) where symbolic links may lead to directories

Path resolution and links are those of `Verif.Model.FileLinks`; here the reasons for which it fails are told apart.
-/
namespace Verif.SizeLinks
open Verif.Py Verif.Py.Path Verif.FilePath Verif.FileLinks

/-- Why `os.stat` fails. -/
inductive Errno
  | enoent
  | enotdir
  | eloop
deriving DecidableEq

/-- `Verif.FileLinks.follow`, with the reasons of failure: `ENOENT` if a directory lacks the entry, `ENOTDIR` if there is no directory. -/
def follow (L : Links) (fs : Node) (restart : List Str → Except Errno (List Str)) : List Str → List Str → Except Errno (List Str)
  | done, [] => .ok done
  | done, c :: rest =>
    match lookup fs (done ++ [c]) with
    | none =>
      match lookup fs done with
      | some (.dir _) => .error .enoent
      | _ => .error .enotdir
    | some _ =>
      match linkAt L fs (done ++ [c]) with
      | some t => restart (t ++ rest)
      | none => follow L fs restart (done ++ [c]) rest

/-- `Verif.FileLinks.resolve`, with the reasons of failure: `ELOOP` after too many links. -/
def resolve (L : Links) (fs : Node) : Nat → List Str → Except Errno (List Str)
  | 0, p => follow L fs (fun _ => .error .eloop) [] p
  | n + 1, p => follow L fs (resolve L fs n) [] p

/-- What `os.stat` of a path gives; `size` is the `st_size` of what is at a place. -/
def statOf (L : Links) (limit : Nat) (fs : Node) (size : List Str → Nat) (p : List Str) : StatOf :=
  match resolve L fs limit p with
  | .ok q => .size (size q)
  | .error .enoent => .enoent
  | .error _ => .error osError

/-- `os.readlink(p)`, if `os.path.islink(p)` (`benchmark.py:455-456`); `text` is the text of the link at a place. -/
def linkText (L : Links) (limit : Nat) (fs : Node) (text : List Str → Str) (p : List Str) : Option Str :=
  match place L limit fs p with
  | some q => if (linkAt L fs q).isSome then some (text q) else none
  | none => none

/-- `getSize` (`benchmark.py:437-442`) with a bound on the depth of the walk; the paths have not been looked at before. -/
def getSize (L : Links) (limit : Nat) (size : List Str → Nat) (text : List Str → Str) (fuel : Nat) (fs : Node) (p : List Str) :
    Option (Except PyErr Nat) :=
  match walk L limit fuel fs p with
  | none => none
  | some l => some (sumSizes (fun q => getOneSize (statOf L limit fs size q) (linkText L limit fs text q)) l 0)

end Verif.SizeLinks
