import Verif.Model.FileLinks
import Verif.Model.FilePathCreate
/-!
# Model of `FilePath`'s creating, writing and renaming in the presence of symbolic links
(`/repo/epsilon/hotfixes/filepath_copyTo.py`)

As in `Model/FileLinks`.  Here links move, so their texts are part of the state; what `Links` gives for a place where there is
no link means nothing.  There are no hard links.
-/
namespace Verif.FileLinks
open Verif.Py Verif.Py.Path Verif.FilePath

structure World where
  fs : Node
  links : Links

/-- `os.open` with `O_EXCL` and `O_CREAT` (`create`, `filepath_copyTo.py:302-313`): a link in the last place is not followed, it
is something that exists. -/
def createAt (limit : Nat) (w : World) (p : List Str) : World × Option PyErr :=
  match place w.links limit w.fs p with
  | none => (w, some osError)
  | some q =>
    match FilePath.create w.fs q with
    | .error e => (w, some e)
    | .ok fs => (⟨fs, w.links⟩, none)

/-- `open(path, 'wb')`: the place of the file that is open, empty now. -/
def openWAt (limit : Nat) (w : World) (p : List Str) : Except PyErr (World × List Str) :=
  match resolve w.links w.fs true limit p with
  | none => .error osError
  | some q =>
    match openW w.fs q with
    | .error e => .error e
    | .ok fs => .ok (⟨fs, w.links⟩, q)

/-- Opening a `FilePath` for writing (`open`, `filepath_copyTo.py:151-155`). -/
def openFor (limit : Nat) (w : World) (p : FP) : World × Option PyErr :=
  if p.alwaysCreate then createAt limit w p.path
  else
    match openWAt limit w p.path with
    | .error e => (w, some e)
    | .ok (w1, _) => (w1, none)

/-- Where the links are after what is at `a` has moved to `b`. -/
def moved (L : Links) (a b : List Str) : Links := fun q =>
  if b.isPrefixOf q then L (a ++ q.drop b.length) else if a.isPrefixOf q then none else L q

/-- `os.rename` on one file system: no link in the last place is followed. -/
def renameAt (limit : Nat) (w : World) (src dst : List Str) : Except PyErr World :=
  match place w.links limit w.fs src, place w.links limit w.fs dst with
  | some a, some b =>
    match rename w.fs a b with
    | .error e => .error e
    | .ok fs => .ok ⟨fs, moved w.links a b⟩
  | _, _ => .error osError

/-- `setContent` (`filepath_copyTo.py:281-284`) of `dir/name`, with the state that is left in any case. -/
def setContentAt (limit : Nat) (w : World) (dir : List Str) (name : Str) (content : List Nat) (ext : Str) : World × Option PyErr :=
  match openWAt limit w (dir ++ [name ++ ext]) with
  | .error e => (w, some e)
  | .ok (w1, q) =>
    match put w1.fs q (.file content) with
    | none => (w1, some osError)
    | some fs =>
      let w2 : World := ⟨fs, w1.links⟩
      match renameAt limit w2 (dir ++ [name ++ ext]) (dir ++ [name]) with
      | .error e => (w2, some e)
      | .ok w3 => (w3, none)

/-- `moveTo` (`filepath_copyTo.py:369-392`) on one file system. -/
def moveToAt (limit : Nat) (w : World) (src dst : List Str) : World × Option PyErr :=
  match renameAt limit w src dst with
  | .error e => (w, some e)
  | .ok w1 => (w1, none)

end Verif.FileLinks
