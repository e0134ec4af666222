import Verif.Model.FilePathOps
/-!
# Model of the directories of `FilePath`: making them, listing them, globbing in them
(`/repo/epsilon/hotfixes/filepath_copyTo.py`)

As in `Model/FilePath`: no symbolic links, paths are lists of components.  The module imports `sha`, so only Python 2 loads it.
-/
namespace Verif.FilePath
open Verif.Py Verif.Py.Path

/-! ## Making directories -/

/-- `createDirectory` (`filepath_copyTo.py:296-297`). -/
def createDirectory (fs : Node) (p : List Str) : Except PyErr Node := mkdir fs p

/-- `os.makedirs` of the first `k` components of a path: first what holds it, if it is not there, then the directory itself.
The result has the state that is left in any case. -/
def makedirsTo (fs : Node) (p : List Str) : Nat → Node × Option PyErr
  | 0 => (fs, some osError)
  | k + 1 =>
    let r := match lookup fs (p.take k) with
      | some _ => (fs, none)
      | none => makedirsTo fs p k
    match r with
    | (fs1, some e) => (fs1, some e)
    | (fs1, none) =>
      match mkdir fs1 (p.take (k + 1)) with
      | .ok fs2 => (fs2, none)
      | .error e => (fs1, some e)

/-- `makedirs` (`filepath_copyTo.py:259-260`). -/
def makedirs (fs : Node) (p : List Str) : Node × Option PyErr := makedirsTo fs p p.length

/-! ## Listing them -/

/-- `listdir` (`filepath_copyTo.py:234-235`). -/
def listdir (fs : Node) (p : List Str) : Except PyErr (List Str) :=
  match lookup fs p with
  | some (.dir es) => .ok (es.map Prod.fst)
  | _ => .error osError

/-- `children` (`filepath_copyTo.py:323-324`); `child` of a name that a directory can have appends it (`child_name`). -/
def children (fs : Node) (p : List Str) : Except PyErr (List (List Str)) :=
  match listdir fs p with
  | .ok names => .ok (names.map fun c => p ++ [c])
  | .error e => .error e

/-! ## Globbing -/

/-- `glob.has_magic`: `*`, `?` or `[` occur. -/
def hasMagic (s : Str) : Bool := s.any fun c => c == 42 || c == 63 || c == 91

/-- A tail of the text that the rest of the pattern matches: what `.*` does. -/
def someTail (f : Str → Bool) : Str → Bool
  | [] => f []
  | c :: s => f (c :: s) || someTail f s

/-- `re.error`. -/
def reError : PyErr := .other "re.error"

/-- A piece of a pattern, as `fnmatch.translate` reads it: `.*`, `.`, a character, or a class of ranges, negated or not. -/
inductive Piece
  | star
  | any
  | lit (c : Nat)
  | set (neg : Bool) (ranges : List (Nat × Nat))
deriving DecidableEq, Repr

/-- Up to the next `]`, and what is after it. -/
def untilClose : Str → Option (Str × Str)
  | [] => none
  | c :: p => if c = 93 then some ([], p) else (untilClose p).map fun r => (c :: r.1, r.2)

/-- The search of `fnmatch.translate` (CPython 2.7, `Lib/fnmatch.py`) for the end of a bracket, on the text after `[`: a `!`
and then a `]` are passed over first. -/
def bracket (p : Str) : Option (Str × Str) :=
  let k := match p with
    | 33 :: 93 :: _ => 2
    | 33 :: _ => 1
    | 93 :: _ => 1
    | _ => 0
  (untilClose (p.drop k)).map fun r => (p.take k ++ r.1, r.2)

/-- What `sre_parse` makes of the inside of a class in which nothing but the first character is `]` and every backslash is
doubled: ranges, characters, and a `-` at the end that is itself. -/
def rangesOf : Str → List (Nat × Nat)
  | [] => []
  | a :: 45 :: b :: t => (a, b) :: rangesOf t
  | a :: t => (a, a) :: rangesOf t

/-- The class for the text between the brackets: `!` in front negates it, a `^` in front is quoted; a range that ends before
it begins makes `re.compile` raise `re.error` ("bad character range"). -/
def classOf (stuff : Str) : Except PyErr Piece :=
  let r := match stuff with
    | 33 :: t => (true, rangesOf t)
    | t => (false, rangesOf t)
  if r.2.any fun ab => ab.2 < ab.1 then .error reError else .ok (.set r.1 r.2)

/-- `fnmatch.translate` and `re.compile` of what it gives; `skip` is how far its index is ahead. -/
def translateFrom : Nat → Str → Except PyErr (List Piece)
  | _, [] => .ok []
  | skip + 1, _ :: p => translateFrom skip p
  | 0, c :: p =>
    if c = 42 then (translateFrom 0 p).map (Piece.star :: ·)
    else if c = 63 then (translateFrom 0 p).map (Piece.any :: ·)
    else if c = 91 then
      match bracket p with
      | none => (translateFrom 0 p).map (Piece.lit c :: ·)
      | some r =>
        match classOf r.1 with
        | .error e => .error e
        | .ok x => (translateFrom (r.1.length + 1) p).map (x :: ·)
    else (translateFrom 0 p).map (Piece.lit c :: ·)

/-- `fnmatch.translate` of a whole pattern. -/
def translate (p : Str) : Except PyErr (List Piece) := translateFrom 0 p

/-- A piece other than `.*` matches one character. -/
def Piece.takes : Piece → Nat → Bool
  | .star, _ => false
  | .any, _ => true
  | .lit c, d => c == d
  | .set neg ranges, d => neg != ranges.any fun ab => ab.1 ≤ d && d ≤ ab.2

/-- Matching the whole text (`(?ms)` and `\Z`: `.` matches every character). -/
def matchPieces : List Piece → Str → Bool
  | [], s => s.isEmpty
  | x :: ps, s =>
    if x = .star then someTail (matchPieces ps) s
    else
      match s with
      | [] => false
      | d :: s' => x.takes d && matchPieces ps s'

/-- `fnmatch.filter`: the pattern is compiled even if there are no names. -/
def fnfilter (names : List Str) (pat : Str) : Except PyErr (List Str) :=
  match translate pat with
  | .error e => .error e
  | .ok ps => .ok (names.filter fun c => matchPieces ps c)

/-- `glob.glob1`: the names in a directory that match; hidden ones only if the pattern begins with a dot. -/
def glob1 (fs : Node) (dir : List Str) (pat : Str) : Except PyErr (List Str) :=
  match listdir fs dir with
  | .error _ => .ok []
  | .ok names => fnfilter (names.filter fun c => pat.head? == some 46 || c.head? != some 46) pat

/-- `glob.glob0`: the name, if it is there. -/
def glob0 (fs : Node) (dir : List Str) (name : Str) : Except PyErr (List Str) :=
  .ok (if (lookup fs (dir ++ [name])).isSome then [name] else [])

/-- The results of a loop that yields. -/
def gather {α β : Type} (f : α → Except PyErr (List β)) : List α → Except PyErr (List β)
  | [] => .ok []
  | a :: l =>
    match f a with
    | .error e => .error e
    | .ok xs =>
      match gather f l with
      | .error e => .error e
      | .ok ys => .ok (xs ++ ys)

/-- `glob.iglob`, on the components of the path in reverse order.  The only exception is `re.error`, so it does not matter
that the directories are generated while the names are. -/
def iglob (fs : Node) : List Str → Except PyErr (List (List Str))
  | [] => .ok [[]]
  | last :: init =>
    if !(last :: init).any hasMagic then
      .ok (if (lookup fs (last :: init).reverse).isSome then [(last :: init).reverse] else [])
    else
      match if init.any hasMagic then iglob fs init else .ok [init.reverse] with
      | .error e => .error e
      | .ok dirs => gather (fun dir => (if hasMagic last then glob1 fs dir last else glob0 fs dir last).map
          fun names => names.map fun name => dir ++ [name]) dirs

/-- `globChildren` (`filepath_copyTo.py:262-270`) for a pattern that is made of components none of which is empty, `.` or
`..`.  Nothing is quoted in the path. -/
def globChildren (fs : Node) (p : List Str) (pattern : List Str) : Except PyErr (List (List Str)) :=
  iglob fs (p ++ pattern).reverse

end Verif.FilePath
