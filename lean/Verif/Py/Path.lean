import Verif.Py.Split
/-!
# Python primitives: `posixpath`

Paths are lists of code points; `/` is 47 and `.` is 46.  Transcribed from CPython 3.7 `Lib/posixpath.py` and
`Lib/genericpath.py` (`os.path` on POSIX).
-/
namespace Verif.Py.Path

abbrev Str := List Nat

/-- `s.startswith(p)` -/
def startsWith (s p : Str) : Bool := p.isPrefixOf s

/-- `s.rstrip('/')` -/
def rstripSlash (s : Str) : Str := (s.reverse.dropWhile (· == 47)).reverse

/-- What precedes and includes the last slash. -/
def upToSlash (p : Str) : Str := (p.reverse.dropWhile (· != 47)).reverse

/-- What follows the last slash: `os.path.basename`. -/
def basename (p : Str) : Str := (p.reverse.takeWhile (· != 47)).reverse

/-- `os.path.dirname`: trailing slashes go, unless there is nothing else. -/
def dirname (p : Str) : Str :=
  if (upToSlash p).all (· == 47) then upToSlash p else rstripSlash (upToSlash p)

/-- `os.path.split` -/
def split (p : Str) : Str × Str := (dirname p, basename p)

/-- One step of `os.path.join`. -/
def join2 (path b : Str) : Str :=
  if startsWith b [47] then b
  else if path = [] ∨ path.getLast? = some 47 then path ++ b
  else path ++ [47] ++ b

/-- `os.path.join(a, *p)` -/
def join (a : Str) (p : List Str) : Str := p.foldl join2 a

/-- `os.path.isabs` -/
def isabs (p : Str) : Bool := startsWith p [47]

/-- The loop of `os.path.normpath` over the components; `rooted` says whether there are initial slashes. -/
def normComps (rooted : Bool) : List Str → List Str → List Str
  | acc, [] => acc
  | acc, c :: cs =>
    if c = [] ∨ c = [46] then normComps rooted acc cs
    else if c ≠ [46, 46] ∨ (rooted = false ∧ acc = []) ∨ (acc ≠ [] ∧ acc.getLast? = some [46, 46]) then
      normComps rooted (acc ++ [c]) cs
    else if acc ≠ [] then normComps rooted acc.dropLast cs
    else normComps rooted acc cs

/-- How many initial slashes `normpath` keeps: two if there are exactly two, otherwise at most one. -/
def initialSlashes (p : Str) : Nat :=
  if startsWith p [47, 47] && !startsWith p [47, 47, 47] then 2 else if startsWith p [47] then 1 else 0

/-- `os.path.normpath` -/
def normpath (p : Str) : Str :=
  if p = [] then [46]
  else
    let n := initialSlashes p
    let r := List.replicate n 47 ++ joinSep [47] (normComps (decide (n ≠ 0)) [] (splitSep [47] p))
    if r = [] then [46] else r

/-- `os.path.abspath`, in the working directory `cwd`. -/
def abspath (cwd p : Str) : Str := normpath (if isabs p then p else join cwd [p])

/-- Does `genericpath._splitext` find a character other than a dot before the last dot of the base name? -/
def splitextCut (base : Str) : Bool :=
  (base.reverse.dropWhile (· != 46)).drop 1 |>.any (· != 46)

/-- `os.path.splitext`: the extension is what follows the last dot of the base name, with the dot, unless everything before
it is dots. -/
def splitext (p : Str) : Str × Str :=
  let b := basename p
  if b.contains 46 && splitextCut b then
    let ext := 46 :: (b.reverse.takeWhile (· != 46)).reverse
    (p.take (p.length - ext.length), ext)
  else (p, [])

end Verif.Py.Path
