import Verif.Py.Replace
import Verif.Py.Split
import Verif.Py.Words
/-!
# Model of `/repo/epsilon/asplode.py`

Texts are Python 2 byte strings.  Of the file system only the contents of regular files are kept.
-/
namespace Verif.Asplode
open Verif.Py

abbrev Str := List Nat

/-- `'_project_'` -/
def sProject : Str := [95, 112, 114, 111, 106, 101, 99, 116, 95]
/-- `'_Project_'` -/
def sCapProject : Str := [95, 80, 114, 111, 106, 101, 99, 116, 95]
/-- `'_date_'` -/
def sDate : Str := [95, 100, 97, 116, 101, 95]
/-- `'###file:'` -/
def marker : Str := [35, 35, 35, 102, 105, 108, 101, 58]

/-- What `splode` is called with, and its surroundings.  `today` is `str(date.today())`, taken to be the same for all
lines; `python2` says that there is a builtin `file`; `canOpen` says whether, with the given files present and after the
attempt to make the directories (`os.makedirs`, whose failures are ignored), the name can be opened for writing. -/
structure Env where
  proj : Str
  capproj : Str
  today : Str
  python2 : Bool
  canOpen : Dict Str Str → Str → Bool

/-- The files, the name of the open one (`current`), and the names reported by `status`. -/
structure State where
  files : Dict Str Str
  current : Option Str
  created : List Str

/-- The three substitutions (`asplode.py:12-14`). -/
def subst (e : Env) (line : Str) : Str :=
  strReplace sDate e.today (strReplace sCapProject e.capproj (strReplace sProject e.proj line))

/-- The name on a marker line (`asplode.py:17`); `none` when there is no marker. -/
def fileName (line : Str) : Option Str :=
  match splitSep marker line with
  | _ :: p :: _ => some (stripBy isByteSpace p)
  | _ => none

/-- One turn of the loop (`asplode.py:11-28`).  Opening for writing empties the file; what is written to the open file
appears in it (buffering is not modelled: the file is closed before another is opened). -/
def step (e : Env) (s : State) (line : Str) : State × Option PyErr :=
  match fileName (subst e line) with
  | some fname =>
    if !e.python2 then (s, some (.other "NameError"))
    else if e.canOpen s.files fname then
      ({ files := s.files.set fname [], current := some fname, created := s.created ++ [fname] }, none)
    else (s, some (.other "IOError"))
  | none =>
    match s.current with
    | none => (s, some .attributeError)
    | some c => ({ s with files := s.files.set c ((s.files.get? c).getD [] ++ subst e line) }, none)

/-- The loop and the final `current.close()` (`asplode.py:9-29`). -/
def loop (e : Env) : State → List Str → State × Option PyErr
  | s, [] =>
    match s.current with
    | none => (s, some .attributeError)
    | some _ => ({ s with current := none }, none)
  | s, l :: ls =>
    match step e s l with
    | (s', none) => loop e s' ls
    | (s', some err) => (s', some err)

/-- `splode` (`asplode.py:9-29`), with the files there are. -/
def splode (e : Env) (files : Dict Str Str) (lines : List Str) : State × Option PyErr :=
  loop e ⟨files, none, []⟩ lines

/-- `status` (`asplode.py:5-7`): what is written to `sys.stderr`. -/
def status (x : Str) : Str := x ++ [10]

/-- `'Created: '` -/
def sCreated : Str := [67, 114, 101, 97, 116, 101, 100, 58, 32]

/-- `readlines()`: the lines with their ends. -/
def readlines : Str → List Str
  | [] => []
  | c :: cs =>
    if c = 10 then [10] :: readlines cs
    else
      match readlines cs with
      | [] => [[c]]
      | l :: ls => (c :: l) :: ls

/-- What `main` (`asplode.py:30-31`) leaves: the files, what is on `sys.stderr` from `status` (`asplode.py:26`), what is raised. The
arguments of the program are not looked at. -/
structure Outcome where
  files : Dict Str Str
  stderr : Str
  raised : Option PyErr

/-- `main` (`asplode.py:30-31`), with `'zoop'` and `'Zoop'`. -/
def main (today : Str) (python2 : Bool) (canOpen : Dict Str Str → Str → Bool) (files : Dict Str Str) (stdin : Str) : Outcome :=
  let (s, err) := splode ⟨[122, 111, 111, 112], [90, 111, 111, 112], today, python2, canOpen⟩ files (readlines stdin)
  ⟨s.files, (s.created.map fun n => status (sCreated ++ n)).flatten, err⟩

end Verif.Asplode
