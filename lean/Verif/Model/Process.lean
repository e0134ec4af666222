import Verif.Py.Core
import Verif.Py.Path
/-!
# Model of `epsilon/process.py`

Environment mappings are objects in a store, because the property is about which of them change: the default `env={}` is
one object shared by all calls.  `imp.find_module` and the iteration order of a `set` are parameters.
-/
namespace Verif.Process
open Verif.Py Verif.Py.Path

abbrev Env := Dict Str Str

/-- The mappings that exist; a reference is a position.  Position 0 is the default value of `env` (`process.py:18,45`). -/
abbrev Store := List Env

structure World where
  /-- `sys.prefix` -/
  pfx : Str
  /-- `sys.executable` -/
  executable : Str
  /-- `imp.find_module(pkg)[1]`; `none` for modules without a file -/
  find : Str → Except PyErr (Option Str)
  /-- the order in which `list(set(xs))` lists the members of `xs` -/
  order : List Str → List Str

/-- The call `reactor.spawnProcess(processProtocol, executable, args, env, path, uid, gid, usePTY)`. -/
structure Spawn where
  proto : Nat
  executable : Str
  args : List Str
  env : Nat
  path : Option Str
  uid : Option Int
  gid : Option Int
  usePTY : Int
  deriving DecidableEq, Repr

/-- `'lib'` -/
def sLib : Str := [108, 105, 98]
/-- `'PYTHONPATH'` -/
def sPythonPath : Str := [80, 89, 84, 72, 79, 78, 80, 65, 84, 72]

/-- `process.py:31-36`: the loop over the packages. -/
def packageDirs (w : World) : List Str → Except PyErr (List Str)
  | [] => .ok []
  | pkg :: pkgs =>
    match w.find pkg with
    | .error e => .error e
    | .ok none => .error .typeError
    | .ok (some file) =>
      let p := (split file).1
      if startsWith p (join w.pfx [sLib]) then packageDirs w pkgs
      else
        match packageDirs w pkgs with
        | .error e => .error e
        | .ok ps => .ok (p :: ps)

/-- `process.py:37-39`: the new value of PYTHONPATH. -/
def pythonPath (w : World) (dirs : List Str) (env : Env) : Str :=
  joinSep [58] (w.order dirs ++ splitSep [58] ((env.get? sPythonPath).getD []))

/-- `spawnProcess` (`process.py:18-42`).  `env.copy()` makes a new mapping; an error leaves that copy behind and spawns
nothing.  (An invalid reference does not occur in Python; it is answered with a `NameError`.) -/
def spawnProcess (w : World) (c : Spawn) (packages : List Str) (st : Store) : Except PyErr Spawn × Store :=
  match st[c.env]? with
  | none => (.error (.other "NameError"), st)
  | some env =>
    let st := st ++ [env]
    match packageDirs w packages with
    | .error e => (.error e, st)
    | .ok dirs =>
      (.ok { c with env := st.length - 1 },
       st.set (st.length - 1) (env.set sPythonPath (pythonPath w dirs env)))

/-- `spawnPythonProcess` (`process.py:44-54`) -/
def spawnPythonProcess (w : World) (c : Spawn) (packages : List Str) (st : Store) : Except PyErr Spawn × Store :=
  spawnProcess w { c with executable := w.executable } packages st

/-- Any sequence of calls, with the results. -/
def calls (w : World) : List (Bool × Spawn × List Str) → Store → List (Except PyErr Spawn) × Store
  | [], st => ([], st)
  | (python, c, pkgs) :: cs, st =>
    let r := if python then spawnPythonProcess w c pkgs st else spawnProcess w c pkgs st
    let rs := calls w cs r.2
    (r.1 :: rs.1, rs.2)

end Verif.Process
