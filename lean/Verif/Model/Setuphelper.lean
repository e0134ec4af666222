import Verif.Py.Core
import Verif.Py.Path
/-!
# Model of `epsilon/setuphelper.py`

`autosetup` is modelled up to the arguments it passes to `distutils`: what it prints, what `setup` does and the plugin
cache are not.  The file system does not change meanwhile.
-/
namespace Verif.Setuphelper
open Verif.Py Verif.Py.Path

/-- A directory: its subdirectories, the names of symbolic links to directories in it (which `os.walk` lists as directories
but does not enter), and the names of its other entries. -/
inductive Tree where
  | node (subs : List (Str × Tree)) (links : List Str) (files : List Str)

def Tree.subs : Tree → List (Str × Tree)
  | .node s _ _ => s
def Tree.links : Tree → List Str
  | .node _ l _ => l
def Tree.files : Tree → List Str
  | .node _ _ f => f

/-- `p.startswith('.')` -/
def dotted (p : Str) : Bool := startsWith p [46]

/-- What `os.walk` yields for one directory, after `dirnames[:] = [p for p in dirnames if not p.startswith('.')]`
(`setuphelper.py:42,59`). -/
structure Visit where
  dirpath : Str
  dirnames : List Str
  filenames : List Str
  deriving DecidableEq, Repr

mutual
/-- `os.walk(path)`, top down, with the dot-directories pruned. -/
def walk (path : Str) : Tree → List Visit
  | .node subs links files =>
    ⟨path, (subs.map Prod.fst ++ links).filter (fun p => !dotted p), files⟩ :: walkSubs path subs
def walkSubs (path : Str) : List (Str × Tree) → List Visit
  | [] => []
  | (n, t) :: r => (if dotted n then [] else walk (join path [n]) t) ++ walkSubs path r
end

/-- `'__init__.py'` -/
def sInit : Str := [95, 95, 105, 110, 105, 116, 95, 95, 46, 112, 121]
/-- `'plugins'` -/
def sPlugins : Str := [112, 108, 117, 103, 105, 110, 115]
/-- `'dropin.cache'` -/
def sDropin : Str := [100, 114, 111, 112, 105, 110, 46, 99, 97, 99, 104, 101]
/-- `('.py', '.pyc', '.pyo')` -/
def moduleExts : List Str := [[46, 112, 121], [46, 112, 121, 99], [46, 112, 121, 111]]

/-- `dirpath[2:].replace('/', '.')` (`setuphelper.py:41`) -/
def pkgName (dirpath : Str) : Str := (dirpath.drop 2).map fun c => if c = 47 then 46 else c

/-- The first loop (`setuphelper.py:41-50`): `packages` and `pluginPackages`. -/
def findPackages : List Visit → List Str × List Str
  | [] => ([], [])
  | v :: vs =>
    let r := findPackages vs
    if sInit ∈ v.filenames then (pkgName v.dirpath :: r.1, r.2)
    else if sPlugins ∈ v.dirnames then (pkgName v.dirpath :: r.1, pkgName v.dirpath :: r.2)
    else r

/-- `setuphelper.py:60-65`: what one directory adds to the package data. -/
def dataOfVisit (package : Str) (v : Visit) : List Str :=
  v.filenames.filterMap fun f =>
    if f = sDropin then none
    else if (splitext f).2 ∉ moduleExts ∨ sInit ∉ v.filenames then
      some (join (v.dirpath.drop (package.length + 1)) [f])
    else none

/-- The second loop (`setuphelper.py:52-65`).  `os.listdir(package)` raises when there is no such directory — of the
packages found in the tree that is only the one called `''`. -/
def findData (root : Tree) : List Str → Dict Str (List Str) → Except PyErr (Dict Str (List Str))
  | [], d => .ok d
  | package :: ps, d =>
    if 46 ∈ package then findData root ps d
    else
      match Dict.get? root.subs package with
      | none => .error (.other "FileNotFoundError")
      | some t => findData root ps (d.set package ((walk package t).flatMap (dataOfVisit package)))

/-- What `autosetup` passes to `setup` and to `regeneratePluginCache`. -/
structure Result where
  packages : List Str
  packageData : Dict Str (List Str)
  pluginPackages : List Str
  deriving DecidableEq, Repr

/-- `autosetup` (`setuphelper.py:36-77`) -/
def autosetup (root : Tree) : Except PyErr Result :=
  let r := findPackages (walk [46] root)
  match findData root r.1 [] with
  | .error e => .error e
  | .ok d => .ok ⟨r.1, d, r.2⟩

end Verif.Setuphelper
