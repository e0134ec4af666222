import Verif.Model.Setuphelper
/-!
# Model of `epsilon/setuphelper.py`: regenerating the plugin cache

What is printed is not modelled, except that a traceback is printed.
-/
namespace Verif.PluginCache
open Verif.Py

abbrev Str := List Nat

/-- `'Empty module name'` -/
def emptyName : Str := [69, 109, 112, 116, 121, 32, 109, 111, 100, 117, 108, 101, 32, 110, 97, 109, 101]

/-- An exception, as far as `pluginModules` looks at it.  `value` is a `ValueError`, with the first of its `args`, if it has any;
any other first argument than a string is unequal to every string, and is represented by some string unequal to
`emptyName`. -/
inductive Exc where
  | importError
  | value (arg : Option Str)
  | generatorExit
  | other (n : Nat)
  deriving DecidableEq, Repr

/-- `namedAny(moduleName)`: a module, or an exception. -/
abbrev Importer := Str → Except Exc Nat

/-- The `except` clauses (`setuphelper.py:13-19`): is a traceback printed, or does the handler itself raise `IndexError`
(`ve.args[0]`)? -/
def handle : Exc → Except PyErr Bool
  | .importError => .ok false
  | .value (some a) => .ok (a ≠ emptyName)
  | .value none => .error .indexError
  | .generatorExit => .ok true
  | .other _ => .ok true

/-- The generator: `names` is what remains of `moduleNames`; `suspended` if it waits in the `yield`; finished otherwise when
there is nothing left. -/
inductive Gen where
  | fresh (names : List Str)
  | suspended (names : List Str)
  | finished
  deriving DecidableEq, Repr

/-- What resuming a generator results in. -/
inductive Yield where
  | value (m : Nat)
  | stop
  | raised (e : PyErr)
  deriving DecidableEq, Repr

/-- The loop (`setuphelper.py:10-19`) up to the next `yield`; also the names whose import printed a traceback. -/
def advance (imp : Importer) : List Str → Gen × Yield × List Str
  | [] => (.finished, .stop, [])
  | n :: names =>
    match imp n with
    | .ok m => (.suspended names, .value m, [])
    | .error e =>
      match handle e with
      | .error x => (.finished, .raised x, [])
      | .ok printed =>
        let r := advance imp names
        (r.1, r.2.1, (if printed then [n] else []) ++ r.2.2)

/-- `next(g)` -/
def next (imp : Importer) : Gen → Gen × Yield
  | .fresh names => ((advance imp names).1, (advance imp names).2.1)
  | .suspended names => ((advance imp names).1, (advance imp names).2.1)
  | .finished => (.finished, .stop)

/-- `g.close()`: `GeneratorExit` is raised in the `yield`, where the bare `except` catches it; a generator that yields again
makes `close` raise `RuntimeError`. -/
def close (imp : Importer) : Gen → Gen × Option PyErr
  | .fresh _ => (.finished, none)
  | .finished => (.finished, none)
  | .suspended names =>
    match handle .generatorExit with
    | .error x => (.finished, some x)
    | .ok _ =>
      match advance imp names with
      | (g, .value _, _) => (g, some .runtimeError)
      | (g, .stop, _) => (g, none)
      | (g, .raised e, _) => (g, some e)

/-- The `for` loop of `_regeneratePluginCache` (`setuphelper.py:25-29`): `plugins m` is what becomes of
`list(plugin.getPlugins(plugin.IPlugin, m))`.  The modules asked for their plugins, and the exception that ended it, if any.
`fuel` bounds the number of modules. -/
def askAll (imp : Importer) (plugins : Nat → Except PyErr Unit) : Nat → Gen → List Nat × Option PyErr
  | 0, _ => ([], none)
  | fuel + 1, g =>
    match next imp g with
    | (_, .stop) => ([], none)
    | (_, .raised e) => ([], some e)
    | (g', .value m) =>
      match plugins m with
      | .error e => ([m], some e)
      | .ok _ =>
        let r := askAll imp plugins fuel g'
        (m :: r.1, r.2)

/-- `p + ".plugins"` -/
def pluginName (p : Str) : Str := p ++ 46 :: Setuphelper.sPlugins

/-- `_regeneratePluginCache` (`setuphelper.py:21-29`). -/
def regenerate (imp : Importer) (plugins : Nat → Except PyErr Unit) (pluginPackages : List Str) : List Nat × Option PyErr :=
  askAll imp plugins (pluginPackages.length + 1) (.fresh (pluginPackages.map pluginName))

/-- `'install'` -/
def sInstall : Str := [105, 110, 115, 116, 97, 108, 108]

/-- `regeneratePluginCache` (`setuphelper.py:31-34`): the commands of the distribution, `os.path.abspath` of the `install`
command's `install_lib` (`none` if there is no such command object), and `sys.path`, which the imports depend on. -/
def regeneratePluginCache (commands : List Str) (lib : Option Str) (path : List Str) (imp : List Str → Importer)
    (plugins : Nat → Except PyErr Unit) (pluginPackages : List Str) : List Str × List Nat × Option PyErr :=
  if sInstall ∈ commands then
    match lib with
    | none => (path, [], some .keyError)
    | some l => (l :: path, regenerate (imp (l :: path)) plugins pluginPackages)
  else (path, [], none)

end Verif.PluginCache
