import Verif.Py.Path
/-!
# Model of `/repo/epsilon/hotfixes/plugin_package_paths.py`
-/
namespace Verif.PluginPaths
open Verif.Py Verif.Py.Path

/-- `'__init__.py'` -/
def sInit : Str := [95, 95, 105, 110, 105, 116, 95, 95, 46, 112, 121]

/-- `pluginPackagePaths` (`plugin_package_paths.py:9-37`), with `sys.path`, the working directory and `os.path.exists`. -/
def pluginPackagePaths (cwd : Str) (sysPath : List Str) (exists_ : Str → Bool) (name : Str) : List Str :=
  let package := splitSep [46] name
  (sysPath.filter fun x => !exists_ (join x (package ++ [sInit]))).map fun x => abspath cwd (join x package)

end Verif.PluginPaths
