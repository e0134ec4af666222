import Verif.Py.Core
/-!
# Model of `epsilon/hotfix.py`

What `require` asks Twisted is a record of answers (`World`), which may change arbitrarily between calls; what an
installation does to the world, or that it raises, is arbitrary too.
-/
namespace Verif.Hotfix
open Verif.Py

/-- The answers of the installed Twisted to the questions of `require`. -/
structure World where
  /-- `filepath.FilePath('a') != filepath.FilePath('a')` -/
  pathsDiffer : Bool
  /-- `hasattr(policies.TimeoutMixin, 'callLater')` -/
  hasCallLater : Bool
  /-- argument names of `base.DelayedCall.__init__` -/
  delayedArgs : List String
  /-- what running the test generator leaves in `result` (or raises, as when `waitForDeferred` does not exist) -/
  generator : Except PyErr (List (Option Nat))
  /-- `st.write(u'foo')` -/
  writeText : Except PyErr Unit
  /-- `internet_task_clock.clockIsBroken()` -/
  clockBroken : Bool
  /-- `hasattr(TestCase, "failUnlessWarns")` -/
  hasAssertWarns : Bool
  /-- `from twisted.plugin import pluginPackagePaths` -/
  importPaths : Except PyErr Unit
  /-- `(version.major, version.minor)` -/
  version : Nat × Nat

/-- `raise NoSuchHotfix(...)` -/
def noSuchHotfix : PyErr := .other "NoSuchHotfix"
def importError : PyErr := .other "ImportError"

structure St where
  /-- `_alreadyInstalled` -/
  installed : List (String × String)
  world : World
  /-- the modules whose `install()` has been called, in what world, and whether it returned -/
  log : List (String × World × Bool)

/-- `module.install()`, whose effect is `outcome`. -/
def install (st : St) (module_ : String) (outcome : Except PyErr World) : Except PyErr Unit × St :=
  match outcome with
  | .ok w => (.ok (), { st with world := w, log := st.log ++ [(module_, st.world, true)] })
  | .error e => (.error e, { st with log := st.log ++ [(module_, st.world, false)] })

/-- The chain of tests (`hotfix.py:15-80`). -/
def check (st : St) (p f : String) (outcome : Except PyErr World) : Except PyErr Unit × St :=
  if (p, f) = ("twisted", "filepath_copyTo") then
    if st.world.pathsDiffer then install st "filepath_copyTo" outcome else (.ok (), st)
  else if (p, f) = ("twisted", "timeoutmixin_calllater") then
    if ¬ st.world.hasCallLater then install st "timeoutmixin_calllater" outcome else (.ok (), st)
  else if (p, f) = ("twisted", "delayedcall_seconds") then
    if "seconds" ∉ st.world.delayedArgs then install st "delayedcall_seconds" outcome else (.ok (), st)
  else if (p, f) = ("twisted", "deferredgenerator_tfailure") then
    match st.world.generator with
    | .error e => (.error e, st)
    | .ok result =>
      if result = [some 1] then install st "deferredgenerator_tfailure" outcome
      else if result = [none] then (.ok (), st)
      else (.error .assertionError, st)
  else if (p, f) = ("twisted", "proto_helpers_stringtransport") then
    match st.world.writeText with
    | .error e => if e = .typeError then (.ok (), st) else (.error e, st)
    | .ok () => install st "proto_helpers_stringtransport" outcome
  else if (p, f) = ("twisted", "internet_task_Clock") then
    if st.world.clockBroken then install st "internet_task_clock" outcome else (.ok (), st)
  else if (p, f) = ("twisted", "trial_assertwarns") then
    if ¬ st.world.hasAssertWarns then install st "trial_assertwarns" outcome else (.ok (), st)
  else if (p, f) = ("twisted", "plugin_package_paths") then
    match st.world.importPaths with
    | .error e => if e = importError then install st "plugin_package_paths" outcome else (.error e, st)
    | .ok () => (.ok (), st)
  else if (p, f) = ("twisted", "loopbackasync_reentrancy") then
    if st.world.version.1 < 8 ∨ (st.world.version.1 = 8 ∧ st.world.version.2 < 2) then
      install st "loopbackasync_reentrancy" outcome
    else (.ok (), st)
  else (.error noSuchHotfix, st)

/-- `require(packageName, fixName)` (`hotfix.py:11-82`) -/
def require (st : St) (p f : String) (outcome : Except PyErr World) : Except PyErr Unit × St :=
  if (p, f) ∈ st.installed then (.ok (), st)
  else
    match check st p f outcome with
    | (.error e, st) => (.error e, st)
    | (.ok (), st) => (.ok (), { st with installed := st.installed ++ [(p, f)] })

/-- What happens in the life of a process. -/
inductive Op where
  | require (p f : String) (outcome : Except PyErr World)
  /-- anything else that changes Twisted -/
  | change (w : World)

def step (st : St) : Op → St
  | .require p f outcome => (require st p f outcome).2
  | .change w => { st with world := w }

def run (st : St) (ops : List Op) : St := ops.foldl step st

/-- A new process. -/
def start (w : World) : St := ⟨[], w, []⟩

end Verif.Hotfix
