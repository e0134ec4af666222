import Verif.Model.DelayedCall
import Verif.Model.DeferredGenerator
/-!
# Model of the `install` functions of `epsilon/hotfixes/*.py`, and of what `hotfix.require` looks for

Python 2, with its two kinds of classes. A class has a dictionary, which is an object of its own: `A.__dict__ = B.__dict__` makes two
old-style classes share one. The names of the modules of Twisted that lead to the classes are not rebound by anything here, so a class is
named by what it is; the names `FilePath`, `TimeoutMixin`, `DelayedCall` of the modules of hotfixes are rebound, and are in the
state.
-/
namespace Verif.HotfixInstall
open Verif.Py

/-- The fixes that replace a dictionary. -/
inductive Pair where
  | filepath
  | timeout
  | delayed
  deriving DecidableEq, Repr

/-- Classes. -/
inductive Cls where
  /-- `filepath.FilePath`, `policies.TimeoutMixin`, `base.DelayedCall` of Twisted -/
  | target (p : Pair)
  /-- the classes of those names that the modules of hotfixes define -/
  | hot (p : Pair)
  /-- `defer.waitForDeferred` -/
  | waitForDeferred
  /-- `proto_helpers.StringTransport`, and the class of that name in the module of the hotfix -/
  | transport
  | hotTransport
  /-- `task.Clock` -/
  | clock
  /-- `unittest.TestCase` -/
  | testCase
  | other (n : Nat)
  deriving DecidableEq, Repr

/-- Functions: those of the hotfixes, by name, and others. -/
inductive Fn where
  | fpCmp
  | callLater
  | dcInit
  | getResult
  | deferGenerator
  | write
  | clockCallLater
  | failUnlessWarns
  | pluginPackagePaths
  | loopbackContinue
  | other (n : Nat)
  deriving DecidableEq, Repr

/-- Values of attributes. -/
inductive Val where
  | fn (f : Fn)
  | cls (c : Cls)
  | str (s : String)
  | other (n : Nat)
  deriving DecidableEq, Repr

/-- What there is. -/
structure Heap where
  newStyle : Cls → Bool
  /-- the classes in which attributes of a class are looked for, in order; the class itself comes first -/
  bases : Cls → List Cls
  /-- which dictionary is the `__dict__` of the class -/
  dictOf : Cls → Nat
  dicts : Nat → Dict String Val
  /-- what the name of the class stands for in the module of the hotfix -/
  glob : Pair → Cls
  /-- names of modules of Twisted: module, name -/
  mods : Dict (String × String) Val
  /-- `__module__` of functions -/
  fnModule : Fn → String
  /-- the arguments of functions that are not of the hotfixes -/
  fnArgs : Nat → List String

/-- An attribute in the class itself: `c.__dict__.get(k)`. -/
def Heap.own (h : Heap) (c : Cls) (k : String) : Option Val := Dict.get? (h.dicts (h.dictOf c)) k

/-- `getattr(c, k)`, if there is one. -/
def Heap.attr (h : Heap) (c : Cls) (k : String) : Option Val := (c :: h.bases c).findSome? fun b => h.own b k

/-- `d[k] = v` for the dictionary of a class. -/
def Heap.put (h : Heap) (c : Cls) (k : String) (v : Val) : Heap :=
  { h with dicts := fun d => if d = h.dictOf c then Dict.set (h.dicts d) k v else h.dicts d }

/-- `c.k = v`, which both kinds of classes allow. -/
def Heap.setAttr (h : Heap) (c : Cls) (k : String) (v : Val) : Heap := h.put c k v

/-- `c.__dict__[k] = v`: the dictionary of a new-style class is seen through a proxy that refuses. -/
def Heap.setItem (h : Heap) (c : Cls) (k : String) (v : Val) : Except PyErr Heap :=
  if h.newStyle c then .error .typeError else .ok (h.put c k v)

/-- `c.__dict__ = c'.__dict__`: of a new-style class it cannot be set, and the proxy of a new-style class is no dictionary. -/
def Heap.setDict (h : Heap) (c c' : Cls) : Except PyErr Heap :=
  if h.newStyle c then .error .attributeError
  else if h.newStyle c' then .error .typeError
  else .ok { h with dictOf := fun x => if x = c then h.dictOf c' else h.dictOf x }

def Heap.setGlob (h : Heap) (p : Pair) (c : Cls) : Heap := { h with glob := fun q => if q = p then c else h.glob q }
def Heap.setMod (h : Heap) (m n : String) (v : Val) : Heap := { h with mods := Dict.set h.mods (m, n) v }
def Heap.setFnModule (h : Heap) (f : Fn) (m : String) : Heap := { h with fnModule := fun g => if g = f then m else h.fnModule g }

/-- The name that is set in the dictionary (`filepath_copyTo.py:403`, `timeoutmixin_calllater.py:59`, `delayedcall_seconds.py:159`). -/
def Pair.key : Pair → String
  | .filepath => "__module__"
  | .timeout => "module"
  | .delayed => "__module__"

def Pair.module : Pair → String
  | .filepath => "twisted.python.filepath"
  | .timeout => "twisted.protocols.policies"
  | .delayed => "twisted.internet.base"

/-- `install` of `filepath_copyTo.py:398-404`, `timeoutmixin_calllater.py:54-60`, `delayedcall_seconds.py:155-160`. -/
def installPair (p : Pair) (h : Heap) : Except PyErr Heap := do
  let h ← h.setDict (.target p) (h.glob p)
  let h ← h.setItem (.target p) p.key (.str p.module)
  return h.setGlob p (.target p)

/-- `install` of `deferredgenerator_tfailure.py:54-59`. -/
def installDeferred (h : Heap) : Heap :=
  let h := h.setFnModule .getResult "twisted.internet.defer"
  let h := h.setAttr .waitForDeferred "getResult" (.fn .getResult)
  let h := h.setFnModule .deferGenerator "twisted.internet.defer"
  h.setMod "twisted.internet.defer" "_deferGenerator" (.fn .deferGenerator)

/-- `install` of `proto_helpers_stringtransport.py:10-11`. -/
def installTransport (h : Heap) : Except PyErr Heap :=
  match h.own .hotTransport "write" with
  | none => .error .keyError
  | some v => h.setItem .transport "write" v

/-- `install` of `internet_task_clock.py:34-38`. -/
def installClock (h : Heap) : Heap := h.setAttr .clock "callLater" (.fn .clockCallLater)

/-- `install` of `trial_assertwarns.py:59-61`. -/
def installWarns (h : Heap) : Heap :=
  (h.setAttr .testCase "failUnlessWarns" (.fn .failUnlessWarns)).setAttr .testCase "assertWarns" (.fn .failUnlessWarns)

/-- `install` of `plugin_package_paths.py:40-42`. -/
def installPaths (h : Heap) : Heap := h.setMod "twisted.plugin" "pluginPackagePaths" (.fn .pluginPackagePaths)

/-- `install` of `loopbackasync_reentrancy.py:24-26`. -/
def installLoopback (h : Heap) : Heap :=
  h.setMod "twisted.protocols.loopback" "_loopbackAsyncContinue" (.fn .loopbackContinue)

/-- The fixes. -/
inductive Fix where
  | pair (p : Pair)
  | deferred
  | transport
  | clock
  | warns
  | paths
  | loopback
  deriving DecidableEq, Repr

def install (h : Heap) : Fix → Except PyErr Heap
  | .pair p => installPair p h
  | .deferred => .ok (installDeferred h)
  | .transport => installTransport h
  | .clock => .ok (installClock h)
  | .warns => .ok (installWarns h)
  | .paths => .ok (installPaths h)
  | .loopback => .ok (installLoopback h)

/-- One after the other; an installation that raises leaves what it did before. Each raises, if at all, before it changes anything
(`filepath_copyTo.py:402`, `proto_helpers_stringtransport.py:11`). -/
def run (h : Heap) : List Fix → Heap
  | [] => h
  | m :: ms => run (match install h m with | .ok h' => h' | .error _ => h) ms

/-! ## What `require` looks for -/

/-- How code that is not of the hotfixes behaves. -/
structure Outside where
  /-- another `__cmp__`, of instances with the same path -/
  differ : Nat → Bool
  /-- what the test generator leaves, with another `getResult` -/
  generator : Except PyErr (List (Option Nat))
  /-- another `write`, of text -/
  write : Except PyErr Unit
  /-- whether another `callLater` gives the same call twice -/
  sameCall : Bool
  version : Nat × Nat

/-- `isinstance(x, c)` of an instance of the class `k`. -/
def Heap.isInstance (h : Heap) (k c : Cls) : Bool := (k :: h.bases k).contains c

/-- `__cmp__` of `filepath_copyTo.py:291-294`, of an instance and another of the class `k` with the same path; `none` is
`NotImplemented`. The name `FilePath` is looked up when it runs. -/
def Heap.fpCmpSame (h : Heap) (k : Cls) : Option Int := if h.isInstance k (h.glob .filepath) then some 0 else none

/-- `x != y` of two instances of `k` with the same path, when `k` has no method for `!=`: when `__cmp__` is missing or gives
`NotImplemented`, different objects differ. -/
def Heap.differ (o : Outside) (h : Heap) (k : Cls) : Bool :=
  match h.attr k "__cmp__" with
  | some (.fn .fpCmp) => h.fpCmpSame k ≠ some 0
  | some (.fn (.other n)) => o.differ n
  | _ => true

/-- The class of what `child`, `sibling` and `parent` of an instance of `k` give (`clonePath`, `filepath_copyTo.py:395`). -/
def Heap.cloneClass (h : Heap) (k : Cls) : Option Cls :=
  match h.attr k "clonePath" with
  | some (.cls c) => some c
  | _ => none

/-- The arguments of a function. -/
def Heap.args (h : Heap) : Fn → List String
  | .dcInit => ["self", "time", "func", "args", "kw", "cancel", "reset", "seconds"]
  | .other n => h.fnArgs n
  | _ => []

/-- `inspect.getargs(...)` of `base.DelayedCall.__init__` (`hotfix.py:27`) -/
def Heap.delayedArgs (h : Heap) : Except PyErr (List String) :=
  match h.attr (.target .delayed) "__init__" with
  | some (.fn f) => .ok (h.args f)
  | _ => .error .attributeError

/-- What the test generator (`hotfix.py:33-38`) leaves in `result`, when `getResult` is the one of the hotfix. -/
def generatorResult : Except PyErr (List (Option Nat)) :=
  match Verif.DeferredGenerator.getResult (.value (some 1)) with
  | .ok v => .ok [v]
  | .error e => .error e

/-- What `write` gets. -/
inductive Data where
  | text
  | bytes
  deriving DecidableEq, Repr

/-- `StringTransport.write` (`proto_helpers_stringtransport.py:5-8`); `self.io.write` takes bytes. -/
def stringWrite : Data → Except PyErr Unit
  | .text => .error .typeError
  | .bytes => .ok ()

/-- `clockIsBroken` (`internet_task_clock.py:21-32`). The `callLater` of the hotfix gives `base.DelayedCall` seven arguments. -/
def clockIsBroken (o : Outside) (h : Heap) : Except PyErr Bool :=
  match h.attr .clock "callLater" with
  | none => .error .attributeError
  | some (.fn .clockCallLater) =>
    match h.delayedArgs with
    | .error e => .error e
    | .ok as =>
      if as.length < 8 then .error .typeError
      else
        match (Verif.DelayedCall.callLater true ⟨0, [], 0⟩ 10) with
        | (k, .ok dc1) =>
          match (Verif.DelayedCall.callLater true k 1).2 with
          | .ok dc2 => .ok (dc1 = dc2)
          | .error e => .error e
        | (_, .error e) => .error e
  | some _ => .ok o.sameCall

/-- Does `require` install (`hotfix.py:15-78`)? -/
def wanted (o : Outside) (h : Heap) : Fix → Except PyErr Bool
  | .pair .filepath => .ok (h.differ o (.target .filepath))
  | .pair .timeout => .ok (h.attr (.target .timeout) "callLater").isNone
  | .pair .delayed =>
    match h.delayedArgs with
    | .ok as => .ok (¬ as.contains "seconds")
    | .error e => .error e
  | .deferred =>
    match (if h.attr .waitForDeferred "getResult" = some (.fn .getResult) then generatorResult else o.generator) with
    | .error e => .error e
    | .ok r => if r = [some 1] then .ok true else if r = [none] then .ok false else .error .assertionError
  | .transport =>
    match (if h.attr .transport "write" = some (.fn .write) then stringWrite .text else o.write) with
    | .error .typeError => .ok false
    | .error e => .error e
    | .ok () => .ok true
  | .clock => clockIsBroken o h
  | .warns => .ok (h.attr .testCase "failUnlessWarns").isNone
  | .paths => .ok (Dict.get? h.mods ("twisted.plugin", "pluginPackagePaths")).isNone
  | .loopback => .ok (o.version.1 < 8 ∨ (o.version.1 = 8 ∧ o.version.2 < 2))

/-- `require` of one of the fixes, which `_alreadyInstalled` does not have. -/
def require (o : Outside) (h : Heap) (m : Fix) : Except PyErr Heap :=
  match wanted o h m with
  | .error e => .error e
  | .ok true => install h m
  | .ok false => .ok h

end Verif.HotfixInstall
