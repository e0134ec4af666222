import Verif.Py.Core
/-!
# Model of `epsilon/modal.py`

Classes are described by the dictionaries of their method resolution order; an instance is its `__dict__`.
Values that are neither strings, functions, mode classes nor `ModalMethod`s are plain objects (`other`): no data
descriptors, no descriptors other than functions and `ModalMethod`s.
-/
namespace Verif.Modal
open Verif.Py

/-- attribute names, as character codes -/
abbrev Name := List Nat

inductive Val where
  | func (id : Nat)
  | str (s : Name)
  /-- a subclass of `mode`: its `__dict__` -/
  | modeCls (d : List (Name × Val))
  /-- `ModalMethod(name, methods, modeAttribute)` (`modal.py:21-24`) -/
  | modal (name : Name) (methods : List (Name × Val)) (modeAttribute : Val)
  | other (id : Nat)

def nMode : Name := [109, 111, 100, 101]
def nModeAttribute : Name := [109, 111, 100, 101, 65, 116, 116, 114, 105, 98, 117, 116, 101]
def nInitialMode : Name := [105, 110, 105, 116, 105, 97, 108, 77, 111, 100, 101]
def nEnter : Name := [95, 95, 101, 110, 116, 101, 114, 95, 95]
def nExit : Name := [95, 95, 101, 120, 105, 116, 95, 95]
def nModule : Name := [95, 95, 109, 111, 100, 117, 108, 101, 95, 95]
def nFile : Name := [95, 95, 102, 105, 108, 101, 95, 95]
def nName : Name := [95, 95, 110, 97, 109, 101, 95, 95]
def nDoc : Name := [95, 95, 100, 111, 99, 95, 95]
def nNil : Name := [110, 105, 108]

/-- A class, as `_getInheritedAttribute` sees it: `__dict__` and `__bases__`. -/
inductive Cls where
  | mk (attrs : List (Name × Val)) (bases : List Cls)

mutual
/-- `_getInheritedAttribute` (`modal.py:66-80`), called with the dictionary and the bases of a class. -/
def inherited (attrname : Name) : Cls → Except PyErr Val
  | .mk attrs bases =>
    match Dict.get? attrs attrname with
    | some v => .ok v
    | none => inheritedFrom attrname bases

/-- the loop over the bases (`modal.py:70-80`): a `TypeError` means go on, or give up after the last -/
def inheritedFrom (attrname : Name) : List Cls → Except PyErr Val
  | [] => .error .typeError
  | b :: bs =>
    match inherited attrname b with
    | .ok v => .ok v
    | .error .typeError => inheritedFrom attrname bs
    | .error e => .error e
end

/-- `methName not in ('__module__', '__file__', '__name__')` (`modal.py:108`) -/
def counted (n : Name) : Bool := n != nModule && n != nFile && n != nName

/-- `implementations.setdefault(methName, {})[k] = methDef` (`modal.py:109`) -/
def addImpl (k : Name) (impls : Dict Name (Dict Name Val)) (m : Name × Val) : Dict Name (Dict Name Val) :=
  if counted m.1 then Dict.set impls m.1 (Dict.set ((Dict.get? impls m.1).getD []) k m.2) else impls

/-- one attribute (`modal.py:106-109`) -/
def addMode (impls : Dict Name (Dict Name Val)) (kv : Name × Val) : Dict Name (Dict Name Val) :=
  match kv.2 with
  | .modeCls d => d.foldl (addImpl kv.1) impls
  | _ => impls

/-- `implementations` after the loop (`modal.py:102-110`) -/
def implementations (attrs : Dict Name Val) : Dict Name (Dict Name Val) := attrs.foldl addMode []

/-- `ModalType.__new__` (`modal.py:95-115`): the dictionary of the new class. -/
def modalNew (attrs : Dict Name Val) (bases : List Cls) : Except PyErr (Dict Name Val) :=
  match inherited nModeAttribute (.mk attrs bases), inherited nInitialMode (.mk attrs bases) with
  | .error e, _ => .error e
  | .ok _, .error e => .error e
  | .ok modeAttribute, .ok initialMode =>
    let attrs := Dict.set attrs nInitialMode initialMode
    let keep := attrs.foldl (fun d kv => Dict.set d kv.1 kv.2) [(nMode, initialMode)]
    .ok ((implementations attrs).foldl (fun d m => Dict.set d m.1 (.modal m.1 m.2 modeAttribute)) keep)

/-- the first class of the method resolution order that has the attribute -/
def lookup (mro : List (Dict Name Val)) (n : Name) : Option Val := mro.findSome? fun d => Dict.get? d n

/-- What `getattr` yields. -/
inductive Got where
  | bound (f : Val)
  | plain (v : Val)

/-- `types.MethodType(func, instance)` wants a callable. -/
def methodType : Val → Except PyErr Got
  | .func f => .ok (.bound (.func f))
  | .modeCls d => .ok (.bound (.modeCls d))
  | _ => .error .typeError

/-- `getattr(instance, self.modeAttribute)` (`modal.py:29-34`).  If the mode attribute is itself modal the lookup
recurs without end. -/
def currentMode (mro : List (Dict Name Val)) (inst : Dict Name Val) (modeAttribute : Val) : Except PyErr Got :=
  match modeAttribute with
  | .str a =>
    match Dict.get? inst a with
    | some v => .ok (.plain v)
    | none =>
      match lookup mro a with
      | none => .error .attributeError
      | some (.modal _ _ _) => .error .runtimeError
      | some (.func f) => .ok (.bound (.func f))
      | some v => .ok (.plain v)
  | _ => .error .typeError

/-- `ModalMethod.__get__` on an instance (`modal.py:26-42`).  A mode that is not a string is no key of `methods`. -/
def modalGet (mro : List (Dict Name Val)) (inst : Dict Name Val) (methods : Dict Name Val) (modeAttribute : Val) :
    Except PyErr Got :=
  match currentMode mro inst modeAttribute with
  | .error e => .error e
  | .ok (.plain (.str m)) =>
    match Dict.get? methods m with
    | none => .error .attributeError
    | some f => methodType f
  | .ok _ => .error .attributeError

/-- `getattr(instance, n)`: the instance dictionary, then the class (functions and `ModalMethod`s are bound). -/
def getattr (mro : List (Dict Name Val)) (inst : Dict Name Val) (n : Name) : Except PyErr Got :=
  match Dict.get? inst n with
  | some v => .ok (.plain v)
  | none =>
    match lookup mro n with
    | none => .error .attributeError
    | some (.modal _ methods a) => modalGet mro inst methods a
    | some (.func f) => .ok (.bound (.func f))
    | some v => .ok (.plain v)

/-! ## Transitions -/

/-- What happens: a function is run, the mode is set. -/
inductive Ev where
  | ran (f : Nat)
  | mode (s : Name)
  deriving DecidableEq, Repr

/-- The instance, and what `transitionTo` has done so far. -/
structure St where
  inst : Dict Name Val
  trace : List Ev

/-- The effect of the functions: any change of the instance, and any outcome. -/
abbrev Body := Nat → Dict Name Val → Except PyErr Unit × Dict Name Val

/-- `self.n()` -/
def callAttr (mro : List (Dict Name Val)) (body : Body) (n : Name) (st : St) : Except PyErr Unit × St :=
  match getattr mro st.inst n with
  | .error e => (.error e, st)
  | .ok (.bound (.func f)) | .ok (.plain (.func f)) =>
    let r := body f st.inst
    (r.1, ⟨r.2, st.trace ++ [.ran f]⟩)
  | .ok _ => (.error .typeError, st)

/-- `Modal.transitionTo` (`modal.py:131-134`). -/
def transitionTo (mro : List (Dict Name Val)) (body : Body) (s : Name) (st : St) : Except PyErr Unit × St :=
  match callAttr mro body nExit st with
  | (.error e, st) => (.error e, st)
  | (.ok _, st) => callAttr mro body nEnter ⟨Dict.set st.inst nMode (.str s), st.trace ++ [.mode s]⟩

/-- Transitions one after the other; the first error ends it. -/
def transitions (mro : List (Dict Name Val)) (body : Body) : List Name → St → Except PyErr Unit × St
  | [], st => (.ok (), st)
  | s :: ss, st =>
    match transitionTo mro body s st with
    | (.error e, st) => (.error e, st)
    | (.ok _, st) => transitions mro body ss st

end Verif.Modal
