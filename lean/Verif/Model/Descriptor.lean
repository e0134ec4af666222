import Verif.Py.Core
/-!
# Model of `epsilon/descriptor.py`

Objects are numbers, each with its `__dict__`; a class is its MRO, a list of class dictionaries.  Functions given to
`attribute` are arbitrary.
-/
namespace Verif.Descriptor
open Verif.Py

abbrev Name := List Nat
/-- `none` is `None`. -/
abbrev Value := Option Nat
/-- The `__dict__` of every object. -/
abbrev Heap := Nat → Dict Name Value

/-- A function that is called with an object and, for `set`, a value. -/
abbrev Fn := Nat → Option Value → Heap → Except PyErr Value × Heap

/-- What a name in the dictionary of an `attribute` class is bound to. -/
inductive Member where
  | static (f : Fn)
  | plain (f : Fn)

def nGet : Name := [103, 101, 116]
def nSet : Name := [115, 101, 116]
def nDelete : Name := [100, 101, 108, 101, 116, 101]

/-- `_MetaAttribute.__new__` (`descriptor.py:12-20`): `get`, `set` and `delete` become static methods. -/
def metaNew (dict : Dict Name Fn) : Dict Name Member :=
  dict.map fun p => (p.1, if p.1 = nGet ∨ p.1 = nSet ∨ p.1 = nDelete then .static p.2 else .plain p.2)

def raiseAttr : Fn := fun _ _ h => (.error .attributeError, h)

/-- The base class `attribute` (`descriptor.py:22-90`), made by the same metaclass: its `set`, `get` and `delete` raise. -/
def attributeDict : Dict Name Member := metaNew [(nSet, raiseAttr), (nGet, raiseAttr), (nDelete, raiseAttr)]

/-- `self.kw(oself[, value])` for the instance `self` of the class with the dictionary `d`, a subclass of `attribute`.
A plain function would be bound to `self` and get one argument too many. -/
def callMember (d : Dict Name Member) (kw : Name) : Fn := fun oself value h =>
  match (Dict.get? d kw).or (Dict.get? attributeDict kw) with
  | some (.static f) => f oself value h
  | some (.plain _) => (.error .typeError, h)
  | none => (.error .attributeError, h)

/-- What classes are made of: ordinary values, and instances of subclasses of `attribute`. -/
inductive ClassAttr where
  | value (v : Value)
  | desc (d : Dict Name Member)

abbrev Cls := List (Dict Name ClassAttr)

/-- Attribute lookup on the type. -/
def find (c : Cls) (name : Name) : Option ClassAttr := c.findSome? fun d => Dict.get? d name

/-- `oself.name`: a data descriptor of the class comes first (`attribute.__get__`, `descriptor.py:53-59`), then the
instance's `__dict__`, then a class value. -/
def getattr (c : Cls) (oself : Nat) (name : Name) (h : Heap) : Except PyErr Value × Heap :=
  match find c name with
  | some (.desc d) => callMember d nGet oself none h
  | r =>
    match Dict.get? (h oself) name with
    | some v => (.ok v, h)
    | none =>
      match r with
      | some (.value v) => (.ok v, h)
      | _ => (.error .attributeError, h)

/-- The descriptor found on the class itself: `attribute.__get__(None, type)` is the descriptor (`descriptor.py:57-58`). -/
def classGetattr (c : Cls) (name : Name) : Except PyErr ClassAttr :=
  match find c name with
  | some a => .ok a
  | none => .error .attributeError

def setDict (h : Heap) (i : Nat) (d : Dict Name Value) : Heap := fun j => if j = i then d else h j

/-- `oself.name = v` (`attribute.__set__`, `descriptor.py:61-65`) -/
def setattr (c : Cls) (oself : Nat) (name : Name) (v : Value) (h : Heap) : Except PyErr Value × Heap :=
  match find c name with
  | some (.desc d) => callMember d nSet oself (some v) h
  | _ => (.ok none, setDict h oself (Dict.set (h oself) name v))

/-- `del oself.name` (`attribute.__delete__`, `descriptor.py:67-71`) -/
def delattr (c : Cls) (oself : Nat) (name : Name) (h : Heap) : Except PyErr Value × Heap :=
  match find c name with
  | some (.desc d) => callMember d nDelete oself none h
  | _ =>
    if Dict.has (h oself) name then (.ok none, setDict h oself (Dict.erase (h oself) name))
    else (.error .attributeError, h)

/-- `requiredAttribute(r)` (`descriptor.py:94-144`), with its `get` (`descriptor.py:135-141`) and `set` (`descriptor.py:142-143`) -/
def requiredAttribute (r : Name) : ClassAttr := .desc (metaNew [
  (nGet, fun self _ h =>
    if Dict.has (h self) r then
      match Dict.get? (h self) r with
      | some v => (.ok v, h)
      | none => (.error .keyError, h)
    else (.error .attributeError, h)),
  (nSet, fun self value h =>
    match value with
    | some v => (.ok none, setDict h self (Dict.set (h self) r v))
    | none => (.error .typeError, h))])

end Verif.Descriptor
