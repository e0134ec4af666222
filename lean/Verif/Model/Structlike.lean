import Verif.Py.Str
/-!
# Model of `epsilon/structlike.py`

Attribute names are strings of code points.  The positional argument of `record` is given as the list
`a[0].split()` of names.  The splitting, the name of the class and the keyword `self`, which Python itself would reject in
`__init__(self, *args, **kw)`, are in `Model/StructlikeText`.
-/
namespace Verif.Structlike
open Verif.Py

abbrev Name := List Nat

/-- Insertion into a sorted list of names (used for `sorted`). -/
def insertName (n : Name) : List Name → List Name
  | [] => [n]
  | m :: ms => if strCmp n m == .gt then m :: insertName n ms else n :: m :: ms

/-- `sorted(names)` -/
def sortNames (ns : List Name) : List Name := ns.foldr insertName []

/-- The loop over `attributeNames` (`structlike.py:160-175`): state is the remaining `kw` and `defaults`. -/
def defaultsLoop {V : Type} : List Name → Dict Name V → List V → Except PyErr (Dict Name V × List V)
  | [], kw, defaults => .ok (kw, defaults)
  | n :: ns, kw, defaults =>
    match Dict.get? kw n with
    | some d => defaultsLoop ns (Dict.erase kw n) (defaults ++ [d])
    | none => if defaults.isEmpty then defaultsLoop ns kw defaults else .error .typeError

/-- What `record` returns: `__names__` and `__defaults__` of the new class. -/
structure RecordClass (V : Type) where
  names : List Name
  defaults : List V
  deriving DecidableEq, Repr

/-- `record(*a, **kw)` (`structlike.py:117-182`); each positional argument is given already split. -/
def record {V : Type} (a : List (List Name)) (kw : Dict Name V) : Except PyErr (RecordClass V) :=
  match a with
  | [names] => finish names
  | [] => if kw.isEmpty then .error .typeError else finish (sortNames (Dict.keys kw))
  | _ => .error .typeError
where
  finish (names : List Name) : Except PyErr (RecordClass V) := do
    let (kw', defaults) ← defaultsLoop names kw []
    if kw'.isEmpty then return ⟨names, defaults⟩ else .error .typeError

/-- Positional arguments become keywords (`structlike.py:79-82`). -/
def bindPositional {V : Type} : List (Name × V) → Dict Name V → Except PyErr (Dict Name V)
  | [], kw => .ok kw
  | (n, v) :: ps, kw =>
    if Dict.has kw n then .error .typeError else bindPositional ps (Dict.set kw n v)

/-- Defaults fill what is missing (`structlike.py:84-87`). -/
def fillDefaults {V : Type} : List (Name × V) → Dict Name V → Dict Name V
  | [], kw => kw
  | (n, v) :: ps, kw => fillDefaults ps (if Dict.has kw n then kw else Dict.set kw n v)

/-- Attributes are set from `kw` (`structlike.py:89-92`); `attrs` is the instance `__dict__`. -/
def setAttrs {V : Type} : List Name → Dict Name V → Dict Name V → Except PyErr (Dict Name V × Dict Name V)
  | [], kw, attrs => .ok (kw, attrs)
  | n :: ns, kw, attrs =>
    match Dict.get? kw n with
    | none => .error .typeError
    | some v => setAttrs ns (Dict.erase kw n) (Dict.set attrs n v)

/-- `StructBehavior.__init__` (`structlike.py:70-95`): the resulting attributes. -/
def init {V : Type} (c : RecordClass V) (args : List V) (kw : Dict Name V) : Except PyErr (Dict Name V) := do
  if args.length > c.names.length then .error .typeError
  let kw ← bindPositional (c.names.zip args) kw
  let kw := fillDefaults (c.names.reverse.zip c.defaults.reverse) kw
  let (kw, attrs) ← setAttrs c.names kw []
  if kw.isEmpty then return attrs else .error .typeError

/-! ## `repr` -/

/-- Values that occur in records: an object with its own `repr`, an object whose `repr` raises, a list,
or a reference to a record instance. -/
inductive Value where
  | leaf (text : String)
  | bad
  | seq (vs : List Value)
  | ref (id : Nat)

/-- A record instance: class name, `__names__`, and for each name `getattr(self, n, None)` as an optional
value. -/
structure Obj where
  cls : String
  fields : List (String × Option Value)

/-- All record instances, indexed by `id`. -/
abbrev Heap := List Obj

/-- `repr(None)` for a missing attribute (`structlike.py:111`). -/
def fieldValue : Option Value → Value
  | none => .leaf "None"
  | some v => v

mutual
/-- `repr(v)` with the state `_RecursiveReprer.active` (`structlike.py:18-33`, `98-114`) threaded through.
`none`: the recursion did not end within `fuel` nested calls (Python would raise `RecursionError`). -/
def reprV (h : Heap) : Nat → List Nat → Value → Option (Except PyErr String × List Nat)
  | 0, _, _ => none
  | _ + 1, act, .leaf s => some (.ok s, act)
  | _ + 1, act, .bad => some (.error .valueError, act)
  | f + 1, act, .seq vs =>
    match reprL h f act vs with
    | none => none
    | some (.error e, act') => some (.error e, act')
    | some (.ok ss, act') => some (.ok ("[" ++ String.intercalate ", " ss ++ "]"), act')
  | f + 1, act, .ref i =>
    match h[i]? with
    | none => some (.error .attributeError, act)
    | some o =>
      if i ∈ act then some (.ok (o.cls ++ "(...)"), act)
      else
        match reprL h f (i :: act) (o.fields.map fun p => fieldValue p.2) with
        | none => none
        | some (.error e, act') => some (.error e, act'.erase i)
        | some (.ok ss, act') =>
          some (.ok (o.cls ++ "(" ++ String.intercalate ", "
            ((o.fields.zip ss).map fun p => p.1.1 ++ "=" ++ p.2) ++ ")"), act'.erase i)
/-- `repr` of several values from left to right. -/
def reprL (h : Heap) : Nat → List Nat → List Value → Option (Except PyErr (List String) × List Nat)
  | 0, _, _ => none
  | _ + 1, act, [] => some (.ok [], act)
  | f + 1, act, v :: vs =>
    match reprV h f act v with
    | none => none
    | some (.error e, act') => some (.error e, act')
    | some (.ok s, act') =>
      match reprL h f act' vs with
      | none => none
      | some (.error e, act'') => some (.error e, act'')
      | some (.ok ss, act'') => some (.ok (s :: ss), act'')
end

end Verif.Structlike
