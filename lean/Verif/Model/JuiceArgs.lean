import Verif.Model.JuiceWire
import Verif.Model.ExtimeIso
import Verif.Py.Split
import Verif.Py.Path
import Verif.Py.FloatText
/-!
# Model of juice argument types and commands (`epsilon/juice.py:410-680`, `980-994`)

An argument type is a `Codec`; `ListOf` and `JuiceList` build codecs from codecs.  `proto` is only passed
along, so it is left out.
-/
namespace Verif.JuiceArgs
open Verif.Py Verif.Juice

/-- The Python objects arguments are made of. -/
inductive Obj where
  | none
  | int (n : Int)
  | str (s : Str)
  | bool (b : Bool)
  | list (l : List Obj)
  | dict (d : List (Str × Obj))
  | bytes (b : Bytes)
  | float (x : PyFloat)
  /-- an `extime.Time` -/
  | time (t : Extime.Time)
  /-- a `FilePath`: its `path` -/
  | path (p : Str)

/-- What `toStringProto` returns: text, or `bytes` (`JuiceList`, `Unicode`). -/
inductive Val where
  | text (s : Str)
  | raw (b : Bytes)
  deriving DecidableEq, Repr

/-- An `Argument` instance. -/
structure Codec where
  optional : Bool
  /-- `toStringProto` -/
  enc : Obj → Except PyErr Val
  /-- `fromStringProto` -/
  dec : Val → Except PyErr Obj

abbrev ArgList := List (Str × Codec)

/-- `bool(x)` -/
def Obj.truth : Obj → Bool
  | .none => false
  | .int n => n != 0
  | .str s => !s.isEmpty
  | .bool b => b
  | .list l => !l.isEmpty
  | .dict d => !d.isEmpty
  | .bytes b => !b.isEmpty
  | .float x => x.truth
  | .time _ => true
  | .path _ => true

/-- `iter(x)`: the elements a `for` loop sees. -/
def Obj.iter : Obj → Except PyErr (List Obj)
  | .list l => .ok l
  | .str s => .ok (s.map fun c => .str [c])
  | .dict d => .ok (d.map fun p => .str p.1)
  | .bytes b => .ok (b.map fun c => .int c)
  | _ => .error .typeError

/-- `f(x)` for each element, stopping at the first exception. -/
def mapE {α β : Type} (f : α → Except PyErr β) : List α → Except PyErr (List β)
  | [] => .ok []
  | x :: xs => do
    let y ← f x
    let ys ← mapE f xs
    return y :: ys

/-- `Integer` (`juice.py:487-490`). -/
def integer (U : Uni) (optional : Bool) : Codec where
  optional := optional
  enc
    | .int n => .ok (.text (intStr n))
    | .bool b => .ok (.text (intStr (if b then 1 else 0)))
    | .str s => match U.int s with
      | some n => .ok (.text (intStr n))
      | none => .error .valueError
    | .bytes b => match asciiInt b with
      | some n => .ok (.text (intStr n))
      | none => .error .valueError
    | .float x => x.trunc.map fun n => .text (intStr n)
    | _ => .error .typeError
  dec
    | .text s => match U.int s with
      | some n => .ok (.int n)
      | none => .error .valueError
    | .raw b => match asciiInt b with
      | some n => .ok (.int n)
      | none => .error .valueError

/-- `String` (`juice.py:492-496`).  Simplification: an object that is neither `str` nor `bytes` is refused here; the code
passes it on and fails with the same `TypeError` when the box is serialised or joined. -/
def string (optional : Bool) : Codec where
  optional := optional
  enc
    | .str s => .ok (.text s)
    | .bytes b => .ok (.raw b)
    | _ => .error .typeError
  dec
    | .text s => .ok (.str s)
    | .raw b => .ok (.bytes b)

/-- A named encoding: `str.encode` and `bytes.decode`; `none` is a `UnicodeError`. -/
structure Encoding where
  encode : Str → Option Bytes
  decode : Bytes → Option Str

def utf8 : Encoding := ⟨utf8Encode, utf8Decode⟩

/-- `EncodedString` (`juice.py:498-507`), on Python 3: only `str` has `encode`, only `bytes` has `decode`. -/
def encodedString (e : Encoding) (optional : Bool) : Codec where
  optional := optional
  enc
    | .str s => match e.encode s with
      | some b => .ok (.raw b)
      | none => .error .unicodeError
    | _ => .error .attributeError
  dec
    | .raw b => match e.decode b with
      | some s => .ok (.str s)
      | none => .error .unicodeError
    | .text _ => .error .attributeError

/-- `Unicode` (`juice.py:513-520`). -/
def unicode (optional : Bool) : Codec := encodedString utf8 optional

/-- `Path` (`juice.py:522-527`); `FilePath` makes its argument absolute. -/
def pathArg (cwd : Str) (optional : Bool) : Codec where
  optional := optional
  enc
    | .path p => (unicode optional).enc (.str p)
    | _ => .error .attributeError
  dec v := do
    match ← (unicode optional).dec v with
    | .str s => return .path (Path.abspath cwd s)
    | _ => .error .typeError

/-- `Base64Binary` (`juice.py:534-538`), on Python 3: `'base64'` is not a text encoding, and `bytes` have no `encode`. -/
def base64Binary (optional : Bool) : Codec where
  optional := optional
  enc
    | .str _ => .error (.other "LookupError")
    | _ => .error .attributeError
  dec
    | .raw _ => .error (.other "LookupError")
    | .text _ => .error .attributeError

/-- `Time` (`juice.py:540-544`). -/
def timeArg (D : Extime.Digits) (optional : Bool) : Codec where
  optional := optional
  enc
    | .time t => (Extime.asIso t true none true).map .text
    | _ => .error .attributeError
  dec
    | .text s => (Extime.parseIso D s none).map .time
    | .raw _ => .error .typeError

/-- `'True'` -/
def TRUE : Str := [84, 114, 117, 101]
/-- `'False'` -/
def FALSE : Str := [70, 97, 108, 115, 101]

/-- `Float` (`juice.py:530-532`): `float` and `str`, which takes anything.  `shown` is `str` of the objects whose text is not
modelled. -/
def floatArg (F : Floats) (shown : Obj → Str) (optional : Bool) : Codec where
  optional := optional
  enc
    | .float x => .ok (.text (floatStr x))
    | .int n => .ok (.text (intStr n))
    | .str s => .ok (.text s)
    | .bool b => .ok (.text (if b then TRUE else FALSE))
    | .none => .ok (.text [78, 111, 110, 101])
    | x => .ok (.text (shown x))
  dec
    | .text s => match F.float s with
      | some x => .ok (.float x)
      | none => .error .valueError
    | .raw b => match asciiFloat b with
      | some x => .ok (.float x)
      | none => .error .valueError

/-- `Boolean` (`juice.py:576-589`). -/
def boolean (optional : Bool) : Codec where
  optional := optional
  enc x := .ok (.text (if x.truth then TRUE else FALSE))
  dec v := if v = .text TRUE then .ok (.bool true) else if v = .text FALSE then .ok (.bool false) else .error .runtimeError

/-- The body of the loop of `ListOf.toStringProto` (`juice.py:481-484`). -/
def listItem (c : Codec) (delimiter : Str) (x : Obj) : Except PyErr Str := do
  match ← c.enc x with
  | .raw _ => .error .typeError
  | .text s => if delimiter <:+: s then .error .assertionError else return s

/-- `ListOf` (`juice.py:468-485`).  `ListOf.__init__` does not set `optional`. -/
def listOf (c : Codec) (delimiter : Str) : Codec where
  optional := false
  enc x := do
    let items ← x.iter
    let l ← mapE (listItem c delimiter) items
    return .text (joinSep delimiter l)
  dec
    | .raw _ => .error .typeError
    | .text s =>
      if delimiter = [] then .error .valueError
      else do
        let l ← mapE (fun s => c.dec (.text s)) (splitSep delimiter s)
        return .list l

/-- `six.ensure_binary` -/
def Val.bytes : Val → Except PyErr Bytes
  | .text s => ensureBinary s
  | .raw b => .ok b

/-- `str(len(v))` -/
def Val.length : Val → Nat
  | .text s => s.length
  | .raw b => b.length

/-- The loop of `JuiceBox.serialize` (`juice.py:65-72`), for boxes whose values may be `bytes`. -/
def serializeItems (box : Dict Str Val) : List (Str × Val) → Except PyErr Bytes
  | [] => .ok []
  | (k, v) :: r => do
    let (k, v) := if k = BODY then (LENGTH, .text (natStr ((Dict.get? box BODY).getD (.text [])).length)) else (k, v)
    let kb ← ensureBinary k
    let vb ← v.bytes
    let b ← serializeItems box r
    return asciiTitle (replaceChar 95 45 kb) ++ [58, 32] ++ escape vb ++ CRLF ++ b

/-- `JuiceBox.serialize` (`juice.py:57-77`) for such boxes. -/
def serialize (box : Dict Str Val) : Except PyErr Bytes :=
  if Dict.has box LENGTH then .error .assertionError
  else do
    let h ← serializeItems box box
    match Dict.get? box BODY with
    | some v => do
      let bb ← v.bytes
      return h ++ CRLF ++ bb
    | none => return h ++ CRLF

/-- `Argument.retrieve` (`juice.py:416-423`): the value and the remaining dictionary.  In the code a missing or
`None` optional value both come out as `None`; `isNone` recognises `None` values. -/
def retrieve {ν : Type} (isNone : ν → Bool) (optional : Bool) (d : Dict Str ν) (name : Str) :
    Except PyErr (Option ν × Dict Str ν) :=
  match Dict.get? d name with
  | some v =>
    if optional && isNone v then .ok (none, d) else .ok (some v, Dict.erase d name)
  | none => if optional then .ok (none, d) else .error .keyError

def Obj.isNone : Obj → Bool
  | .none => true
  | _ => false

/-- `Argument.fromBox` (`juice.py:425-430`), one step of `stringsToObjects`. -/
def fromBox (name : Str) (c : Codec) (st : Dict Str Val × Dict Str Obj) : Except PyErr (Dict Str Val × Dict Str Obj) := do
  match ← retrieve (fun _ => false) c.optional st.1 name with
  | (none, strings) => return (strings, Dict.set st.2 name .none)
  | (some v, strings) =>
    let o ← c.dec v
    return (strings, Dict.set st.2 name o)

/-- `Argument.toBox` (`juice.py:432-438`), one step of `objectsToStrings`. -/
def toBox (name : Str) (c : Codec) (st : Dict Str Val × Dict Str Obj) : Except PyErr (Dict Str Val × Dict Str Obj) := do
  match ← retrieve Obj.isNone c.optional st.2 name with
  | (none, objects) => return (st.1, objects)
  | (some o, objects) =>
    let v ← c.enc o
    return (Dict.set st.1 name v, objects)

def fromBoxAll : ArgList → Dict Str Val × Dict Str Obj → Except PyErr (Dict Str Val × Dict Str Obj)
  | [], st => .ok st
  | (name, c) :: l, st => do
    let st ← fromBox name c st
    fromBoxAll l st

def toBoxAll : ArgList → Dict Str Val × Dict Str Obj → Except PyErr (Dict Str Val × Dict Str Obj)
  | [], st => .ok st
  | (name, c) :: l, st => do
    let st ← toBox name c st
    toBoxAll l st

/-- `stringsToObjects` (`juice.py:980-985`). -/
def stringsToObjects (strings : Dict Str Val) (arglist : ArgList) : Except PyErr (Dict Str Obj) := do
  let st ← fromBoxAll arglist (strings, [])
  return st.2

/-- The renamed copy made by `objectsToStrings` (`juice.py:988-990`). -/
def normalizeObjects (U : Uni) (objects : List (Str × Obj)) : Dict Str Obj :=
  objects.foldl (fun d p => Dict.set d (normalizeKey U p.1) p.2) []

/-- `objectsToStrings(objects, arglist, Box(), proto)` (`juice.py:987-994`). -/
def objectsToStrings (U : Uni) (objects : List (Str × Obj)) (arglist : ArgList) : Except PyErr (Dict Str Val) := do
  let st ← toBoxAll arglist ([], normalizeObjects U objects)
  return st.1

/-- The receiver inside `parseString`: `_ParserHelper.juiceBoxReceived` collects (`juice.py:961-962`). -/
def collect : Unit → Box → Outcome Unit := fun _ _ => ⟨(), false, false, none⟩

def boxesOf : List Event → List Box
  | [] => []
  | .box b :: r => b :: boxesOf r
  | _ :: r => boxesOf r

/-- `parseString` (`juice.py:947-976`). -/
def parseString (U : Uni) (data : Bytes) : Except PyErr (List Box) :=
  match dataReceived U collect (St.init ()) data with
  | (_, some e) => .error e
  | (st, none) => .ok (boxesOf st.trace)

/-- A received box: all values are text. -/
def textBox (b : Box) : Dict Str Val := b.map fun p => (p.1, .text p.2)

/-- One element of `JuiceList.toStringProto` (`juice.py:462-466`). -/
def juiceItem (U : Uni) (subargs : ArgList) : Obj → Except PyErr Bytes
  | .dict d => do
    let box ← objectsToStrings U d subargs
    serialize box
  | _ => .error .attributeError

/-- `JuiceList` (`juice.py:452-466`).  `JuiceList.__init__` does not set `optional`. -/
def juiceList (U : Uni) (subargs : ArgList) : Codec where
  optional := false
  enc x := do
    let items ← x.iter
    let l ← mapE (juiceItem U subargs) items
    return .raw l.flatten
  dec v := do
    let b ← v.bytes
    let boxes ← parseString U b
    let l ← mapE (fun b => stringsToObjects (textBox b) subargs) boxes
    return .list (l.map .dict)

/-- `Command.__init__` (`juice.py:627-645`): the names reported as forgotten; a non-empty list is a `RuntimeError`. -/
def forgotten (U : Uni) (arguments : ArgList) (kw : List (Str × Obj)) : List Str :=
  let given := kw.map fun p => normalizeKey U p.1
  (arguments.filter fun a => decide (normalizeKey U a.1 ∉ given) && !a.2.optional).map fun a => normalizeKey U a.1

def commandInit (U : Uni) (arguments : ArgList) (kw : List (Str × Obj)) : Except PyErr (List (Str × Obj)) :=
  if forgotten U arguments kw = [] then .ok kw else .error .runtimeError

end Verif.JuiceArgs
