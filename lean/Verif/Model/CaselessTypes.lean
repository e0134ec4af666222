import Verif.Model.CaselessUnicode
import Verif.Py.Literal
/-!
# Model of `epsilon/caseless.py` with text and bytes, on Python 3

`str` methods refuse bytes and `bytes` methods refuse text, with `TypeError`. Left out: positions (`*rest`), which do not matter for
that; `bytes.find` and its like also take integers, but those have no `lower`.
-/
namespace Verif.CaselessTypes
open Verif.Py
open Verif.Caseless (Str)
open Verif.CaselessUnicode (Database)

/-- A string-like object. -/
inductive Value where
  | text (s : Str)
  | bytes (s : Str)
  deriving DecidableEq, Repr

/-- `x.lower()`: `str.lower` by the Unicode database, `bytes.lower` for ASCII letters. -/
def lower (D : Database) : Value → Value
  | .text s => .text (CaselessUnicode.lower D s)
  | .bytes s => .bytes (Caseless.lower s)

/-- An operation of text with text and of bytes with bytes. -/
def both {α : Type} (f : Str → Str → α) : Value → Value → Except PyErr α
  | .text a, .text b => .ok (f a b)
  | .bytes a, .bytes b => .ok (f a b)
  | _, _ => .error .typeError

/-- `caseless.py:93-94`. -/
def eq (D : Database) (a b : Value) : Bool := lower D a == lower D b
/-- `caseless.py:96-97`. -/
def ne (D : Database) (a b : Value) : Bool := lower D a != lower D b
/-- `caseless.py:99-100`. -/
def lt (D : Database) (a b : Value) : Except PyErr Bool := both (fun x y => strCmp x y == .lt) (lower D a) (lower D b)
/-- `caseless.py:102-103`. -/
def le (D : Database) (a b : Value) : Except PyErr Bool := both (fun x y => strCmp x y != .gt) (lower D a) (lower D b)
/-- `caseless.py:105-106`. -/
def gt (D : Database) (a b : Value) : Except PyErr Bool := both (fun x y => strCmp x y == .gt) (lower D a) (lower D b)
/-- `caseless.py:108-109`. -/
def ge (D : Database) (a b : Value) : Except PyErr Bool := both (fun x y => strCmp x y != .lt) (lower D a) (lower D b)

/-- `caseless.py:115-116`. -/
def contains (D : Database) (a sub : Value) : Except PyErr Bool := both strContains (lower D a) (lower D sub)

/-- `caseless.py:135-136`. -/
def count (D : Database) (a sub : Value) : Except PyErr Nat := both (fun x y => strCount x y none none) (lower D a) (lower D sub)
/-- `caseless.py:139-140`. -/
def find (D : Database) (a sub : Value) : Except PyErr Int := both (fun x y => strFind x y none none) (lower D a) (lower D sub)
/-- `caseless.py:147-148`. -/
def rfind (D : Database) (a sub : Value) : Except PyErr Int := both (fun x y => strRFind x y none none) (lower D a) (lower D sub)

/-- `caseless.py:119-124` without a tuple. -/
def startswith (D : Database) (a p : Value) : Except PyErr Bool :=
  both (fun x y => strStartsWith x y none none) (lower D a) (lower D p)
/-- `caseless.py:127-132` without a tuple. -/
def endswith (D : Database) (a p : Value) : Except PyErr Bool :=
  both (fun x y => strEndsWith x y none none) (lower D a) (lower D p)

/-- `startswith` of a tuple: the items one by one until one fits. -/
def anyOf (f : Value → Except PyErr Bool) : List Value → Except PyErr Bool
  | [] => .ok false
  | p :: ps =>
    match f p with
    | .error e => .error e
    | .ok true => .ok true
    | .ok false => anyOf f ps

/-- `caseless.py:119-124` with a tuple. -/
def startswithAny (D : Database) (a : Value) (ps : List Value) : Except PyErr Bool := anyOf (startswith D a) ps
/-- `caseless.py:127-132` with a tuple. -/
def endswithAny (D : Database) (a : Value) (ps : List Value) : Except PyErr Bool := anyOf (endswith D a) ps

/-- `str(x)` (`Caseless.__str__`, `caseless.py:52-53`): `str` of bytes is their `repr`. -/
def str : Value → Str
  | .text s => s
  | .bytes s => Literal.reprBytes s

/-- `x.__unicode__()` (`caseless.py:56-57`): there is no `unicode`. -/
def unicode (_ : Value) : Except PyErr Str := .error (.other "NameError")

/-- What iterating over a `Caseless` gives (`caseless.py:68-69`): strings of one character, or integers. -/
inductive Item where
  | char (c : Nat)
  | int (n : Nat)
  deriving DecidableEq, Repr

def iter : Value → List Item
  | .text s => s.map .char
  | .bytes s => s.map .int

/-- `item in x` (`caseless.py:115-116`): integers have no `lower`. -/
def itemIn (D : Database) (a : Value) : Item → Except PyErr Bool
  | .char c => contains D a (.text [c])
  | .int _ => .error .attributeError

end Verif.CaselessTypes
