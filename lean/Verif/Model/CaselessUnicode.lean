import Verif.Model.Caseless
/-!
# Model of `epsilon/caseless.py` on text beyond ASCII

`lower` is `str.lower` as CPython computes it (`Objects/unicodeobject.c`: `do_lower`, `lower_ucs4`, `handle_capital_sigma`), with
the tables of the Unicode database left open: code points may become several, and the capital sigma is looked at in its context.
-/
namespace Verif.CaselessUnicode
open Verif.Py
open Verif.Caseless (Str Affix)

/-- The tables of the Unicode database. -/
structure Database where
  /-- `_PyUnicode_ToLowerFull` -/
  toLower : Nat → List Nat
  /-- `_PyUnicode_IsCased` -/
  cased : Nat → Bool
  /-- `_PyUnicode_IsCaseIgnorable` -/
  ignorable : Nat → Bool

/-- The first code point that is not case-ignorable is cased. -/
def casedNext (D : Database) (l : List Nat) : Bool :=
  match l.dropWhile D.ignorable with
  | [] => false
  | c :: _ => D.cased c

/-- `handle_capital_sigma`; `before` is reversed. -/
def sigma (D : Database) (before after : List Nat) : Nat :=
  if casedNext D before && !casedNext D after then 0x3C2 else 0x3C3

/-- `lower_ucs4` -/
def lowerOne (D : Database) (before : List Nat) (c : Nat) (after : List Nat) : List Nat :=
  if c = 0x3A3 then [sigma D before after] else D.toLower c

/-- `do_lower`: what the code points become, in order. -/
def pieces (D : Database) (before : List Nat) : List Nat → List (List Nat)
  | [] => []
  | c :: after => lowerOne D before c after :: pieces D (c :: before) after

/-- `s.lower()` (`caseless.py:72-73`). -/
def lower (D : Database) (s : Str) : Str := (pieces D [] s).flatten

/-- `caseless.py:93-94` -/
def eq (D : Database) (a b : Str) : Bool := lower D a == lower D b
/-- `caseless.py:96-97` -/
def ne (D : Database) (a b : Str) : Bool := lower D a != lower D b
/-- `caseless.py:99-100` -/
def lt (D : Database) (a b : Str) : Bool := strCmp (lower D a) (lower D b) == .lt
/-- `caseless.py:102-103` -/
def le (D : Database) (a b : Str) : Bool := strCmp (lower D a) (lower D b) != .gt
/-- `caseless.py:105-106` -/
def gt (D : Database) (a b : Str) : Bool := strCmp (lower D a) (lower D b) == .gt
/-- `caseless.py:108-109` -/
def ge (D : Database) (a b : Str) : Bool := strCmp (lower D a) (lower D b) != .lt
/-- `caseless.py:111-112` -/
def hash (D : Database) (h : Str → Int) (a : Str) : Int := h (lower D a)
/-- `caseless.py:115-116` -/
def contains (D : Database) (a sub : Str) : Bool := strContains (lower D a) (lower D sub)

/-- `caseless.py:119-124` -/
def startswith (D : Database) (a : Str) (p : Affix) (start stop : Option Int) : Bool :=
  match p with
  | .tuple ps => (ps.map (lower D)).any fun q => strStartsWith (lower D a) q start stop
  | .one p => strStartsWith (lower D a) (lower D p) start stop

/-- `caseless.py:127-132` -/
def endswith (D : Database) (a : Str) (p : Affix) (start stop : Option Int) : Bool :=
  match p with
  | .tuple ps => (ps.map (lower D)).any fun q => strEndsWith (lower D a) q start stop
  | .one p => strEndsWith (lower D a) (lower D p) start stop

/-- `caseless.py:135-136` -/
def count (D : Database) (a sub : Str) (start stop : Option Int) : Nat := strCount (lower D a) (lower D sub) start stop
/-- `caseless.py:139-140` -/
def find (D : Database) (a sub : Str) (start stop : Option Int) : Int := strFind (lower D a) (lower D sub) start stop
/-- `caseless.py:143-144` -/
def index (D : Database) (a sub : Str) (start stop : Option Int) : Except PyErr Int :=
  strIndex (lower D a) (lower D sub) start stop
/-- `caseless.py:147-148` -/
def rfind (D : Database) (a sub : Str) (start stop : Option Int) : Int := strRFind (lower D a) (lower D sub) start stop
/-- `caseless.py:151-152` -/
def rindex (D : Database) (a sub : Str) (start stop : Option Int) : Except PyErr Int :=
  strRIndex (lower D a) (lower D sub) start stop

end Verif.CaselessUnicode
