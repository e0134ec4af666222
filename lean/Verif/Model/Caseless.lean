import Verif.Py.Str
/-!
# Model of `epsilon/caseless.py`

Strings are lists of code points (or bytes).  `lower` is `bytes.lower`, and `str.lower` on ASCII text;
`lowerU` additionally has the one unconditional Unicode lower-casing that changes the length (U+0130).
Other non-ASCII letters are in `Model/CaselessUnicode`.  Not modelled: `str`/`bytes` type mixing.  The delegated methods without comparison
semantics (`__len__`, `__getitem__`, `upper`, …) are in `Model/CaselessUse`.
-/
namespace Verif.Caseless
open Verif.Py

abbrev Str := List Nat

/-- ASCII lower-casing of one code point. -/
def lowerCp (c : Nat) : Nat := if 65 ≤ c ∧ c ≤ 90 then c + 32 else c

/-- `s.lower()` (`caseless.py:72-73`, delegated to the wrapped object). -/
def lower (s : Str) : Str := s.map lowerCp

/-- `caseless.py:93-94` -/
def eq (a b : Str) : Bool := lower a == lower b
/-- `caseless.py:96-97` -/
def ne (a b : Str) : Bool := lower a != lower b
/-- `caseless.py:99-100` -/
def lt (a b : Str) : Bool := strCmp (lower a) (lower b) == .lt
/-- `caseless.py:102-103` -/
def le (a b : Str) : Bool := strCmp (lower a) (lower b) != .gt
/-- `caseless.py:105-106` -/
def gt (a b : Str) : Bool := strCmp (lower a) (lower b) == .gt
/-- `caseless.py:108-109` -/
def ge (a b : Str) : Bool := strCmp (lower a) (lower b) != .lt
/-- `caseless.py:111-112`; `h` is the interpreter's string hash. -/
def hash (h : Str → Int) (a : Str) : Int := h (lower a)
/-- `caseless.py:115-116` -/
def contains (a sub : Str) : Bool := strContains (lower a) (lower sub)

/-- The prefix/suffix argument: a string or a tuple of strings. -/
inductive Affix where
  | one (p : Str)
  | tuple (ps : List Str)

/-- `caseless.py:119-124` -/
def startswith (a : Str) (p : Affix) (start stop : Option Int) : Bool :=
  match p with
  | .tuple ps => (ps.map lower).any fun q => strStartsWith (lower a) q start stop
  | .one p => strStartsWith (lower a) (lower p) start stop

/-- `caseless.py:127-132` -/
def endswith (a : Str) (p : Affix) (start stop : Option Int) : Bool :=
  match p with
  | .tuple ps => (ps.map lower).any fun q => strEndsWith (lower a) q start stop
  | .one p => strEndsWith (lower a) (lower p) start stop

/-- `caseless.py:135-136` -/
def count (a sub : Str) (start stop : Option Int) : Nat := strCount (lower a) (lower sub) start stop
/-- `caseless.py:139-140` -/
def find (a sub : Str) (start stop : Option Int) : Int := strFind (lower a) (lower sub) start stop
/-- `caseless.py:143-144` -/
def index (a sub : Str) (start stop : Option Int) : Except PyErr Int :=
  strIndex (lower a) (lower sub) start stop
/-- `caseless.py:147-148` -/
def rfind (a sub : Str) (start stop : Option Int) : Int := strRFind (lower a) (lower sub) start stop
/-- `caseless.py:151-152` -/
def rindex (a sub : Str) (start stop : Option Int) : Except PyErr Int :=
  strRIndex (lower a) (lower sub) start stop

/-- `str.lower` on ASCII plus U+0130 (LATIN CAPITAL LETTER I WITH DOT ABOVE), which becomes two code
points. -/
def lowerU (s : Str) : Str := s.flatMap fun c => if c = 0x130 then [0x69, 0x307] else [lowerCp c]

/-- `Caseless.find` on such text. -/
def findU (a sub : Str) (start stop : Option Int) : Int := strFind (lowerU a) (lowerU sub) start stop

end Verif.Caseless
