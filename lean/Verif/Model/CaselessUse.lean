import Verif.Model.Caseless
import Verif.Py.Slice
import Verif.Py.Text
/-!
# Model of `Caseless` in use: as a key of dictionaries and of sorts, and its delegated methods (`epsilon/caseless.py`)

As in `Model/Caseless`, text is ASCII (or bytes).  The dictionary and the sort are Python's; what they ask of a key is its
hash, `==` and `<`, which `Caseless` defines.
-/
namespace Verif.Caseless
open Verif.Py

/-! ## Objects that are compared -/

/-- An object that may be a key: a `Caseless`, a plain string, or something that has no `lower` method (a number, `None`),
told apart by a number. -/
inductive Obj where
  | caseless (cased : Str)
  | plain (s : Str)
  | other (n : Nat)
  deriving DecidableEq, Repr

/-- What is given to `Caseless(...)`. -/
inductive Arg where
  | str (s : Str)
  | caseless (cased : Str)

/-- `Caseless.__init__` (`caseless.py:40-43`): the object that is made. -/
def init : Arg → Obj
  | .caseless cased => .caseless cased
  | .str s => .caseless s

/-- `x == y`.  `str.__eq__` and the `__eq__` of other objects return `NotImplemented` for a `Caseless`, and Python then calls
`Caseless.__eq__` (`caseless.py:93-94`) with the arguments exchanged; that asks the other object for `lower`. -/
def pyEq : Obj → Obj → Except PyErr Bool
  | .caseless a, .caseless b => .ok (eq a b)
  | .caseless a, .plain b => .ok (eq a b)
  | .plain a, .caseless b => .ok (eq b a)
  | .caseless _, .other _ => .error .attributeError
  | .other _, .caseless _ => .error .attributeError
  | .plain a, .plain b => .ok (decide (a = b))
  | .other n, .other m => .ok (decide (n = m))
  | .plain _, .other _ => .ok false
  | .other _, .plain _ => .ok false

/-- `hash(x)` (`caseless.py:111-112`); `h` hashes strings and `g` other objects. -/
def pyHash (h : Str → Int) (g : Nat → Int) : Obj → Int
  | .caseless a => hash h a
  | .plain a => h a
  | .other n => g n

/-! ## Dictionaries -/

/-- A dictionary: its entries in the order in which they were made. -/
abbrev Table := List (Obj × Nat)

/-- How a dictionary is searched: the two hash functions, and the order in which entries are met (which depends on the history
of the table).  Of the entries met, `==` is asked only of those with the same hash (CPython `lookdict`). -/
structure Search where
  h : Str → Int
  g : Nat → Int
  probe : Table → Obj → Table
  /-- Every entry is met, once. -/
  perm : ∀ t k, (probe t k).Perm t

/-- The key of the entry that is found among those met. -/
def findIn (σ : Search) (k : Obj) : Table → Except PyErr (Option Obj)
  | [] => .ok none
  | e :: es =>
    if pyHash σ.h σ.g e.1 = pyHash σ.h σ.g k then
      match pyEq e.1 k with
      | .error err => .error err
      | .ok true => .ok (some e.1)
      | .ok false => findIn σ k es
    else findIn σ k es

/-- The key of the entry for a key. -/
def findKey (σ : Search) (t : Table) (k : Obj) : Except PyErr (Option Obj) := findIn σ k (σ.probe t k)

/-- What is done with a dictionary. -/
inductive DOp where
  | get (k : Obj)
  | set (k : Obj) (v : Nat)
  | del (k : Obj)

/-- `d[k]`, `d[k] = v`, `del d[k]`: the dictionary afterwards and the value, if any.  Setting keeps the key that is there. -/
def dstep (σ : Search) (t : Table) : DOp → Table × Except PyErr (Option Nat)
  | .get k =>
    match findKey σ t k with
    | .error e => (t, .error e)
    | .ok none => (t, .error .keyError)
    | .ok (some k') => (t, .ok (Dict.get? t k'))
  | .set k v =>
    match findKey σ t k with
    | .error e => (t, .error e)
    | .ok none => (t ++ [(k, v)], .ok none)
    | .ok (some k') => (Dict.set t k' v, .ok none)
  | .del k =>
    match findKey σ t k with
    | .error e => (t, .error e)
    | .ok none => (t, .error .keyError)
    | .ok (some k') => (Dict.erase t k', .ok none)

/-- A sequence of these: the dictionary and all the answers. -/
def drun (σ : Search) (t : Table) : List DOp → Table × List (Except PyErr (Option Nat))
  | [] => (t, [])
  | o :: os =>
    let r := dstep σ t o
    let r' := drun σ r.1 os
    (r'.1, r.2 :: r'.2)

/-- `x in l` for a list: `==` is asked of the items in order. -/
def inList (x : Obj) : List Obj → Except PyErr Bool
  | [] => .ok false
  | y :: l =>
    match pyEq y x with
    | .error e => .error e
    | .ok true => .ok true
    | .ok false => inList x l

/-! ## Sorting -/

/-- Where an element goes among those already sorted that come after it in the list: before the first that is not less. -/
def insertKey (x : Str) : List Str → List Str
  | [] => [x]
  | y :: l => if lt y x then y :: insertKey x l else x :: y :: l

/-- `sorted(l, key=Caseless)` (`caseless.py:23-24`).  Python's sort is stable and asks only `<` of the keys
(`caseless.py:99-100`); which comparisons it makes does not matter (`sorted_unique`). -/
def sortedKey : List Str → List Str
  | [] => []
  | x :: l => insertKey x (sortedKey l)

/-- `cmp(x, y)` (`caseless.py:90-91`); only Python 2 has it. -/
def cmp (a b : Str) : Ordering := strCmp (lower a) (lower b)

/-! ## Delegated methods -/

/-- `len(x)` (`caseless.py:60-61`). -/
def len (a : Str) : Nat := a.length

/-- `x[i]` (`caseless.py:64-65`). -/
def getItem (a : Str) (i : Int) : Except PyErr Nat := listGet a i

/-- `x[start:stop]` (`caseless.py:64-65`): the items at the positions of the slice. -/
def getSlice (a : Str) (start stop : Option Int) : Str :=
  let n : Int := a.length
  let i := adjustBound 0 0 n n start
  let j := adjustBound n 0 n n stop
  (a.drop i.toNat).take (j - i).toNat

/-- `iter(x)` (`caseless.py:68-69`): what it gives. -/
def iter (a : Str) : List Nat := a

/-- `x.upper()` (`caseless.py:76-77`). -/
def upper (a : Str) : Str := a.map asciiUpper

/-- `x.title()` (`caseless.py:80-81`). -/
def title (a : Str) : Str := asciiTitle a

/-- `x.swapcase()` (`caseless.py:84-85`). -/
def swapcase (a : Str) : Str := a.map fun c => if 65 ≤ c ∧ c ≤ 90 then c + 32 else if 97 ≤ c ∧ c ≤ 122 then c - 32 else c

/-- `str.upper` on ASCII plus U+00DF (LATIN SMALL LETTER SHARP S), which becomes `'SS'`. -/
def upperU (s : Str) : Str := s.flatMap fun c => if c = 0xDF then [83, 83] else [asciiUpper c]

end Verif.Caseless
