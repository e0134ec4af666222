import Verif.Model.Structlike
import Verif.Model.ExtimeHuman
import Verif.Py.Words
import Verif.Py.Split
/-!
# Model of `record` given a text, of the class it makes, and of the call of that class (`epsilon/structlike.py`)

`Model/Structlike` takes the names already split; here is the rest of `record`: `a[0].split()`, the name given to `type`, and the
call of the class, which passes keywords to `__init__(self, *args, **kw)`.  Python 3; the positional arguments are `str`.
Not modelled: attributes that mean something to Python itself (`__class__`, `__dict__`, `__names__`, …).
-/
namespace Verif.StructlikeText
open Verif.Py Verif.Structlike

/-- `a[0].split()` (`structlike.py:151`) of a `str`. -/
def split (s : List Nat) : List Name := words Verif.Extime.isSpace s

/-- `'Record<%s>' % (' '.join(attributeNames),)` (`structlike.py:180`). -/
def className (names : List Name) : List Nat := [82, 101, 99, 111, 114, 100, 60] ++ joinSep [32] names ++ [62]

/-- What `type(name, …)` (`structlike.py:180-183`) says of the name: it has to be encodable in UTF-8 and without NUL. -/
def typeName (name : List Nat) : Except PyErr Unit :=
  if name.any (fun c => 0xd800 ≤ c && c ≤ 0xdfff) then .error .unicodeError
  else if name.contains 0 then .error .valueError else .ok ()

/-- `record(*a, **kw)` (`structlike.py:117-183`): the `__name__` of the class, and its `__names__` and `__defaults__`. -/
def recordText {V : Type} (a : List (List Nat)) (kw : Dict Name V) : Except PyErr (List Nat × RecordClass V) := do
  let c ← record (a.map split) kw
  typeName (className c.names)
  return (className c.names, c)

/-- `'self'` -/
def selfName : Name := [115, 101, 108, 102]

/-- The call of the class (`structlike.py:70`): Python refuses the keyword `self`, which is the first parameter already. -/
def call {V : Type} (c : RecordClass V) (args : List V) (kw : Dict Name V) : Except PyErr (Dict Name V) :=
  if Dict.has kw selfName then .error .typeError else init c args kw

end Verif.StructlikeText
