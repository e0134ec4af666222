import Verif.Model.Modal
/-!
# Model of the class `mode` of `epsilon/modal.py`

Mode classes with base classes, of which `Model/Modal` keeps only the `__dict__`.
-/
namespace Verif.Modal
open Verif.Py

/-- A subclass of `mode`: its `__dict__`, and those of the classes after it in the method resolution order before `mode`. -/
structure ModeClass where
  own : Dict Name Val
  between : List (Dict Name Val)

/-- `class mode` (`modal.py:44-64`): its `__exit__` (`modal.py:56-59`) and `__enter__` (`modal.py:61-64`) do nothing. They are the functions
900 and 901. -/
def modeDict : Dict Name Val := [(nExit, .func 900), (nEnter, .func 901)]

/-- `getattr(modeClass, n)`: in the method resolution order. -/
def ModeClass.get (c : ModeClass) (n : Name) : Option Val := lookup (c.own :: c.between ++ [modeDict]) n

/-- What `ModalType.__new__` looks at (`modal.py:106-107`): `v.__dict__`. -/
def ModeClass.val (c : ModeClass) : Val := .modeCls c.own

end Verif.Modal
