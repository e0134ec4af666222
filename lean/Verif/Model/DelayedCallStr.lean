import Verif.Model.DelayedCall
import Verif.Py.Num
import Verif.Py.Split
/-!
# Model of `DelayedCall.__str__` (`/repo/epsilon/hotfixes/delayedcall_seconds.py:119-152`), on Python 2

The texts that `reflect.safe_repr`, `id` and `'%s'` of a number of seconds give are part of what is described.
-/
namespace Verif.DelayedCallStr
open Verif.Py Verif.DelayedCall

abbrev Str := List Nat

/-- A text as code points. -/
def chars (s : String) : Str := s.toList.map Char.toNat

/-- The function to be called: one with a `func_name`, a method (which has also an `im_class`), or something else, by its `safe_repr`. -/
inductive Fn where
  | func (name : Str)
  | method (cls name : Str)
  | other (repr : Str)
  deriving DecidableEq, Repr

/-- What there is to describe: the function, the `safe_repr`s of the arguments, the keyword arguments in the order of `iteritems`. -/
structure Desc where
  fn : Fn
  args : List Str
  kw : List (Str × Str)
  deriving DecidableEq, Repr

/-- A call object with its attributes: `func`, `args` and `kw` are deleted when it is cancelled; `str` is `_str`; `creator` is there
if `debug` is set. -/
structure Obj where
  ident : Str
  call : Call
  desc : Option Desc
  str : Option Str
  creator : Option (List Str)
  deriving DecidableEq, Repr

/-- `__init__` (`delayedcall_seconds.py:19-27`). -/
def new (ident : Str) (time : Int) (own : Bool) (d : Desc) (creator : Option (List Str)) : Obj :=
  ⟨ident, DelayedCall.new time own, some d, none, creator⟩

/-- Lines 123-128. -/
def fnText : Fn → Str
  | .func name => name
  | .method cls name => cls ++ [46] ++ name
  | .other repr => repr

/-- `'%s'` of the integers 0 and 1 -/
def flag (b : Bool) : Str := if b then [49] else [48]

/-- Lines 138-145: the pieces from the function's name on. -/
def callText (d : Desc) : Str :=
  [32] ++ fnText d.fn ++ [40] ++
    (if d.args ≠ [] then joinSep [44, 32] d.args ++ (if d.kw ≠ [] then [44, 32] else []) else []) ++
    (if d.kw ≠ [] then joinSep [44, 32] (d.kw.map fun p => p.1 ++ [61] ++ p.2) else []) ++ [41]

/-- `__str__` (`delayedcall_seconds.py:119-152`); `now` is what the clock (the call's own or the reactor's) says. -/
def toStr (showSeconds : Int → Str) (o : Obj) (now : Int) : Str :=
  match o.str with
  | some s => s
  | none =>
    chars "<DelayedCall " ++ o.ident ++ chars " [" ++ showSeconds (o.call.time - now) ++ chars "s] called=" ++ flag o.call.called ++
      chars " cancelled=" ++ flag o.call.cancelled ++
      (match o.desc with
       | some d => callText d
       | none => []) ++
      (match o.creator with
       | some l => chars "\n\ntraceback at creation: \n\n" ++ joinSep [32, 32, 32, 32] l
       | none => []) ++ [62]

/-- `cancel`, `reset`, `delay` and what the reactor does (`delayedcall_seconds.py:38-105`); `now` is what the clock says then. -/
def step (showSeconds : Int → Str) (o : Obj) (op : Op) (now : Int) : Obj :=
  match DelayedCall.step o.call op with
  | (c, _, e) =>
    match op, e with
    | .cancel, none =>
      let o := { o with call := c }
      let o := if o.creator.isSome then { o with str := some (toStr showSeconds o now) } else o
      { o with desc := none }
    | _, _ => { o with call := c }

def run (showSeconds : Int → Str) (o : Obj) : List (Op × Int) → Obj
  | [] => o
  | (op, now) :: l => run showSeconds (step showSeconds o op now) l

end Verif.DelayedCallStr
