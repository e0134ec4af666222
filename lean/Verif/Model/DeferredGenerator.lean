import Verif.Py.Core
/-!
# Model of `_deferGenerator` (`/repo/epsilon/hotfixes/deferredgenerator_tfailure.py:5-51`)

Python values are `Option Nat`, `none` being `None`.  Deferreds are numbered.
-/
namespace Verif.DeferredGenerator
open Verif.Py

abbrev Val := Option Nat

/-- The result of a Deferred. -/
inductive Res
  | value (v : Val)
  | failure (e : PyErr)

/-- `getResult` (`deferredgenerator_tfailure.py:5-8`). -/
def getResult : Res → Except PyErr Val
  | .failure e => .error e
  | .value v => .ok v

/-- What a generator does: it ends, raises, yields a plain value, yields a Deferred itself, or yields `waitForDeferred(d)`
and goes on depending on what `getResult()` returns or raises.  Only generators that end are described. -/
inductive Gen
  | stop
  | raises (e : PyErr)
  | yields (v : Val) (rest : Gen)
  | yieldsDeferred (rest : Gen)
  | waits (d : Nat) (rest : Except PyErr Val → Gen)

/-- How the loop is left. -/
inductive Left
  /-- `deferred.callback(result)` (`21-23`) -/
  | callback (v : Val)
  /-- `deferred.errback()` (`24-26`) -/
  | errback (e : PyErr)
  /-- `return defer.fail(TypeError(…))` (`32-33`): nothing happens to `deferred`. -/
  | other
  /-- `return deferred` while waiting (`46-50`) -/
  | waiting (d : Nat) (rest : Except PyErr Val → Gen)

/-- The results of the Deferreds that have fired. -/
abbrev Env := Nat → Option Res

def Env.set (env : Env) (d : Nat) (r : Res) : Env := fun x => if x = d then some r else env x

/-- The loop (`deferredgenerator_tfailure.py:15-51`), under Python 2, where generators have `next`.  A Deferred that has fired
calls `gotResult` within `addBoth`; `gotResult` returns `None`, which is then the Deferred's result.  (If the generator waits
again for the very Deferred whose firing resumed it, Twisted queues the second `gotResult` and calls it with `None` as soon as
the first has returned; here the loop goes on with `None` at once.)  The last component is the greatest number of frames on the stack, `depth` being that of the loop; `addBoth` and `gotResult` take two more. -/
def loop (depth : Nat) : Env → Val → Gen → Env × Left × Nat
  | env, result, .stop => (env, .callback result, depth)
  | env, _, .raises e => (env, .errback e, depth)
  | env, _, .yields v rest => loop depth env v rest
  | env, _, .yieldsDeferred _ => (env, .other, depth)
  | env, _, .waits d rest =>
    match env d with
    | some r =>
      let after := loop depth (env.set d (.value none)) none (rest (getResult r))
      (after.1, after.2.1, max (depth + 2) after.2.2)
    | none => (env, .waiting d rest, depth + 1)

/-- Where the generator is. -/
inductive Phase
  | waiting (d : Nat) (rest : Except PyErr Val → Gen)
  | finished

structure State where
  env : Env
  phase : Phase
  /-- What the Deferred that the first call made was fired with. -/
  fired : List Res
  /-- Whether the first call returned another Deferred, failed with `TypeError`. -/
  replaced : Bool
  /-- The greatest depth of the stack. -/
  depth : Nat

/-- The state after a run of the loop; `first` tells whether its caller gets what it returns. -/
def leave (first : Bool) (fired : List Res) (depth : Nat) (l : Env × Left × Nat) : State :=
  match l.2.1 with
  | .callback v => ⟨l.1, .finished, fired ++ [.value v], false, max depth l.2.2⟩
  | .errback e => ⟨l.1, .finished, fired ++ [.failure e], false, max depth l.2.2⟩
  | .other => ⟨l.1, .finished, fired, first, max depth l.2.2⟩
  | .waiting d rest => ⟨l.1, .waiting d rest, fired, false, max depth l.2.2⟩

/-- The call of the decorated function: `_deferGenerator(g)`. -/
def start (env : Env) (g : Gen) : State := leave true [] 0 (loop 1 env none g)

/-- `start` under Python 3: there is no `g.next`, and the bare `except` catches the `AttributeError`. -/
def start3 (env : Env) (_ : Gen) : State := ⟨env, .finished, [.failure .attributeError], false, 1⟩

/-- `d.callback(r)` or `d.errback(r)`; if `gotResult` was added to `d`, it calls `_deferGenerator(g, deferred)`
(`deferredgenerator_tfailure.py:38-44`).  Deferreds that have fired cannot fire again. -/
def fire (s : State) (d : Nat) (r : Res) : State :=
  match s.env d with
  | some _ => s
  | none =>
    match s.phase with
    | .waiting d' rest =>
      if d = d' then
        let t := leave false s.fired s.depth (loop 3 (s.env.set d (.value none)) none (rest (getResult r)))
        { t with replaced := s.replaced }
      else { s with env := s.env.set d r }
    | .finished => { s with env := s.env.set d r }

end Verif.DeferredGenerator
