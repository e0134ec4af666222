import Verif.Py.Core
/-!
# Model of `epsilon/pending.py`

Deferreds are numbered in the order in which they are handed out.  When a Deferred fires, its callbacks run at once;
what they do to the `PendingEvent` is the script of that Deferred, which is arbitrary.  Nobody else fires the Deferreds.
An exception in a callback is caught by the Deferred; it only cuts that script short.
-/
namespace Verif.Pending

inductive Result where
  | success (v : Nat)
  | failure (v : Nat)
  deriving DecidableEq, Repr

/-- What can be done to a `PendingEvent`. -/
inductive Act where
  | deferred
  | callback (v : Nat)
  | errback (v : Nat)
  /-- `errback()`, with the exception being handled, if any -/
  | errbackNone (current : Option Nat)
  deriving DecidableEq, Repr

/-- The observable events. -/
inductive Ev where
  | requested (d : Nat)
  | event (r : Result)
  | fired (d : Nat) (r : Result)
  deriving DecidableEq, Repr

/-- A `PendingEvent`; a new one has no listeners (`pending.py:6-7`). -/
structure St where
  next : Nat
  listeners : List Nat
  trace : List Ev
  deriving DecidableEq, Repr

/-- What an action does, given the meaning of an event.  `errback()` outside an exception handler raises in `Failure()`
before anything is changed (`pending.py:20-22`). -/
def runAct (fire : Result → St → Option St) (a : Act) (st : St) : Option St :=
  match a with
  | .deferred =>
    -- pending.py:9-12
    some ⟨st.next + 1, st.listeners ++ [st.next], st.trace ++ [.requested st.next]⟩
  | .callback v => fire (.success v) st
  | .errback v => fire (.failure v) st
  | .errbackNone (some v) => fire (.failure v) st
  | .errbackNone none => some st

def runActs (fire : Result → St → Option St) : List Act → St → Option St
  | [], st => some st
  | a :: as, st =>
    match runAct fire a st with
    | none => none
    | some st => runActs fire as st

/-- `for d in l: d.callback(result)` -/
def fireList (fire : Result → St → Option St) (script : Nat → List Act) (r : Result) : List Nat → St → Option St
  | [], st => some st
  | d :: l, st =>
    match runActs fire (script d) { st with trace := st.trace ++ [.fired d r] } with
    | none => none
    | some st => fireList fire script r l st

/-- `callback(result)` and `errback(result)` (`pending.py:14-26`).  `none`: events within events do not come to an end
within the given depth. -/
def fire (script : Nat → List Act) : Nat → Result → St → Option St
  | 0, _, _ => none
  | fuel + 1, r, st =>
    fireList (fire script fuel) script r st.listeners { st with listeners := [], trace := st.trace ++ [.event r] }

/-- A whole history. -/
def run (script : Nat → List Act) (fuel : Nat) (as : List Act) : Option St := runActs (fire script fuel) as ⟨0, [], []⟩

end Verif.Pending
