import Verif.Model.DelayedCall
/-!
# Model of `/repo/epsilon/hotfixes/delayedcall_seconds.py` with an owner that reacts

`Model/DelayedCall` takes `canceller` and `resetter` not to raise and not to touch the call.  Here they are arbitrary: told of a
cancellation or a reset they may do anything to the same call, in any nesting, and may raise.  `debug` is off.
-/
namespace Verif.DelayedCallOwner
open Verif.Py Verif.DelayedCall

/-- A call, and whether it still has its function: `func`, `args` and `kw` (`delayedcall_seconds.py:20,55`). -/
structure St where
  call : Call
  func : Bool
  deriving DecidableEq, Repr

/-- `__init__` (`delayedcall_seconds.py:19-27`). -/
def new (time : Int) (own : Bool) : St := ⟨DelayedCall.new time own, true⟩

/-- What somebody does to the call: operations one after the other, until one raises (and is not `caught`), or until they raise
themselves.  When the owner is told in the course of an operation, it does what `inner` says. -/
inductive Script
  | done
  | raise (e : PyErr)
  | act (o : Op) (caught : Bool) (inner rest : Script)
  deriving DecidableEq

/-- The state, what the owner was told so far, and what was raised. -/
abbrev Result := St × List Notice × Option PyErr

/-- `cancel` (`delayedcall_seconds.py:46-55`), `reset` (`67-81`), `delay` (`93-101`), `activate_delay` (`103-105`) and the assignment
`called = 1` of the reactor; `tell` is what the owner does.  `del self.func` raises `AttributeError` if it is gone. -/
def stepWith (tell : St → Result) (st : St) : Op → Result
  | .cancel =>
    match refused st.call with
    | some e => (st, [], some e)
    | none =>
      match tell st with
      | (st1, log, some e) => (st1, .canceller :: log, some e)
      | (st1, log, none) =>
        if st1.func then (⟨{ st1.call with cancelled := true }, false⟩, .canceller :: log, none)
        else ({ st1 with call := { st1.call with cancelled := true } }, .canceller :: log, some .attributeError)
  | .reset base own secondsFromNow =>
    match refused st.call with
    | some e => (st, [], some e)
    | none =>
      let newTime := newTime st.call base own secondsFromNow
      if newTime < st.call.time then
        let r := tell { st with call := { st.call with delayed := 0, time := newTime } }
        (r.1, .resetter :: r.2.1, r.2.2)
      else ({ st with call := { st.call with delayed := newTime - st.call.time } }, [], none)
  | .delay secondsLater =>
    match refused st.call with
    | some e => (st, [], some e)
    | none =>
      let c' := { st.call with delayed := st.call.delayed + secondsLater }
      if c'.delayed < 0 then
        let r := tell { st with call := activateDelay c' }
        (r.1, .resetter :: r.2.1, r.2.2)
      else ({ st with call := c' }, [], none)
  | .activate => ({ st with call := activateDelay st.call }, [], none)
  | .made => ({ st with call := { st.call with called := true } }, [], none)

/-- A script runs. -/
def exec : Script → St → Result
  | .done, st => (st, [], none)
  | .raise e, st => (st, [], some e)
  | .act o caught inner rest, st =>
    match stepWith (exec inner) st o with
    | (st1, log, some e) =>
      if caught then
        let r := exec rest st1
        (r.1, log ++ r.2.1, r.2.2)
      else (st1, log, some e)
    | (st1, log, none) =>
      let r := exec rest st1
      (r.1, log ++ r.2.1, r.2.2)

end Verif.DelayedCallOwner
