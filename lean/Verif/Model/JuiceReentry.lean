import Verif.Model.JuiceRpc
/-!
# Model of the requests of one juice peer with an arbitrary application (`epsilon/juice.py:302-403`, `868-878`)

The application's code is arbitrary: whoever runs the machine decides what it does, at any moment and in particular inside the
callbacks of the Deferreds that the peer fires, to any depth of nesting.  It may send requests, cancel their Deferreds, and (which
it should not) fire them itself.  The remote side is arbitrary too.

Deferreds are Twisted's: `callback` and `errback` of one that has been called raise `AlreadyCalledError`; `cancel()` of one that
has not been called fails it with `CancelledError` and makes the next `callback` or `errback` do nothing.  No callback gives a
Deferred in turn.  What a callback raises is the result of its Deferred.  Boxes are reduced to their tags: what is in them is in
`Model/JuiceRpc`.
-/
namespace Verif.JuiceReentry
open Verif.Py
open Verif.Juice (Str)

/-- What a request's Deferred is fired with. -/
inductive Result where
  | answer
  | error
  /-- the reason given to `connectionLost` -/
  | lost (reason : Nat)
  /-- `CancelledError` -/
  | cancelled
  /-- what the application fired it with -/
  | own
  deriving DecidableEq, Repr

/-- A Deferred: not called; or called, with whether its result is a failure that no errback has handled, and whether the next
`callback` is suppressed. -/
inductive DSt where
  | waiting
  | done (unhandled suppress : Bool)
  deriving DecidableEq, Repr

/-- What is seen, in order.  A Deferred is known by the value of `_counter` when it was made. -/
inductive Ev where
  /-- a request was sent -/
  | sent (n : Nat)
  /-- `sendBoxCommand` returned `fail(CONNECTION_LOST)` -/
  | refused
  | fired (n : Nat) (r : Result)
  /-- `_puke`: `self.transport.loseConnection()` -/
  | dropped
  /-- `connectionLost` has come to the inner protocol, or would if there was one -/
  | told (reason : Nat)
  | raised (e : PyErr)
  deriving DecidableEq, Repr

structure St where
  counter : Nat := 0
  /-- `_outstandingRequests` -/
  outstanding : Option (Dict Str Nat) := some []
  deferred : Nat → Option DSt := fun _ => none
  /-- the loop of `failAllOutgoing`, if it is going on: the reason, and what it has not come to -/
  losing : Option (Nat × List Nat) := none
  /-- the Deferreds whose callbacks are running, innermost first, with whether `_puke` is the last of their errbacks -/
  stack : List (Nat × Bool) := []
  log : List Ev := []

def St.say (s : St) (e : Ev) : St := { s with log := s.log ++ [e] }
def St.setD (s : St) (n : Nat) (d : DSt) : St := { s with deferred := fun m => if m = n then some d else s.deferred m }

/-- A Deferred that was waiting is fired: its callbacks run. -/
def St.fire (s : St) (n : Nat) (r : Result) (puke suppress : Bool) : St :=
  St.say { s.setD n (.done false suppress) with stack := (n, puke) :: s.stack } (.fired n r)

/-- `AlreadyCalledError` -/
def alreadyCalled : PyErr := .other "AlreadyCalledError"

/-- `sendBoxCommand` (`juice.py:382-403`) with `requiresAnswer`. -/
def send (s : St) : St :=
  match s.outstanding with
  | none => s.say .refused
  | some d =>
    let n := s.counter + 1
    St.say { s.setD n .waiting with counter := n, outstanding := some (Dict.set d (hexStr n) n) } (.sent n)

/-- `Deferred.cancel` -/
def cancel (s : St) (n : Nat) : St :=
  match s.deferred n with
  | some .waiting => s.fire n .cancelled false true
  | _ => s

/-- The application calls `callback` or `errback` of a request's Deferred. -/
def own (s : St) (n : Nat) : St :=
  match s.deferred n with
  | none => s
  | some .waiting => s.fire n .own false false
  | some (.done u true) => s.setD n (.done u false)
  | some (.done _ false) => s.say (.raised alreadyCalled)

/-- An answer or an error comes (`juice.py:333-342`).  `addErrback(self._puke)` of a Deferred that has been called with a failure
nobody handled calls `_puke` at once. -/
def reply (s : St) (tag : Str) (r : Result) : St :=
  match s.outstanding with
  | none => s.say (.raised .attributeError)
  | some d =>
    match Dict.get? d tag with
    | none => s.say (.raised .keyError)
    | some n =>
      let s := { s with outstanding := some (Dict.erase d tag) }
      match s.deferred n with
      | none => s
      | some .waiting => s.fire n r true false
      | some (.done u suppress) =>
        let s := if u then s.say .dropped else s
        if suppress then s.setD n (.done false false) else (s.setD n (.done false false)).say (.raised alreadyCalled)

/-- The loop of `failAllOutgoing` (`juice.py:323-327`) from some point on, until it runs a callback; then the rest of
`connectionLost` (`juice.py:875-878`). -/
def failLoop (s : St) (reason : Nat) : List Nat → St
  | [] => St.say { s with losing := none } (.told reason)
  | n :: rest =>
    match s.deferred n with
    | some .waiting => St.fire { s with losing := some (reason, rest) } n (.lost reason) false false
    | some (.done u true) => failLoop (s.setD n (.done u false)) reason rest
    | _ => St.say { s with losing := none } (.raised alreadyCalled)

/-- `connectionLost` (`juice.py:868-878`).  Twisted calls it once. -/
def connectionLost (s : St) (reason : Nat) : St :=
  match s.outstanding with
  | none => s
  | some d => failLoop { s with outstanding := none } reason (d.map Prod.snd)

/-- The result of a Deferred changes, as its callbacks run. -/
def St.settle (s : St) (n : Nat) (unhandled : Bool) : St :=
  match s.deferred n with
  | some (.done _ suppress) => s.setD n (.done unhandled suppress)
  | _ => s

/-- When no callback is running any more, `failAllOutgoing` goes on. -/
def St.resume (s : St) : St :=
  match s.stack, s.losing with
  | [], some (reason, rest) => failLoop s reason rest
  | _, _ => s

/-- The callbacks of the innermost Deferred have all run; `unhandled`: the result is a failure. -/
def ret (s : St) (unhandled : Bool) : St :=
  match s.stack with
  | [] => s
  | (n, puke) :: below =>
    let s := { s with stack := below }
    let s := if unhandled && puke then s.say .dropped else s
    (s.settle n (unhandled && !puke)).resume

inductive Input where
  /-- the application's -/
  | send
  | cancel (n : Nat)
  | own (n : Nat)
  /-- a callback chain ends -/
  | ret (unhandled : Bool)
  /-- the transport's, when no callback is running -/
  | answer (tag : Str)
  | error (tag : Str)
  | lose (reason : Nat)
  deriving DecidableEq, Repr

/-- One step; what is not possible changes nothing. -/
def step (s : St) : Input → St
  | .send => send s
  | .cancel n => cancel s n
  | .own n => own s n
  | .ret u => ret s u
  | .answer tag => if s.stack = [] then reply s tag .answer else s
  | .error tag => if s.stack = [] then reply s tag .error else s
  | .lose reason => if s.stack = [] then connectionLost s reason else s

def exec (s : St) (is : List Input) : St := is.foldl step s

end Verif.JuiceReentry
