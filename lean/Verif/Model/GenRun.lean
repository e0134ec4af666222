import Verif.Model.DeferredGenerator
/-!
# `_deferGenerator` with any number of generators (`/repo/epsilon/hotfixes/deferredgenerator_tfailure.py:11-51`)

A machine with an explicit stack, for generators of any behaviour, also ones that never end, which start one another, wait for one
another's Deferreds and for the same Deferreds, and fire Deferreds while they are running.  Python 2, as in
`Verif.Model.DeferredGenerator`.

Of Twisted's `Deferred` the model has: `callback`/`errback` (an `AlreadyCalledError` if it was called before), `addBoth`, and
`_runCallbacks`, which does nothing if it is running already (`_runningCallbacks`), and otherwise takes the callbacks from the front
of the list, giving each what the one before returned.  The only callbacks are `gotResult` functions; they return `None`.
-/
namespace Verif.GenRun
open Verif.Py
open Verif.DeferredGenerator (Val Res)

/-- A Deferred: one of the application's, or the one that `_deferGenerator` made for a generator (`17-18`). -/
inductive D
  | ext (n : Nat)
  | own (i : Nat)
deriving DecidableEq

/-- A `waitForDeferred`: the `n`th that generator `i` yields is `(i, n)`. -/
abbrev W := Nat × Nat

/-- A `gotResult` in the list of callbacks of `d`; it belongs to `w` (`38-44`). -/
structure Entry where
  d : D
  w : W
deriving DecidableEq

inductive Frame
  /-- `_deferGenerator`, about to call `g.next()`; `last` is the variable `result` (`15-20`). -/
  | loop (i : Nat) (last : Val)
  /-- The generator's code is running, called from that loop. -/
  | body (i : Nat) (last : Val)
  /-- `_deferGenerator` within `result.d.addBoth(gotResult)` (`45`). -/
  | adding (w : W)
  /-- `d._runCallbacks()` -/
  | firing (d : D)
deriving DecidableEq

/-- What a generator is: it may be called (again), it is running, or it has ended.  If it may be called, the `waitForDeferred` that
it yielded last and that one's Deferred, if this is what it yielded last. -/
inductive Phase
  | suspended (x : Option (W × D))
  | running
  | finished
deriving DecidableEq

inductive Ev
  | started (i : Nat)
  /-- The generator is called; if it has yielded a `waitForDeferred` last, that and its `result`, which `getResult` gives or raises. -/
  | next (i : Nat) (x : Option (W × Option Res))
  | waits (w : W) (d : D)
  | yielded (i : Nat) (v : Val)
  | stopped (i : Nat)
  | raised (i : Nat) (e : PyErr)
  /-- The generator yielded a Deferred. -/
  | abandoned (i : Nat)
  | fired (d : D) (r : Res)
  /-- The application was given an `AlreadyCalledError`. -/
  | again (d : D)
  /-- `g.next()` of a generator that is running (`ValueError`) or has ended, or an `AlreadyCalledError` in `_deferGenerator`. -/
  | fault (i : Nat)

structure St where
  stack : List Frame := []
  /-- The callbacks of all Deferreds that have not been called, in the order in which they were added. -/
  queue : List Entry := []
  /-- `waiting[0]` -/
  waiting : W → Bool := fun _ => false
  /-- The Deferreds that have been called: their current results. -/
  result : D → Option Res := fun _ => none
  /-- `result.result` of a `waitForDeferred`. -/
  got : W → Option Res := fun _ => none
  phase : Nat → Phase := fun _ => .suspended none
  started : Nat → Bool := fun _ => false
  /-- How often a generator has waited. -/
  count : Nat → Nat := fun _ => 0
  log : List Ev := []

def upd [DecidableEq α] (f : α → β) (a : α) (b : β) : α → β := fun x => if x = a then b else f x

/-- `Deferred.callback` or `errback` of a Deferred that has not been called. -/
def fireD (s : St) (d : D) (r : Res) : St :=
  { s with result := upd s.result d (some r), stack := .firing d :: s.stack, log := s.log ++ [.fired d r] }

/-- `deferred.callback(result); return deferred` or `deferred.errback(); return deferred` (`21-26`).  The frame of the loop is left
out while `callback` runs: nothing but the return is left to do in it. -/
def finish (s : St) (i : Nat) (r : Res) : St :=
  match s.result (.own i) with
  | some _ => { s with log := s.log ++ [.fault i] }
  | none => fireD s (.own i) r

/-- The first callback of `d`, and the others. -/
def takeFirst (d : D) : List Entry → Option (Entry × List Entry)
  | [] => none
  | e :: q => if e.d = d then some (e, q) else (takeFirst d q).map fun p => (p.1, e :: p.2)

/-- One step of `_deferGenerator` or `_runCallbacks`; nothing while a generator's code is running, or nothing at all. -/
def go (s : St) : St :=
  match s.stack with
  | [] => s
  | .body _ _ :: _ => s
  | .loop i last :: rest =>  -- `19-26`
    match s.phase i with
    | .suspended x =>
      { s with stack := .body i last :: rest, phase := upd s.phase i .running,
               log := s.log ++ [.next i (x.map fun p => (p.1, s.got p.1))] }
    | .running => finish { s with stack := rest, log := s.log ++ [.fault i] } i (.failure .valueError)
    | .finished => finish { s with stack := rest, log := s.log ++ [.fault i] } i (.value last)
  | .adding w :: rest =>  -- `46-51`
    if s.waiting w then { s with waiting := upd s.waiting w false, stack := rest }
    else { s with stack := .loop w.1 none :: rest }
  | .firing d :: rest =>
    match takeFirst d s.queue, s.result d with
    | some (e, q), some r =>  -- `gotResult(r)` (`38-44`), which returns `None`
      if s.waiting e.w then
        { s with queue := q, got := upd s.got e.w (some r), result := upd s.result d (some (.value none)),
                 waiting := upd s.waiting e.w false }
      else
        { s with queue := q, got := upd s.got e.w (some r), result := upd s.result d (some (.value none)),
                 stack := .loop e.w.1 none :: s.stack }
    | _, _ => { s with stack := rest }

/-- What code other than `_deferGenerator` does. -/
inductive Act
  /-- It fires one of its Deferreds. -/
  | fire (n : Nat) (r : Res)
  /-- It calls a decorated function, making generator `j` and calling `_deferGenerator` for the first time. -/
  | start (j : Nat)
  /-- What only a generator can do. -/
  | stop
  | raise (e : PyErr)
  | yield (v : Val)
  | yieldDeferred
  | wait (d : D)

inductive Input
  | go
  | act (a : Act)

/-- What a generator's code does when it gives up control (`20-51`). -/
def leave (s : St) (i : Nat) (last : Val) (rest : List Frame) : Act → St
  | .stop => finish { s with stack := rest, phase := upd s.phase i .finished, log := s.log ++ [.stopped i] } i (.value last)
  | .raise e => finish { s with stack := rest, phase := upd s.phase i .finished, log := s.log ++ [.raised i e] } i (.failure e)
  | .yield v =>
    { s with stack := .loop i v :: rest, phase := upd s.phase i (.suspended none), log := s.log ++ [.yielded i v] }
  | .yieldDeferred =>  -- `32-33`
    { s with stack := rest, phase := upd s.phase i (.suspended none), log := s.log ++ [.abandoned i] }
  | .wait d =>  -- `35-45`
    { s with
      stack := if s.result d ≠ none ∧ .firing d ∉ rest then .firing d :: .adding (i, s.count i) :: rest
               else .adding (i, s.count i) :: rest
      queue := s.queue ++ [⟨d, (i, s.count i)⟩]
      waiting := upd s.waiting (i, s.count i) true
      phase := upd s.phase i (.suspended (some ((i, s.count i), d)))
      count := upd s.count i (s.count i + 1)
      log := s.log ++ [.waits (i, s.count i) d] }
  | _ => s

/-- An action, of the reactor if nothing is running, or of the generator whose code is running. -/
def act (s : St) (a : Act) : St :=
  match s.stack, a with
  | .body i last :: rest, .stop => leave s i last rest .stop
  | .body i last :: rest, .raise e => leave s i last rest (.raise e)
  | .body i last :: rest, .yield v => leave s i last rest (.yield v)
  | .body i last :: rest, .yieldDeferred => leave s i last rest .yieldDeferred
  | .body i last :: rest, .wait d => leave s i last rest (.wait d)
  | [], .fire n r | .body _ _ :: _, .fire n r =>
    match s.result (.ext n) with
    | some _ => { s with log := s.log ++ [.again (.ext n)] }
    | none => fireD s (.ext n) r
  | [], .start j | .body _ _ :: _, .start j =>
    if s.started j then s
    else { s with started := upd s.started j true, stack := .loop j none :: s.stack, log := s.log ++ [.started j] }
  | _, _ => s

def step (s : St) : Input → St
  | .go => go s
  | .act a => act s a

def exec (is : List Input) : St := is.foldl step {}

end Verif.GenRun
