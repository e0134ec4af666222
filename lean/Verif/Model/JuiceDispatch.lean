import Verif.Model.JuiceArgs
import Verif.Model.JuiceRpc
/-!
# Model of juice command dispatch and errors (`epsilon/juice.py:197-270`, `343-380`, `592-680`, `927-945`)

Exception classes are numbered; `issubclass` is an arbitrary reflexive and transitive relation.  Applications are
arbitrary: an object is a table of attributes and a responder is an arbitrary function.  A responder that returns a
`Deferred` is treated as returning what the `Deferred` fires with.  Python 3; error codes are `str`.
`wrapper = None`, so `_wrap` is the identity (see `Model/JuiceTransact`); `transport` is not `None`.
-/
namespace Verif.JuiceDispatch
open Verif.Py Verif.Juice Verif.JuiceArgs Verif.JuiceRpc

abbrev Cls := Nat

/-- An exception object: its class, `str(exc)`, and the attributes of `RemoteJuiceError` (`juice.py:155-166`; without
meaning unless the class is a subclass of it). -/
structure Exn where
  cls : Cls
  text : Str
  code : Str := []
  desc : Str := []
  fatal : Bool := false

/-- The exception classes of a program. -/
structure Hier where
  /-- `issubclass` -/
  sub : Cls → Cls → Bool
  refl : ∀ c, sub c c = true
  trans : ∀ a b c, sub a b = true → sub b c = true → sub a c = true
  /-- `RemoteJuiceError`, `UnhandledRemoteJuiceError` (`juice.py:155-171`) -/
  remote : Cls
  unhandledRemote : Cls
  /-- `UnhandledCommand`, `IncompatibleVersions` (`juice.py:179-184`) -/
  unhandledCommand : Cls
  incompatible : Cls
  /-- the exceptions raised by Python and by juice itself -/
  builtin : PyErr → Exn
  unhandledRemote_sub : sub unhandledRemote remote = true
  unhandledCommand_sub : sub unhandledCommand remote = false
  incompatible_sub : sub incompatible remote = false
  builtin_sub : ∀ e, sub (builtin e).cls remote = false

/-- A `Command` subclass.  `extra` holds the values that `fromTransport` gives; `negotiates` says that `responseType` is
`NegotiateBox`. -/
structure Cmd where
  namespaces : List (Option Str) := [none]
  arguments : ArgList := []
  response : ArgList := []
  extra : List (Str × Obj) := []
  errors : Dict Cls Str := []
  fatalErrors : Dict Cls Str := []
  negotiates : Bool := false

/-- `_CommandMeta.__new__` (`juice.py:593-603`): `allErrors`, exception class ↦ code. -/
def Cmd.allErrors (c : Cmd) : Dict Cls Str :=
  c.fatalErrors.foldl (fun d p => Dict.set d p.1 p.2) (c.errors.foldl (fun d p => Dict.set d p.1 p.2) [])

/-- `_CommandMeta.__new__` (`juice.py:593-603`): `reverseErrors`, code ↦ exception class. -/
def Cmd.reverseErrors (c : Cmd) : Dict Str Cls :=
  c.fatalErrors.foldl (fun d p => Dict.set d p.2 p.1) (c.errors.foldl (fun d p => Dict.set d p.2 p.1) [])

/-- `Failure.trap(*classes)`: the first class the exception is an instance of; otherwise it is raised again.
(Twisted compares qualified names; classes are assumed to have different ones.) -/
def trap (H : Hier) (classes : List Cls) (e : Exn) : Option Cls := classes.find? fun c => H.sub e.cls c

/-- `checkKnownErrors` (`juice.py:223-228`).  `error in command.fatalErrors` looks a `Failure` up among exception
classes, so it is `False`. -/
def checkKnownErrors (H : Hier) (c : Cmd) (e : Exn) : Exn :=
  match trap H (Dict.keys c.allErrors) e with
  | none => e
  | some key =>
    { cls := H.remote, text := [], code := (Dict.get? c.allErrors key).getD [], desc := e.text, fatal := false }

/-- An attribute value: a responder with a `command` attribute, or any other callable. -/
inductive Attr where
  | command (m : Nat) (c : Cmd)
  | bare (m : Nat)

/-- What a responder does. -/
inductive Ran where
  | returned (objects : List (Str × Obj))
  | raised (e : Exn)

/-- What an old-style `juice_` method does. -/
inductive RanOld where
  | returned (box : Dict Str Val)
  | raised (e : Exn)

/-- The application object: attributes, and what the callables do. -/
structure App where
  attr : Str → Option Attr
  run : Nat → Dict Str Obj → Ran
  runOld : Nat → Box → RanOld

/-- Calls into the application. -/
inductive Call where
  | command (m : Nat) (kw : Dict Str Obj)
  | old (m : Nat) (box : Box)

/-- What the `Deferred` returned by `dispatchCommand` fires with. -/
inductive Out where
  | answer (box : Dict Str Val) (negotiates : Bool)
  | failed (e : Exn)

/-- The callbacks added in `doit` (`juice.py:229-231`): `makeResponse`, then `checkKnownErrors`. -/
def afterRun (U : Uni) (H : Hier) (c : Cmd) : Ran → Out
  | .raised e => .failed (checkKnownErrors H c e)
  | .returned objects =>
    match objectsToStrings U objects c.response with
    | .ok b => .answer b c.negotiates
    | .error e => .failed (checkKnownErrors H c (H.builtin e))

/-- `doit` (`juice.py:214-231`). -/
def doit (U : Uni) (H : Hier) (app : App) (m : Nat) (c : Cmd) (box : Box) : List Call × Out :=
  match stringsToObjects (textBox box) c.arguments with
  | .error e => ([], .failed (H.builtin e))
  | .ok kw =>
    let kw := c.extra.foldl (fun d p => Dict.set d p.1 p.2) kw
    ([.command m kw], afterRun U H c (app.run m kw))

/-- What `lookupFunction` can return. -/
inductive Fn where
  | auto (m : Nat) (c : Cmd)
  | old (m : Nat)

/-- `'command_'`, `'juice_'` (`juice.py:198-199`) -/
def autoDispatchPrefix : Str := "command_".toList.map Char.toNat
def baseDispatchPrefix : Str := "juice_".toList.map Char.toNat

/-- `_auto` (`juice.py:203-232`). -/
def auto (a : Attr) (ns : Option Str) : Except PyErr (Option Fn) :=
  match a with
  | .bare _ => .error .attributeError
  | .command m c => if ns ∈ c.namespaces then .ok (some (.auto m c)) else .ok none

/-- `normalizeCommand` (`juice.py:243-246`). -/
def normalizeCommand (U : Uni) (cmd : Str) : Str := replaceChar 45 95 (U.strip (U.upper cmd))

/-- `lookupFunction` (`juice.py:248-264`). -/
def lookupFunction (app : App) (name : Str) (ns : Option Str) : Except PyErr (Option Fn) :=
  match app.attr (autoDispatchPrefix ++ name) with
  | some a => auto a ns
  | none =>
    if ns ≠ none then .error .assertionError
    else match app.attr (baseDispatchPrefix ++ name) with
      | none => .ok none
      | some (.command m _) => .ok (some (.old m))
      | some (.bare m) => .ok (some (.old m))

/-- `dispatchCommand` (`juice.py:266-270`): the calls made, and the result; `.error` is an exception that escapes from it
instead of a `Deferred`. -/
def dispatchCommand (U : Uni) (H : Hier) (app : App) (cmd : Str) (box : Box) (ns : Option Str) :
    List Call × Except PyErr Out :=
  match lookupFunction app (normalizeCommand U cmd) ns with
  | .error e => ([], .error e)
  | .ok none => ([], .ok (.failed { cls := H.unhandledCommand, text := cmd }))
  | .ok (some (.auto m c)) => let r := doit U H app m c box; (r.1, .ok r.2)
  | .ok (some (.old m)) =>
    ([.old m box], .ok (match app.runOld m box with
      | .returned b => .answer b false
      | .raised e => .failed e))

/-- What the server does about a command. -/
inductive Reaction where
  /-- no answer was asked for -/
  | nothing
  /-- an answer is sent; with a `NegotiateBox` the protocol version is set to its `version` -/
  | answer (box : Dict Str Val) (negotiates : Bool)
  /-- an error is sent; `quit`: then the connection is dropped (`QuitBox.sendTo`) -/
  | error (box : Box) (quit : Bool)
  /-- `_puke`: the connection is dropped -/
  | puke
  /-- the exception reaches the caller of `dataReceived` -/
  | escapes (e : PyErr)

/-- `'UNHANDLED'` -/
def UNHANDLED : Str := "UNHANDLED".toList.map Char.toNat
/-- `"Unhandled Remote System Exception "` (`juice.py:367`) -/
def unhandledText : Str := "Unhandled Remote System Exception ".toList.map Char.toNat

/-- The box made by `sendError` (`juice.py:368-370`). -/
def errorBox (tag code desc : Str) : Box := [(ERROR, tag), (ERROR_DESCRIPTION, desc), (ERROR_CODE, code)]

/-- The command branch of `juiceBoxReceived` (`juice.py:343-377`).  `dispatchCommand` is called without a namespace. -/
def react (U : Uni) (H : Hier) (app : App) (box : Box) : List Call × Reaction :=
  let r := dispatchCommand U H app ((Dict.get? box COMMAND).getD []) box none
  (r.1, match r.2 with
    | .error e => .escapes e
    | .ok (.answer b n) =>
      match Dict.get? box ASK with
      | none => .nothing
      | some tag => .answer (Dict.set b ANSWER (.text tag)) n
    | .ok (.failed e) =>
      match Dict.get? box ASK with
      | none => .puke
      | some tag =>
        if H.sub e.cls H.remote then .error (errorBox tag e.code e.desc) e.fatal
        else .error (errorBox tag UNHANDLED unhandledText) true)

/-- `_massageError` (`juice.py:660-663`): the class the caller's `Deferred` fails with, and the argument it is made from. -/
def massageError (H : Hier) (c : Cmd) (code desc : Str) : Cls × Str :=
  ((Dict.get? c.reverseErrors code).getD H.unhandledRemote, desc)

/-- The name sent by `Command.do(proto, namespace)` (`juice.py:656-659`). -/
def sentName (commandName : Str) : Option Str → Str
  | none => commandName
  | some ns => ns ++ [58] ++ commandName

/-! ### `Negotiate` -/

/-- `'versions'`, `'version'` -/
def VERSIONS_ARG : Str := "versions".toList.map Char.toNat
def VERSION_ARG : Str := "version".toList.map Char.toNat

/-- `Negotiate` (`juice.py:716-722`). -/
def negotiateCmd (U : Uni) : Cmd where
  arguments := [(VERSIONS_ARG, listOf (integer U false) [44, 32])]
  response := [(VERSION_ARG, integer U false)]
  negotiates := true

/-- The loop of `command_NEGOTIATE` (`juice.py:937-942`) with `VERSIONS = V`; `none` is `raise IncompatibleVersions()`. -/
def negotiateLoop (V : List Int) : List Obj → Option Obj
  | [] => none
  | .int v :: r => if v ∈ V then some (.int v) else negotiateLoop V r
  | _ :: r => negotiateLoop V r

def commandNegotiate (H : Hier) (V : List Int) (kw : Dict Str Obj) : Ran :=
  match Dict.get? kw VERSIONS_ARG with
  | some (.list l) =>
    match negotiateLoop V l with
    | some v => .returned [(VERSION_ARG, v)]
    | none => .raised { cls := H.incompatible, text := [] }
  | _ => .raised (H.builtin .typeError)

/-- `NegotiateBox.sendTo` (`juice.py:146-149`): the version the server sets after sending `box`. -/
def versionOf (U : Uni) (box : Dict Str Val) : Option Int :=
  match Dict.get? box VERSION_ARG with
  | some (.text s) => U.int s
  | _ => none

end Verif.JuiceDispatch
