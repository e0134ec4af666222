import Verif.Model.Liner
/-!
# Model of `epsilon/liner.py` with arbitrary subclasses

The subclass's code is arbitrary: whoever runs the machine decides what it does inside the calls it gets, and how it returns.  The
machine has an explicit stack of the calls that are going on.  An exception of a call leaves the `dataReceived` that made it; what
becomes of it there is up to the code below.
-/
namespace Verif.Liner.Reentry
open Verif.Py

/-- What is seen, in order. -/
inductive Ev where
  /-- `dataReceived` was called -/
  | data (d : Bytes)
  /-- `lineReceived` was called; the delimiter in force -/
  | line (l delim : Bytes)
  /-- `rawDataReceived` was called -/
  | raw (b : Bytes)
  deriving DecidableEq, Repr

/-- A call going on: `lineReceived`, with the delimiter and the rest of the local buffer of the `dataReceived` that made it; or
`rawDataReceived`, the last thing `dataReceived` does. -/
inductive Frame where
  | line (delim rest : Bytes)
  | raw
  deriving DecidableEq, Repr

/-- The attributes (`liner.py:8-11`); of the transport, if there is one, whether it is disconnecting. -/
structure St where
  lineMode : Bool := true
  buffer : Bytes := []
  delimiter : Bytes := [13, 10]
  transport : Option Bool := some false
  stack : List Frame := []
  log : List Ev := []
  deriving DecidableEq, Repr

def St.say (s : St) (e : Ev) : St := { s with log := s.log ++ [e] }

/-- `isDisconnecting` (`liner.py:24-31`). -/
def isDisconnecting (s : St) : Bool :=
  match s.transport with
  | none => false
  | some d => d

/-- One turn of the loop of `dataReceived`, or what comes after it (`liner.py:42-63`); `buf` is `buffer[begin:]`. -/
def scan (s : St) (delim buf : Bytes) : St :=
  if s.lineMode then
    match find delim buf with
    | none => { s with buffer := buf }
    | some (l, rest) => St.say { s with stack := .line delim rest :: s.stack } (.line l delim)
  else
    let s := { s with buffer := [] }
    if isDisconnecting s then s
    else if buf = [] then s
    else St.say { s with stack := .raw :: s.stack } (.raw buf)

/-- `dataReceived` as far as the first call it makes (`liner.py:36-41`). -/
def dataReceived (s : St) (data : Bytes) : St := scan (s.say (.data data)) s.delimiter (s.buffer ++ data)

/-- What code can do: the transport's, with nothing on the stack, or the subclass's. -/
inductive Op where
  | data (d : Bytes)
  | setLineMode (extra : Bytes)
  | setRawMode
  /-- `self.transport.loseConnection()` -/
  | lose
  /-- `self.delimiter = d` -/
  | delimiter (d : Bytes)
  deriving DecidableEq, Repr

/-- `setLineMode` (`liner.py:19-22`), `setRawMode` (`33-34`). -/
def perform (s : St) : Op → St
  | .data d => dataReceived s d
  | .setLineMode extra =>
    let s := { s with lineMode := true }
    if extra = [] then s else dataReceived s extra
  | .setRawMode => { s with lineMode := false }
  | .lose => { s with transport := s.transport.map fun _ => true }
  | .delimiter d => { s with delimiter := d }

/-- What can happen: running code does something, a call returns, a call raises. -/
inductive Input where
  | op (o : Op)
  | ret
  | raise
  deriving DecidableEq, Repr

/-- One step; what is not possible changes nothing.  After `lineReceived` (`liner.py:48-52`). -/
def step (s : St) : Input → St
  | .op o => perform s o
  | .ret =>
    match s.stack with
    | .line delim rest :: below =>
      let s := { s with stack := below }
      if isDisconnecting s then { s with buffer := [] } else scan s delim rest
    | .raw :: below => { s with stack := below }
    | [] => s
  | .raise => { s with stack := s.stack.tail }

def exec (s : St) (is : List Input) : St := is.foldl step s

end Verif.Liner.Reentry
