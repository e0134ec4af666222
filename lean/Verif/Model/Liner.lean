import Verif.Py.Core
/-!
# Model of `epsilon/liner.py`

`LineReceiver` with an arbitrary delimiter and an arbitrary application: a subclass whose `lineReceived` may change its state,
call `setRawMode()` and lose the connection, and whose `rawDataReceived` reads byte by byte and may hand everything behind a
byte back with `setLineMode(extra)`.  Simplifications: the application does not raise, does not change the delimiter and does not
call `dataReceived` or `setLineMode` from `lineReceived`.  `MAX_LINE_LENGTH` (`liner.py:9`) is used nowhere.
-/
namespace Verif.Liner
open Verif.Py

abbrev Bytes := List Nat

/-- The application. -/
structure App (A : Type) where
  /-- `lineReceived`: new state, does it call `setRawMode()`, does it call `transport.loseConnection()` -/
  line : A → Bytes → A × Bool × Bool
  /-- what `rawDataReceived` does with one byte: new state, does it end the raw data -/
  raw : A → Nat → A × Bool

inductive Event where
  | line (l : Bytes)
  | raw (b : Nat)
  deriving DecidableEq, Repr

/-- The attributes (`liner.py:8-11`), the transport's `disconnecting`, and what the application has been given. -/
structure St (A : Type) where
  lineMode : Bool
  buffer : Bytes
  disconnecting : Bool
  app : A
  trace : List Event

def St.init {A : Type} (a : A) : St A := ⟨true, [], false, a, []⟩

/-- `s.find(delimiter)`: what comes before the first occurrence, and what comes after it. -/
def find (delim : Bytes) : Bytes → Option (Bytes × Bytes)
  | [] => if delim.isPrefixOf [] then some ([], []) else none
  | c :: r =>
    if delim.isPrefixOf (c :: r) then some ([], (c :: r).drop delim.length)
    else (find delim r).map fun (a, b) => (c :: a, b)

variable {A : Type} (P : App A) (delim : Bytes)

/-- Calling the subclass's `lineReceived` (`liner.py:13`), with `setRawMode` (`33-34`). -/
def lineReceived (st : St A) (l : Bytes) : St A :=
  let (a, raw, lose) := P.line st.app l
  { st with app := a, trace := st.trace ++ [.line l], lineMode := !raw, disconnecting := lose }

/-- Calling the subclass's `rawDataReceived` (`liner.py:16`); gives the argument of `setLineMode`, if it calls it. -/
def rawData (st : St A) : Bytes → St A × Option Bytes
  | [] => (st, none)
  | b :: r =>
    let (a, done) := P.raw st.app b
    let st := { st with app := a, trace := st.trace ++ [.raw b] }
    if done then (st, some r) else rawData st r

/-- The `while self.lineMode` loop (`liner.py:42-54`); `buf` is `buffer[begin:]`.  `none` is the `return` in it, otherwise what is
left.  Each iteration takes at least the delimiter off `buf`, so `n = len(buf)` rounds suffice unless the delimiter is empty. -/
def loop : Nat → St A → Bytes → St A × Option Bytes
  | 0, st, buf => (st, some buf)
  | n + 1, st, buf =>
    if st.lineMode then
      match find delim buf with
      | none => (st, some buf)
      | some (l, rest) =>
        let st := lineReceived P st l
        if st.disconnecting then ({ st with buffer := [] }, none) else loop n st rest
    else (st, some buf)

/-- `dataReceived` (`liner.py:36-63`), with `setLineMode` (`19-22`), which calls it again for what the raw mode left. -/
def dataReceivedGo : Nat → St A → Bytes → St A
  | 0, st, _ => st
  | n + 1, st, data =>
    let buf := st.buffer ++ data
    match loop P delim buf.length st buf with
    | (st, none) => st
    | (st, some rest) =>
      if st.lineMode then { st with buffer := rest }
      else
        let st := { st with buffer := [] }
        if st.disconnecting then st
        else if rest = [] then st
        else match rawData P st rest with
          | (st, none) => st
          | (st, some extra) =>
            let st := { st with lineMode := true }
            if extra = [] then st else dataReceivedGo n st extra

/-- Every call by `setLineMode` has less to read. -/
def dataReceived (st : St A) (data : Bytes) : St A := dataReceivedGo P delim (st.buffer ++ data).length.succ st data

/-- The connection: once `loseConnection()` has been called Twisted stops reading. -/
def feed (st : St A) (chunks : List Bytes) : St A :=
  chunks.foldl (fun st data => if st.disconnecting then st else dataReceived P delim st data) st

end Verif.Liner
