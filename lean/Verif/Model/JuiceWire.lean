import Verif.Py.Text
import Verif.Py.Utf8
/-!
# Model of the juice wire format and parser (`epsilon/liner.py`, `epsilon/juice.py`)

Bytes are lists of numbers, text is a list of code points.  A box maps text to text (values that are
already `bytes` are covered in `JuiceArgs`).  Python 3 semantics.  The application is the arbitrary handler
`H` called for each box; it may keep state, disconnect, switch protocols, or raise.
-/
namespace Verif.Juice
open Verif.Py

abbrev Str := List Nat
abbrev Bytes := List Nat
abbrev Box := Dict Str Str

/-- `LENGTH = '_length'` (`juice.py:26`) -/
def LENGTH : Str := [95, 108, 101, 110, 103, 116, 104]
/-- `BODY = 'body'` (`juice.py:27`) -/
def BODY : Str := [98, 111, 100, 121]
/-- `delimiter = b'\r\n'` (`liner.py:11`, `juice.py:58`) -/
def CRLF : Bytes := [13, 10]

/-- Python 3.7's `keyword.kwlist`, the lower-case ones (the argument of `iskeyword` is lower-cased). -/
def keywords : List Str :=
  ["and", "as", "assert", "async", "await", "break", "class", "continue", "def", "del", "elif", "else",
   "except", "finally", "for", "from", "global", "if", "import", "in", "is", "lambda", "nonlocal", "not",
   "or", "pass", "raise", "return", "try", "while", "with", "yield"].map fun s => s.toList.map Char.toNat

/-- `s.replace(c, d)` for single characters. -/
def replaceChar (c d : Nat) (s : List Nat) : List Nat := s.map fun x => if x = c then d else x

/-- `normalizeKey` (`juice.py:272-276`) on text (`six.ensure_str` is the identity there). -/
def normalizeKey (U : Uni) (key : Str) : Str :=
  let lkey := replaceChar 45 95 (U.lower key)
  if lkey ∈ keywords then asciiTitle lkey else lkey

/-- `s.replace(b'\r\n', b'\r\n ')` (`juice.py:71`). -/
def escape : Bytes → Bytes
  | [] => []
  | 13 :: 10 :: r => 13 :: 10 :: 32 :: escape r
  | c :: r => c :: escape r

/-- `six.ensure_binary(s)` for text. -/
def ensureBinary (s : Str) : Except PyErr Bytes :=
  match utf8Encode s with
  | some b => .ok b
  | none => .error .unicodeError

/-- `six.ensure_str(b)` for bytes (Python 3). -/
def ensureStr (b : Bytes) : Except PyErr Str :=
  match utf8Decode b with
  | some s => .ok s
  | none => .error .unicodeError

/-- The header part of one item (`juice.py:65-72`). -/
def serializeItem (box : Box) (k v : Str) : Except PyErr Bytes := do
  let (k, v) := if k = BODY then (LENGTH, natStr ((Dict.get? box BODY).getD []).length) else (k, v)
  let kb ← ensureBinary k
  let vb ← ensureBinary v
  return asciiTitle (replaceChar 95 45 kb) ++ [58, 32] ++ escape vb ++ CRLF

/-- The loop over the items (`juice.py:65-72`). -/
def serializeItems (box : Box) : List (Str × Str) → Except PyErr Bytes
  | [] => .ok []
  | (k, v) :: r => do
    let a ← serializeItem box k v
    let b ← serializeItems box r
    return a ++ b

/-- `JuiceBox.serialize` (`juice.py:57-77`) with the default delimiter. -/
def serialize (box : Box) : Except PyErr Bytes :=
  if Dict.has box LENGTH then .error .assertionError
  else do
    let h ← serializeItems box box
    match Dict.get? box BODY with
    | some b => do
      let bb ← ensureBinary b
      return h ++ CRLF ++ bb
    | none => return h ++ CRLF

/-- `L.split(b': ', 1)` when it yields two parts (`juice.py:294`). -/
def splitColon : Bytes → Option (Bytes × Bytes)
  | [] => none
  | 58 :: 32 :: r => some ([], r)
  | c :: r => (splitColon r).map fun (a, b) => (c :: a, b)

/-- One iteration of `parseJuiceHeaders` (`juice.py:288-299`): the current key and the box so far. -/
def headerLine (U : Uni) (st : Option Str × Box) (L : Bytes) : Except PyErr (Option Str × Box) :=
  match L with
  | 32 :: rest =>
    match st.1 with
    | none => .error .assertionError
    | some key => do
      let more ← ensureStr (CRLF ++ rest)
      return (some key, Dict.set st.2 key ((Dict.get? st.2 key).getD [] ++ more))
  | _ =>
    match splitColon L with
    | none => .error (.other "MalformedJuiceBox")
    | some (k, v) => do
      let k ← ensureStr k
      let key := normalizeKey U k
      let value ← ensureStr v
      return (some key, Dict.set st.2 key value)

def headerLines (U : Uni) : Option Str × Box → List Bytes → Except PyErr (Option Str × Box)
  | st, [] => .ok st
  | st, L :: ls => do
    let st ← headerLine U st L
    headerLines U st ls

/-- `parseJuiceHeaders` (`juice.py:279-300`). -/
def parseJuiceHeaders (U : Uni) (lines : List Bytes) : Except PyErr (Int × Box) := do
  let (_, b) ← headerLines U (none, []) lines
  match Dict.get? b LENGTH with
  | none => return (0, b)
  | some s =>
    match U.int s with
    | none => .error .valueError
    | some n => return (n, Dict.erase b LENGTH)

/-! ## The protocol object -/

/-- What the outside world sees.  Data given to the inner protocol is recorded byte by byte, that is, up to
how it is cut into calls. -/
inductive Event where
  | box (b : Box)
  /-- `innerProtocol.makeConnection` -/
  | connect
  /-- `innerProtocol.dataReceived` -/
  | inner (byte : Nat)
  deriving DecidableEq, Repr

/-- What an application does on receiving a box (everything `juiceBoxReceived` may do to the parser). -/
structure Outcome (A : Type) where
  app : A
  /-- called `transport.loseConnection()` -/
  disconnect : Bool
  /-- called `_switchTo` -/
  switch : Bool
  /-- raised -/
  err : Option PyErr

/-- Parser state of a `Juice` connection.  `bodyBuf` is the concatenation of the list `_bodyBuffer` (it is
only ever joined); `pending` is `_pendingBox`. -/
structure St (A : Type) where
  lineMode : Bool
  buffer : Bytes
  reqBuf : List Bytes
  bodyRemaining : Int
  bodyBuf : Bytes
  pending : Box
  /-- `innerProtocol is not None` -/
  inner : Bool
  /-- `transport.disconnecting` -/
  disconnecting : Bool
  app : A
  trace : List Event

/-- A fresh connection (`juice.py:834-836`, class attributes of `liner.LineReceiver`). -/
def St.init {A : Type} (a : A) : St A := ⟨true, [], [], 0, [], [], false, false, a, []⟩

variable {A : Type} (U : Uni) (H : A → Box → Outcome A)

/-- Calling the application's `juiceBoxReceived(box)`.  `_switchTo` (`juice.py:784-794`) sets raw mode and
connects the inner protocol. -/
def handle (st : St A) (box : Box) : St A × Option PyErr :=
  let o := H st.app box
  let st := { st with app := o.app, trace := st.trace ++ [.box box],
                      disconnecting := st.disconnecting || o.disconnect }
  let st := if o.switch then { st with lineMode := false, inner := true, trace := st.trace ++ [.connect] } else st
  (st, o.err)

/-- `Juice.lineReceived` (`juice.py:880-893`). -/
def lineReceived (st : St A) (line : Bytes) : St A × Option PyErr :=
  if line ≠ [] then ({ st with reqBuf := st.reqBuf ++ [line] }, none)
  else
    let buf := st.reqBuf
    let st := { st with reqBuf := [] }
    match parseJuiceHeaders U buf with
    | .error e => (st, some e)
    | .ok (bodylen, b) =>
      if bodylen ≠ 0 then
        ({ st with bodyRemaining := bodylen, bodyBuf := [], pending := b, lineMode := false }, none)
      else handle H st b

/-- `buffer.find(delimiter, begin)`: the next line and what follows its delimiter. -/
def findDelim : Bytes → Option (Bytes × Bytes)
  | [] => none
  | 13 :: 10 :: r => some ([], r)
  | c :: r => (findDelim r).map fun (a, b) => (c :: a, b)

theorem findDelim_length : ∀ {s l r : Bytes}, findDelim s = some (l, r) → r.length + 2 ≤ s.length
  | [], _, _, h => by simp [findDelim] at h
  | [c], _, _, h => by simp [findDelim] at h
  | c :: d :: s, l, r, h => by
    unfold findDelim at h
    split at h
    · cases h
    · rename_i heq
      cases heq; cases h; simp
    · rename_i heq
      cases heq
      cases hf : findDelim (d :: s) with
      | none => rw [hf] at h; cases h
      | some p =>
        obtain ⟨a, b⟩ := p
        rw [hf] at h
        simp only [Option.map_some, Option.some.injEq, Prod.mk.injEq] at h
        obtain ⟨-, rfl⟩ := h
        have := findDelim_length hf
        simp only [List.length_cons] at this ⊢; omega

/-- How the `while` loop of `dataReceived` ended. -/
inductive Ended where
  | more | raw | disconnecting
  | err (e : PyErr)
  deriving DecidableEq

/-- The `while self.lineMode` loop (`liner.py:42-52`); `buf` is `buffer[begin:]`. -/
def lineLoop (st : St A) (buf : Bytes) : St A × Bytes × Ended :=
  if st.lineMode then
    match h : findDelim buf with
    | none => (st, buf, .more)
    | some (line, rest) =>
      match lineReceived U H st line with
      | (st, some e) => (st, rest, .err e)
      | (st, none) =>
        if st.disconnecting then (st, rest, .disconnecting)
        else
          have := findDelim_length h
          lineLoop st rest
  else (st, buf, .raw)
termination_by buf.length
decreasing_by all_goals omega

theorem lineLoop_length (st : St A) (buf : Bytes) (st' : St A) (rest : Bytes) (e : Ended)
    (h : lineLoop U H st buf = (st', rest, e)) :
    rest.length ≤ buf.length ∧ (st.lineMode = true → e = .raw → rest.length + 2 ≤ buf.length) := by
  induction hn : buf.length using Nat.strongRecOn generalizing st buf with
  | ind n ih =>
    subst hn
    rw [lineLoop] at h
    by_cases hl : st.lineMode = true
    · rw [if_pos hl] at h
      split at h
      · cases h; exact ⟨Nat.le_refl _, fun _ x => by cases x⟩
      · rename_i line rest' hf
        have hlen := findDelim_length hf
        split at h
        · cases h; exact ⟨by omega, fun _ x => by cases x⟩
        · split at h
          · cases h; exact ⟨by omega, fun _ x => by cases x⟩
          · have := ih rest'.length (by omega) _ rest' h rfl
            exact ⟨by omega, fun _ _ => by omega⟩
    · rw [if_neg hl] at h
      cases h; exact ⟨Nat.le_refl _, fun x => absurd x hl⟩

/-- The arithmetic of `rawDataReceived` (`juice.py:899-906`): the new `_bodyRemaining`, the part of `data`
that goes to the body, and `extraData` — with Python's negative slicing. -/
def bodySplit (remaining : Int) (data : Bytes) : Int × Bytes × Bytes :=
  let remaining := remaining - data.length
  if remaining < 0 then
    let cut := data.length - (min (-remaining).toNat data.length)
    (remaining, data.take cut, data.drop cut)
  else (remaining, data, [])

theorem bodySplit_length (r : Int) (data : Bytes) : (bodySplit r data).2.2.length ≤ data.length := by
  unfold bodySplit
  simp only
  split <;> simp

mutual
/-- `LineReceiver.dataReceived` (`liner.py:36-63`; `Juice.dataReceived` only clears `_justStartedTLS`). -/
def dataReceived (st : St A) (data : Bytes) : St A × Option PyErr :=
  match h : lineLoop U H st (st.buffer ++ data) with
  | (st', _, .err e) => (st', some e)
  | (st', _, .disconnecting) => ({ st' with buffer := [] }, none)
  | (st', rest, .more) => ({ st' with buffer := rest }, none)
  | (st', rest, .raw) =>
    let st' := { st' with buffer := [] }
    if st'.disconnecting then (st', none)
    else if rest = [] then (st', none)
    else rawDataReceived st' rest
termination_by 2 * (st.buffer ++ data).length + (if st.lineMode then 0 else 2)
decreasing_by
  have := lineLoop_length U H st (st.buffer ++ data) _ _ _ h
  cases hl : st.lineMode <;> simp_all <;> omega

/-- `Juice.rawDataReceived` (`juice.py:895-918`), with `setLineMode` (`liner.py:19-22`).  Simplification: once
the body is complete the (zero or negative) `_bodyRemaining` is stored as `0`; the code never reads it again
before `lineReceived` assigns it. -/
def rawDataReceived (st : St A) (data : Bytes) : St A × Option PyErr :=
  if st.inner then ({ st with trace := st.trace ++ data.map .inner }, none)
  else
    let p := bodySplit st.bodyRemaining data
    have hp := bodySplit_length st.bodyRemaining data
    let st := { st with bodyRemaining := max p.1 0, bodyBuf := st.bodyBuf ++ p.2.1 }
    if p.1 ≤ 0 then
      match ensureStr st.bodyBuf with
      | .error e => (st, some e)
      | .ok text =>
        let b := Dict.set st.pending BODY text
        let st := { st with bodyBuf := [], pending := [] }
        match handle H st b with
        | (st, some e) => (st, some e)
        | (st, none) =>
          if st.inner then
            let st := { st with trace := st.trace ++ [.connect] }
            if p.2.2 = [] then (st, none)
            else ({ st with trace := st.trace ++ p.2.2.map .inner }, none)
          else
            if p.2.2 = [] then ({ st with lineMode := true }, none)
            else dataReceived { st with lineMode := true, buffer := [] } p.2.2
    else (st, none)
termination_by 2 * data.length + 1
decreasing_by
  simp; omega
end

/-- Deliver a sequence of chunks; the transport stops delivering once an exception escaped or the
connection is being closed. -/
def feed (st : St A) : List Bytes → St A × Option PyErr
  | [] => (st, none)
  | c :: cs =>
    match dataReceived U H st c with
    | (st, some e) => (st, some e)
    | (st, none) => if st.disconnecting then (st, none) else feed st cs

end Verif.Juice
