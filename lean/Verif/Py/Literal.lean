import Verif.Py.FloatText
/-!
# Python primitives: `repr` of plain data, and `ast.literal_eval`

From CPython 3.11: `unicode_repr`, `PyBytes_Repr`, `long_to_decimal_string`, `float_repr`, `tuplerepr`, `list_repr`, `dict_repr`;
`ast.literal_eval`, the tokenizer and the parser of string literals.

Data are trees: no list or dictionary contains itself.  Sets and complex numbers are left out.  The reader knows decimal numbers
without underscores, string and bytes literals with one quote and without prefix but `b`, displays, parentheses, and a minus in
front of a number; of other text (`0x10`, `1_000`, `'a' 'b'`, `r'x'`, `'''x'''`, `\N{…}`, `1+2j`, `set()`, `...`, `1,2`,
`-(5)`, line breaks, comments)
it is not the model.  `none` is an exception: `SyntaxError`, `ValueError`, or `TypeError` for a key that cannot be hashed.
-/
namespace Verif.Py.Literal
open Verif.Py

/-- Plain data. -/
inductive Val where
  | none
  | bool (b : Bool)
  | int (n : Int)
  | float (x : PyFloat)
  | str (s : List Nat)
  | bytes (s : List Nat)
  | tuple (l : List Val)
  | list (l : List Val)
  | dict (l : List (Val × Val))

/-! ## `repr` -/

/-- `n` in hexadecimal, lower case, `w` digits. -/
def hexPad : Nat → Nat → List Nat
  | 0, _ => []
  | w + 1, n => digitChar (n / 16 ^ w % 16) :: hexPad w n

/-- The quote: `'`, unless that occurs and `"` does not. -/
def quoteOf (s : List Nat) : Nat := if 39 ∈ s ∧ 34 ∉ s then 34 else 39

/-- A character of a string; which characters beyond ASCII `str.isprintable` accepts is a parameter. -/
def reprChar (printable : Nat → Bool) (q c : Nat) : List Nat :=
  if c = q ∨ c = 92 then [92, c]
  else if c = 9 then [92, 116]
  else if c = 10 then [92, 110]
  else if c = 13 then [92, 114]
  else if c < 32 ∨ c = 127 then [92, 120] ++ hexPad 2 c
  else if c < 127 ∨ printable c = true then [c]
  else if c < 256 then [92, 120] ++ hexPad 2 c
  else if c < 65536 then [92, 117] ++ hexPad 4 c
  else [92, 85] ++ hexPad 8 c

/-- `repr` of a string. -/
def reprStr (printable : Nat → Bool) (s : List Nat) : List Nat :=
  quoteOf s :: s.flatMap (reprChar printable (quoteOf s)) ++ [quoteOf s]

/-- A byte of a bytes object. -/
def reprByte (q c : Nat) : List Nat :=
  if c = q ∨ c = 92 then [92, c]
  else if c = 9 then [92, 116]
  else if c = 10 then [92, 110]
  else if c = 13 then [92, 114]
  else if c < 32 ∨ 127 ≤ c then [92, 120] ++ hexPad 2 c
  else [c]

/-- `repr` of a bytes object. -/
def reprBytes (s : List Nat) : List Nat := 98 :: quoteOf s :: s.flatMap (reprByte (quoteOf s)) ++ [quoteOf s]

def sNone : List Nat := [78, 111, 110, 101]
def sTrue : List Nat := [84, 114, 117, 101]
def sFalse : List Nat := [70, 97, 108, 115, 101]

mutual
/-- `repr` -/
def repr (printable : Nat → Bool) : Val → List Nat
  | .none => sNone
  | .bool b => if b then sTrue else sFalse
  | .int n => intStr n
  | .float x => floatStr x
  | .str s => reprStr printable s
  | .bytes s => reprBytes s
  | .tuple l => 40 :: reprItems printable l ++ (if l.length = 1 then [44, 41] else [41])
  | .list l => 91 :: reprItems printable l ++ [93]
  | .dict l => 123 :: reprPairs printable l ++ [125]

/-- The items, with `, ` between them. -/
def reprItems (printable : Nat → Bool) : List Val → List Nat
  | [] => []
  | v :: l => repr printable v ++ (if l.isEmpty then [] else [44, 32]) ++ reprItems printable l

/-- The items of a dictionary. -/
def reprPairs (printable : Nat → Bool) : List (Val × Val) → List Nat
  | [] => []
  | kv :: l => reprPair printable kv ++ (if l.isEmpty then [] else [44, 32]) ++ reprPairs printable l

def reprPair (printable : Nat → Bool) : Val × Val → List Nat
  | (k, v) => repr printable k ++ [58, 32] ++ repr printable v
end

/-! ## String literals -/

/-- The value of a hexadecimal digit. -/
def hexVal (c : Nat) : Option Nat :=
  if isDigit c then some (c - 48)
  else if 97 ≤ c ∧ c ≤ 102 then some (c - 87)
  else if 65 ≤ c ∧ c ≤ 70 then some (c - 55)
  else none

/-- Exactly `w` hexadecimal digits. -/
def hexRead : Nat → Nat → List Nat → Option Nat
  | 0, a, _ => some a
  | _ + 1, _, [] => none
  | w + 1, a, c :: s =>
    match hexVal c with
    | none => none
    | some d => hexRead w (a * 16 + d) s

def isOctal (c : Nat) : Bool := 48 ≤ c && c ≤ 55

/-- An escape, without its backslash: what it means and how many characters it has. -/
def escape (isBytes : Bool) : List Nat → Option (List Nat × Nat)
  | [] => none
  | c :: s =>
    if c = 10 then some ([], 1)
    else if c = 92 ∨ c = 39 ∨ c = 34 then some ([c], 1)
    else if c = 97 then some ([7], 1)
    else if c = 98 then some ([8], 1)
    else if c = 102 then some ([12], 1)
    else if c = 110 then some ([10], 1)
    else if c = 114 then some ([13], 1)
    else if c = 116 then some ([9], 1)
    else if c = 118 then some ([11], 1)
    else if c = 120 then (hexRead 2 0 s).map fun n => ([n], 3)
    else if c = 117 ∧ isBytes = false then (hexRead 4 0 s).map fun n => ([n], 5)
    else if c = 85 ∧ isBytes = false then
      match hexRead 8 0 s with
      | none => none
      | some n => if n < 1114112 then some ([n], 9) else none
    else if c = 78 ∧ isBytes = false then none
    else if isOctal c then
      let d := ((c :: s).take 3).takeWhile isOctal
      let n := ofDigits 8 (d.map (· - 48))
      some ([if isBytes then n % 256 else n], d.length)
    else some ([92, c], 1)

/-- The inside of a literal up to its closing quote, and what is after it; `skip` characters have been read already. -/
def readChars (isBytes : Bool) (q : Nat) : Nat → List Nat → Option (List Nat × List Nat)
  | _, [] => none
  | skip + 1, _ :: s => readChars isBytes q skip s
  | 0, c :: s =>
    if c = q then some ([], s)
    else if c = 10 ∨ c = 13 ∨ c = 0 then none
    else if isBytes = true ∧ 128 ≤ c then none
    else if c = 92 then
      match escape isBytes s with
      | none => none
      | some r => (readChars isBytes q r.2 s).map fun x => (r.1 ++ x.1, x.2)
    else (readChars isBytes q 0 s).map fun x => (c :: x.1, x.2)

/-! ## `ast.literal_eval` -/

mutual
/-- Whether `hash` works. -/
def hashable : Val → Bool
  | .tuple l => hashables l
  | .list _ => false
  | .dict _ => false
  | _ => true

def hashables : List Val → Bool
  | [] => true
  | v :: l => hashable v && hashables l
end

/-- The number that a value is, if it is one that can be compared. -/
def numOf : Val → Option Rat
  | .bool b => some (if b then 1 else 0)
  | .int n => some n
  | .float (.fin neg q) => some (if neg then -q else q)
  | _ => .none

mutual
/-- `==`, as far as keys need it: `1`, `1.0` and `True` are the same key. -/
def keyEq : Val → Val → Bool
  | .none, .none => true
  | .str s, .str t => s == t
  | .bytes s, .bytes t => s == t
  | .tuple l, .tuple m => keyEqs l m
  | .float (.inf a), .float (.inf b) => a == b
  | v, w =>
    match numOf v, numOf w with
    | some x, some y => x == y
    | _, _ => false

def keyEqs : List Val → List Val → Bool
  | [], [] => true
  | v :: l, w :: m => keyEq v w && keyEqs l m
  | _, _ => false
end

/-- `d[k] = v`: an equal key stays as it is. -/
def put (k v : Val) : List (Val × Val) → List (Val × Val)
  | [] => [(k, v)]
  | kv :: d => if keyEq kv.1 k then (kv.1, v) :: d else kv :: put k v d

/-- `dict(zip(keys, values))` -/
def build : List (Val × Val) → List (Val × Val) → Option (List (Val × Val))
  | [], d => some d
  | kv :: l, d => if hashable kv.1 then build l (put kv.1 kv.2 d) else none

/-- White space between tokens; newlines count only inside brackets, so they are left out. -/
def skipSpace (s : List Nat) : List Nat := s.dropWhile fun c => c == 32 || c == 9 || c == 12

/-- A number or a word ends before these. -/
def isDelim (c : Nat) : Bool := c == 44 || c == 41 || c == 93 || c == 125 || c == 58 || c == 32 || c == 9 || c == 12

/-- A number without sign; other words are `none`. -/
def numberOf (t : List Nat) : Option Val :=
  match t with
  | [] => none
  | c :: _ =>
    if t.all isDigit then (if c = 48 ∧ t.all (· == 48) = false then none else some (.int (digitsVal t)))
    else if (isDigit c || c == 46) && t.any (fun d => d == 46 || d == 101 || d == 69) then (asciiFloat t).map Val.float
    else none

/-- `-` of a number. -/
def negate : Val → Option Val
  | .int n => some (.int (-n))
  | .float (.fin neg q) => some (.float (.fin (!neg) q))
  | .float (.inf neg) => some (.float (.inf (!neg)))
  | _ => .none

/-- A word: one of three constants, or a number. -/
def wordOf (t : List Nat) : Option Val :=
  if t = sNone then some .none
  else if t = sTrue then some (.bool true)
  else if t = sFalse then some (.bool false)
  else numberOf t

/-- A word at the beginning of the text. -/
def readWord (f : List Nat → Option Val) (s : List Nat) : Option (Val × List Nat) :=
  (f (s.takeWhile fun c => !isDelim c)).map fun v => (v, s.dropWhile fun c => !isDelim c)

/-- `MAXLEVEL` of the tokenizer. -/
def maxLevel : Nat := 200

/-- What a pair of parentheses means: a tuple, if it is empty or has a comma. -/
def parens (r : List Val × Bool) : Val :=
  match r with
  | ([v], false) => v
  | (l, _) => .tuple l

mutual
/-- An expression at the beginning of the text, inside `level` brackets. -/
def readVal : Nat → Nat → List Nat → Option (Val × List Nat)
  | 0, _, _ => none
  | fuel + 1, level, s =>
    match skipSpace s with
    | [] => none
    | c :: t =>
      if c = 40 then
        if maxLevel ≤ level then none
        else (readItems fuel (level + 1) 41 t).map fun r => (parens (r.1, r.2.1), r.2.2)
      else if c = 91 then
        if maxLevel ≤ level then none
        else (readItems fuel (level + 1) 93 t).map fun r => (Val.list r.1, r.2.2)
      else if c = 123 then
        if maxLevel ≤ level then none
        else
          match readPairs fuel (level + 1) t with
          | none => none
          | some r => (build r.1 []).map fun d => (Val.dict d, r.2)
      else if c = 39 ∨ c = 34 then (readChars false c 0 t).map fun r => (Val.str r.1, r.2)
      else if c = 98 ∧ (t.head? = some 39 ∨ t.head? = some 34) then
        (readChars true (t.headD 0) 0 t.tail).map fun r => (Val.bytes r.1, r.2)
      else if c = 45 then readWord (fun w => (numberOf w).bind negate) (skipSpace t)
      else readWord wordOf (c :: t)

/-- Expressions with commas between them up to a closing bracket; whether there was a comma after the last. -/
def readItems : Nat → Nat → Nat → List Nat → Option (List Val × Bool × List Nat)
  | 0, _, _, _ => none
  | fuel + 1, level, close, s =>
    if (skipSpace s).head? = some close then some ([], true, (skipSpace s).tail)
    else
      match readVal fuel level s with
      | none => none
      | some (v, r) =>
        match skipSpace r with
        | [] => none
        | c :: t =>
          if c = close then some ([v], false, t)
          else if c = 44 then (readItems fuel level close t).map fun x => (v :: x.1, x.2.1, x.2.2)
          else none

/-- Pairs with colons, with commas between them, up to `}`. -/
def readPairs : Nat → Nat → List Nat → Option (List (Val × Val) × List Nat)
  | 0, _, _ => none
  | fuel + 1, level, s =>
    if (skipSpace s).head? = some 125 then some ([], (skipSpace s).tail)
    else
      match readVal fuel level s with
      | none => none
      | some (k, r) =>
        match skipSpace r with
        | [] => none
        | c :: t =>
          if c = 58 then
            match readVal fuel level t with
            | none => none
            | some (v, r) =>
              match skipSpace r with
              | [] => none
              | c :: t =>
                if c = 125 then some ([(k, v)], t)
                else if c = 44 then (readPairs fuel level t).map fun x => ((k, v) :: x.1, x.2)
                else none
          else none
end

/-- `ast.literal_eval` of a text. -/
def literalEval (s : List Nat) : Option Val :=
  match readVal (s.length + 1) 0 s with
  | some (v, r) => if skipSpace r = [] then some v else none
  | none => none

end Verif.Py.Literal
