import Verif.Py.Core
/-!
# Python primitives: string searching and comparison

Algorithms of `str`/`bytes` methods (CPython `Objects/unicodeobject.c`, `stringlib`), generic in the
element type.  Only the result matters, so the fast search is replaced by a left-to-right scan.
-/
namespace Verif.Py
variable {α : Type} [DecidableEq α]

/-- `ADJUST_INDICES(start, end, len)`: defaults, negative indices, clamping.  (`start` may stay beyond the
length, as in CPython.) -/
def adjustIndices (n : Nat) (start stop : Option Int) : Nat × Nat :=
  let a : Int := match start with
    | none => 0
    | some x => if x < 0 then max (x + n) 0 else x
  let b : Int := match stop with
    | none => n
    | some x => if x > n then n else if x < 0 then max (x + n) 0 else x
  (a.toNat, b.toNat)

/-- Does `sub` occur in `s` at position `i`? -/
def matchAt (s sub : List α) (i : Nat) : Bool := (s.drop i).take sub.length == sub

/-- Scan `k` candidate positions upwards from `i`. -/
def scanUp (s sub : List α) : Nat → Nat → Int
  | 0, _ => -1
  | k + 1, i => if matchAt s sub i then i else scanUp s sub k (i + 1)

/-- Scan the `k` candidate positions `i+k-1, …, i` downwards. -/
def scanDown (s sub : List α) : Nat → Nat → Int
  | 0, _ => -1
  | k + 1, i => if matchAt s sub (i + k) then ((i + k : Nat) : Int) else scanDown s sub k i

/-- Number of candidate positions for `sub` inside `[a, b)`. -/
def candidates (m a b : Nat) : Nat := if a + m ≤ b then b - a - m + 1 else 0

/-- `s.find(sub, start, stop)` -/
def strFind (s sub : List α) (start stop : Option Int) : Int :=
  let (a, b) := adjustIndices s.length start stop
  scanUp s sub (candidates sub.length a b) a

/-- `s.rfind(sub, start, stop)` -/
def strRFind (s sub : List α) (start stop : Option Int) : Int :=
  let (a, b) := adjustIndices s.length start stop
  scanDown s sub (candidates sub.length a b) a

/-- `s.index(sub, …)`: `find`, with `ValueError` instead of `-1`. -/
def strIndex (s sub : List α) (start stop : Option Int) : Except PyErr Int :=
  let r := strFind s sub start stop
  if r = -1 then .error .valueError else .ok r

/-- `s.rindex(sub, …)` -/
def strRIndex (s sub : List α) (start stop : Option Int) : Except PyErr Int :=
  let r := strRFind s sub start stop
  if r = -1 then .error .valueError else .ok r

/-- `sub in s` -/
def strContains (s sub : List α) : Bool := strFind s sub none none != -1

/-- Greedy count over `k` remaining candidate positions starting at `i`, after a match skipping `skip`
candidates. -/
def scanCount (s sub : List α) : Nat → Nat → Nat → Nat
  | 0, _, _ => 0
  | k + 1, skip + 1, i => scanCount s sub k skip (i + 1)
  | k + 1, 0, i =>
    if matchAt s sub i then 1 + scanCount s sub k (sub.length - 1) (i + 1)
    else scanCount s sub k 0 (i + 1)

/-- `s.count(sub, start, stop)`: non-overlapping occurrences, left to right. -/
def strCount (s sub : List α) (start stop : Option Int) : Nat :=
  let (a, b) := adjustIndices s.length start stop
  scanCount s sub (candidates sub.length a b) 0 a

/-- `s.startswith(p, start, stop)` (`tailmatch`, direction −1). -/
def strStartsWith (s p : List α) (start stop : Option Int) : Bool :=
  let (a, b) := adjustIndices s.length start stop
  decide (a + p.length ≤ b) && matchAt s p a

/-- `s.endswith(p, start, stop)` (`tailmatch`, direction +1). -/
def strEndsWith (s p : List α) (start stop : Option Int) : Bool :=
  let (a, b) := adjustIndices s.length start stop
  decide (a + p.length ≤ b) && matchAt s p (b - p.length)

/-- Three-way comparison of strings of code points. -/
def strCmp : List Nat → List Nat → Ordering
  | [], [] => .eq
  | [], _ :: _ => .lt
  | _ :: _, [] => .gt
  | a :: s, b :: t => if a < b then .lt else if b < a then .gt else strCmp s t

end Verif.Py
