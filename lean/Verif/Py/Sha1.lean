import Verif.Py.Core
/-!
# Python primitive: SHA-1 (`sha.new(s).digest()`, `hashlib.sha1(s).digest()`)

From FIPS 180-1; words are `UInt32`. Compared with `hashlib` on samples (an `example` in `Props/SecureName.lean` and a log of a
differential run in `DESIGN.md`).
-/
namespace Verif.Py.Sha1

def rotl (x : UInt32) (n : UInt32) : UInt32 := (x <<< n) ||| (x >>> (32 - n))

/-- The bytes of a number, high byte first. -/
def bigEndian : Nat → Nat → List Nat
  | 0, _ => []
  | k + 1, n => bigEndian k (n / 256) ++ [n % 256]

/-- The padding: `0x80`, zeros, and the length in bits in eight bytes, to a multiple of 64 bytes. -/
def pad (m : List Nat) : List Nat :=
  m ++ 128 :: List.replicate ((119 - m.length % 64) % 64) 0 ++ bigEndian 8 (8 * m.length)

/-- Four bytes are a word. -/
def words : List Nat → List UInt32
  | a :: b :: c :: d :: r => UInt32.ofNat (((a * 256 + b) * 256 + c) * 256 + d) :: words r
  | _ => []

/-- The 80 words of a block, last word first. -/
def extend : Nat → List UInt32 → List UInt32
  | 0, w => w
  | k + 1, w => extend k (rotl (w.getD 2 0 ^^^ w.getD 7 0 ^^^ w.getD 13 0 ^^^ w.getD 15 0) 1 :: w)

structure State where
  a : UInt32
  b : UInt32
  c : UInt32
  d : UInt32
  e : UInt32
deriving DecidableEq

/-- One of the 80 steps. -/
def step (t : Nat) (w : UInt32) (s : State) : State :=
  let fk : UInt32 × UInt32 :=
    if t < 20 then ((s.b &&& s.c) ||| (~~~s.b &&& s.d), 0x5A827999)
    else if t < 40 then (s.b ^^^ s.c ^^^ s.d, 0x6ED9EBA1)
    else if t < 60 then ((s.b &&& s.c) ||| (s.b &&& s.d) ||| (s.c &&& s.d), 0x8F1BBCDC)
    else (s.b ^^^ s.c ^^^ s.d, 0xCA62C1D6)
  ⟨rotl s.a 5 + fk.1 + s.e + fk.2 + w, s.a, rotl s.b 30, s.c, s.d⟩

def steps : Nat → List UInt32 → State → State
  | _, [], s => s
  | t, w :: ws, s => steps (t + 1) ws (step t w s)

/-- One block of 16 words. -/
def block (h : State) (ws : List UInt32) : State :=
  let s := steps 0 (extend 64 ws.reverse).reverse h
  ⟨h.a + s.a, h.b + s.b, h.c + s.c, h.d + s.d, h.e + s.e⟩

/-- All blocks; the count bounds their number. -/
def blocks : Nat → State → List UInt32 → State
  | 0, h, _ => h
  | n + 1, h, ws => if ws.length < 16 then h else blocks n (block h (ws.take 16)) (ws.drop 16)

/-- The digest: 20 bytes. -/
def digest (m : List Nat) : List Nat :=
  let ws := words (pad m)
  let h := blocks ws.length ⟨0x67452301, 0xEFCDAB89, 0x98BADCFE, 0x10325476, 0xC3D2E1F0⟩ ws
  bigEndian 4 h.a.toNat ++ bigEndian 4 h.b.toNat ++ bigEndian 4 h.c.toNat ++ bigEndian 4 h.d.toNat ++ bigEndian 4 h.e.toNat

theorem bigEndian_length (k n : Nat) : (bigEndian k n).length = k := by
  induction k generalizing n with
  | zero => rfl
  | succ k ih => rw [bigEndian, List.length_append, ih]; rfl

theorem bigEndian_lt (k n : Nat) : ∀ c ∈ bigEndian k n, c < 256 := by
  induction k generalizing n with
  | zero => intro c hc; cases hc
  | succ k ih =>
    intro c hc
    rw [bigEndian, List.mem_append] at hc
    rcases hc with hc | hc
    · exact ih _ c hc
    · rw [List.mem_singleton] at hc; omega

/-- A digest has 20 bytes. -/
theorem digest_length (m : List Nat) : (digest m).length = 20 := by
  unfold digest
  simp only [List.length_append, bigEndian_length]

theorem digest_lt (m : List Nat) : ∀ c ∈ digest m, c < 256 := by
  intro c hc
  unfold digest at hc
  simp only [List.mem_append] at hc
  rcases hc with (((hc | hc) | hc) | hc) | hc <;> exact bigEndian_lt _ _ c hc

end Verif.Py.Sha1
