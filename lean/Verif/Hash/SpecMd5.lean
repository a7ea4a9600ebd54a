import Verif.Hash.Spec

/-! # MD5 as RFC 1321 has it -/

set_option autoImplicit false

namespace C3.Hash.Md5.Rfc

/-- The functions of section 3.4. -/
def F (x y z : Word) : Word := (x &&& y) ||| (~~~x &&& z)
def G (x y z : Word) : Word := (x &&& z) ||| (y &&& ~~~z)
def H (x y z : Word) : Word := x ^^^ y ^^^ z
def I (x y z : Word) : Word := y ^^^ (x ||| ~~~z)

/-- The function of step `i`, from 0. -/
def func (i : Nat) : Word → Word → Word → Word :=
  if i < 16 then F else if i < 32 then G else if i < 48 then H else I

/-- The word of the block that step `i` uses. -/
def index (i : Nat) : Nat :=
  if i < 16 then i else if i < 32 then (5 * i + 1) % 16
  else if i < 48 then (3 * i + 5) % 16 else 7 * i % 16

/-- By how many bits step `i` rotates. -/
def shift (i : Nat) : Nat :=
  if i < 16 then [7, 12, 17, 22].getD (i % 4) 0
  else if i < 32 then [5, 9, 14, 20].getD (i % 4) 0
  else if i < 48 then [4, 11, 16, 23].getD (i % 4) 0
  else [6, 10, 15, 21].getD (i % 4) 0

/-- The word `k` of a block, the lowest byte first. -/
def X (b : List Byte) (k : Nat) : Word :=
  b.getD (4 * k + 3) 0 ++ b.getD (4 * k + 2) 0 ++ b.getD (4 * k + 1) 0 ++ b.getD (4 * k) 0

/-- The four registers. -/
structure Regs where
  (A B C D : Word)
  deriving DecidableEq, Repr

/-- A step, `a = b + ((a + F(b,c,d) + X[k] + T[i]) <<< s)`; after it the registers change places. -/
def step (T : Nat → Word) (b : List Byte) (r : Regs) (i : Nat) : Regs :=
  { A := r.D
    B := r.B + (r.A + func i r.B r.C r.D + X b (index i) + T i).rotateLeft (shift i)
    C := r.B
    D := r.C }

/-- A block. -/
def compress (T : Nat → Word) (r : Regs) (b : List Byte) : Regs :=
  let q := (List.range 64).foldl (step T b) r
  ⟨r.A + q.A, r.B + q.B, r.C + q.C, r.D + q.D⟩

/-- Section 3.3. -/
def init : Regs := ⟨0x67452301, 0xefcdab89, 0x98badcfe, 0x10325476⟩

/-- The bytes of a word, the lowest first. -/
def bytes (w : Word) : List Byte :=
  [w.extractLsb' 0 8, w.extractLsb' 8 8, w.extractLsb' 16 8, w.extractLsb' 24 8]

/-- MD5.  The count of bits is modulo 2 ^ 64, as section 3.2 wants it. -/
def md5 (T : Nat → Word) (m : List Byte) : List Byte :=
  let r := hashed (compress T) init (le 8) m
  [r.A, r.B, r.C, r.D].flatMap bytes

end C3.Hash.Md5.Rfc
