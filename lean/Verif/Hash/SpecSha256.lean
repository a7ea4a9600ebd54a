import Verif.Hash.Spec

/-! # SHA-256 as FIPS 180-4 has it -/

set_option autoImplicit false

namespace C3.Hash.Sha256.Fips

/-- The prime numbers up to 311: there are 64 of them. -/
def primes : List Nat :=
  (List.range 312).filter fun p => 2 ≤ p && (List.range p).all fun d => d < 2 || p % d != 0

/-- `w` is the first 32 bits of the fractional part of the `k`-th root of `p`. -/
def IsRootBits (k p : Nat) (w : Word) : Prop :=
  ∃ n, n ^ k ≤ p * 2 ^ (32 * k) ∧ p * 2 ^ (32 * k) < (n + 1) ^ k ∧ w = BitVec.ofNat 32 n

/-- Section 4.1.2. -/
def Ch (x y z : Word) : Word := (x &&& y) ^^^ (~~~x &&& z)
def Maj (x y z : Word) : Word := (x &&& y) ^^^ (x &&& z) ^^^ (y &&& z)
def Sigma0 (x : Word) : Word := x.rotateRight 2 ^^^ x.rotateRight 13 ^^^ x.rotateRight 22
def Sigma1 (x : Word) : Word := x.rotateRight 6 ^^^ x.rotateRight 11 ^^^ x.rotateRight 25
def sigma0 (x : Word) : Word := x.rotateRight 7 ^^^ x.rotateRight 18 ^^^ x >>> 3
def sigma1 (x : Word) : Word := x.rotateRight 17 ^^^ x.rotateRight 19 ^^^ x >>> 10

/-- The word `t` of a block, the highest byte first. -/
def word (b : List Byte) (t : Nat) : Word :=
  b.getD (4 * t) 0 ++ b.getD (4 * t + 1) 0 ++ b.getD (4 * t + 2) 0 ++ b.getD (4 * t + 3) 0

/-- The message schedule, section 6.2.2, step 1. -/
def W (b : List Byte) (t : Nat) : Word :=
  if t < 16 then word b t
  else sigma1 (W b (t - 2)) + W b (t - 7) + sigma0 (W b (t - 15)) + W b (t - 16)
termination_by t

/-- Eight words. -/
structure Hash where
  (a b c d e f g h : Word)
  deriving DecidableEq, Repr

/-- Section 6.2.2, step 3. -/
def round (K : Nat → Word) (blk : List Byte) (v : Hash) (t : Nat) : Hash :=
  let T1 := v.h + Sigma1 v.e + Ch v.e v.f v.g + K t + W blk t
  let T2 := Sigma0 v.a + Maj v.a v.b v.c
  { h := v.g, g := v.f, f := v.e, e := v.d + T1, d := v.c, c := v.b, b := v.a, a := T1 + T2 }

/-- Section 6.2.2: a block. -/
def compress (K : Nat → Word) (H : Hash) (blk : List Byte) : Hash :=
  let v := (List.range 64).foldl (round K blk) H
  ⟨H.a + v.a, H.b + v.b, H.c + v.c, H.d + v.d, H.e + v.e, H.f + v.f, H.g + v.g, H.h + v.h⟩

/-- The bytes of a word, the highest first. -/
def bytes (w : Word) : List Byte :=
  [w.extractLsb' 24 8, w.extractLsb' 16 8, w.extractLsb' 8 8, w.extractLsb' 0 8]

/-- The message digest. -/
def digest (H : Hash) : List Byte :=
  [H.a, H.b, H.c, H.d, H.e, H.f, H.g, H.h].flatMap bytes

/-- SHA-256 with the constants `K` and the initial value `H0`. -/
def sha256 (K : Nat → Word) (H0 : Hash) (m : List Byte) : List Byte :=
  digest (hashed (compress K) H0 (be 8) m)

end C3.Hash.Sha256.Fips
