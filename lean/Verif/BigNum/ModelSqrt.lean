import Verif.BigNum.Model

/-! # `BigInt.bitcount` and `BigInt.sqrt` of `lib/std/math/bigint.c3` -/

set_option autoImplicit false

namespace C3.BigNum

/-- The loop of `BigInt.bitcount`, lines 316–323; `mask` is `2 ^ n` of the
highest bit not looked at. -/
def bitLen (val : Nat) : Nat → Nat
  | 0 => 0
  | n + 1 => if (val &&& 2 ^ n) = 0 then bitLen val n else n + 1

/-- `BigInt.bitcount`, lines 312–326. -/
def bitcount (a : Big) : Nat :=
  let a := a.reduceLen
  bitLen (a.word (a.len - 1)) 32 + (a.len - 1) * 2 ^ 5

/-- `result.data[i] ^= mask`, lines 753 and 758. -/
def flip (r : Big) (i mask : Nat) : Big := { r with data := r.data.set i (r.word i ^^^ mask) }

/-- The inner loop of `BigInt.sqrt`, lines 750–761; `mask` is `2 ^ k`. -/
def sqrtBits (N : Nat) (self : Big) (i : Nat) : Nat → Big → Option Big
  | 0, r => some r
  | k + 1, r => do
    let guess := flip r i (2 ^ k)
    let square ← mult N guess guess
    sqrtBits N self i k (if greaterThan N square self then flip guess i (2 ^ k) else guess)

/-- The outer loop of `BigInt.sqrt`, lines 748–763.  The first argument is
`i + 1`, the second says which bits of the word `mask` goes through. -/
def sqrtWords (N : Nat) (self : Big) : Nat → Nat → Big → Option Big
  | 0, _, r => some r
  | i + 1, bits, r => do
    let r ← sqrtBits N self i bits r
    sqrtWords N self i 32 r

/-- `BigInt.sqrt`, lines 725–765.  `>>` binds stronger than `+` in C3. -/
def sqrt (N : Nat) (a : Big) : Option Big :=
  let num_bits := bitcount a
  let num_bits := if (num_bits &&& 1) ≠ 0 then num_bits / 2 + 1 else num_bits / 2
  let byte_pos := num_bits / 2 ^ 5
  let bit_pos := num_bits &&& 0x1F
  if bit_pos = 0 then sqrtWords N a byte_pos 32 ⟨List.replicate N 0, byte_pos⟩
  else sqrtWords N a (byte_pos + 1) (bit_pos + 1) ⟨List.replicate N 0, byte_pos + 1⟩

end C3.BigNum
