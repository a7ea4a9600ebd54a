import Verif.Codec.Model

/-! # Model of `lib/std/encoding/hex.c3` -/

set_option autoImplicit false

namespace C3.Hex
open C3.Codec

/-- `HEXALPHABET`, `hex.c3:91`. -/
def HEXALPHABET : List (BitVec 8) := ascii [
  '0', '1', '2', '3', '4', '5', '6', '7', '8', '9', 'a', 'b', 'c', 'd', 'e', 'f']

/-- `HEXREVERSE`, `hex.c3:92-108`. -/
def HEXREVERSE : List (BitVec 8) := hexTable 256 0xffffffffffffffffffffffffffffffffffffffffffffffffffffffffffffffffffffffffffffffffffffffffffffffff00010203040506070809ffffffffffffff0a0b0c0d0e0fffffffffffffffffffffffffffffffffffffffffffffffffffff0a0b0c0d0e0fffffffffffffffffffffffffffffffffffffffffffffffffffffffffffffffffffffffffffffffffffffffffffffffffffffffffffffffffffffffffffffffffffffffffffffffffffffffffffffffffffffffffffffffffffffffffffffffffffffffffffffffffffffffffffffffffffffffffffffffffffffffffffffffffffffffffffffffffffffffffffffffffffffffffffffffffff

/-- `encode_len`, `hex.c3:37`. -/
def encode_len (n : Nat) : Nat := n * 2

/-- `decode_len`, `hex.c3:63`. -/
def decode_len (n : Nat) : Nat := n / 2

/-- The loop of `encode_bytes`, `hex.c3:49-54`. -/
def encLoop : List (BitVec 8) → Nat → List (BitVec 8) → Option (List (BitVec 8))
  | [], _, dst => some dst
  | v :: src, j, dst => do
    let dst ← store dst j (← HEXALPHABET[(v >>> 4).toNat]?)
    let dst ← store dst (j + 1) (← HEXALPHABET[(v &&& 0x0f).toNat]?)
    encLoop src (j + 2) dst

/-- `encode_bytes`, `hex.c3:46-56`: the new cells of `dst` and the encoded size. -/
def encode_bytes (src dst : List (BitVec 8)) : Option (List (BitVec 8) × Nat) :=
  (encLoop src 0 dst).map fun dst => (dst, src.length * 2)

/-- The loop of `decode_bytes`, `hex.c3:80-87`. -/
def decLoop (src : List (BitVec 8)) (j i : Nat) (dst : List (BitVec 8)) :
    Option (Except Fault (List (BitVec 8) × Nat)) :=
  if j < src.length then do
    let a ← HEXREVERSE[(← src[j - 1]?).toNat]?
    let b ← HEXREVERSE[(← src[j]?).toNat]?
    if a > 0x0f ∨ b > 0x0f then some (.error .INVALID_CHARACTER)
    else do
      let dst ← store dst i (a <<< 4 ||| b)
      decLoop src (j + 2) (i + 1) dst
  else some (.ok (dst, i))
termination_by src.length - j

/-- `decode_bytes`, `hex.c3:77-89`: a fault, or the new cells of `dst` and the number of bytes. -/
def decode_bytes (src dst : List (BitVec 8)) : Option (Except Fault (List (BitVec 8) × Nat)) :=
  decLoop src 1 0 dst

/-- `encode`, `hex.c3:16-20`; the allocated array is uninitialised, hence an argument. -/
def encode (code fresh : List (BitVec 8)) : Option (List (BitVec 8)) :=
  if fresh.length ≠ encode_len code.length then none
  else (encode_bytes code fresh).map fun r => r.1.take r.2

/-- `decode`, `hex.c3:22-26`. -/
def decode (code fresh : List (BitVec 8)) : Option (Except Fault (List (BitVec 8))) :=
  if fresh.length ≠ decode_len code.length then none
  else (decode_bytes code fresh).map fun r => r.map fun r => r.1.take r.2

end C3.Hex
