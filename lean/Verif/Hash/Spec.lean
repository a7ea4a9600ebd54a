/-! # What a hash of blocks of 64 bytes is

MD5 (RFC 1321), SHA-1 and SHA-256 (FIPS 180-4) put a padding behind the message and
feed it to a compression function, 64 bytes at a time. -/

set_option autoImplicit false

namespace C3.Hash

abbrev Byte := BitVec 8
abbrev Word := BitVec 32

/-- The whole blocks of a message, one after the other; what remains is left out. -/
def run {σ : Type} (f : σ → List Byte → σ) (s : σ) (m : List Byte) : σ :=
  if h : m.length < 64 then s else run f (f s (m.take 64)) (m.drop 64)
termination_by m.length
decreasing_by simp; omega

/-- `n` as `k` bytes, the highest first. -/
def be (k n : Nat) : List Byte := (List.range k).map fun j => BitVec.ofNat 8 (n / 256 ^ (k - 1 - j))

/-- `n` as `k` bytes, the lowest first. -/
def le (k n : Nat) : List Byte := (List.range k).map fun j => BitVec.ofNat 8 (n / 256 ^ j)

/-- The padding: one bit, as many zeros as are needed, and the 64 bits `count`. -/
def padding (len : Nat) (count : List Byte) : List Byte :=
  0x80 :: (List.replicate ((119 - len % 64) % 64) 0 ++ count)

/-- The state after all blocks of the message `m`, with its length in bits at the end. -/
def hashed {σ : Type} (f : σ → List Byte → σ) (iv : σ) (enc : Nat → List Byte) (m : List Byte) : σ :=
  run f iv (m ++ padding m.length (enc (8 * m.length)))

end C3.Hash
