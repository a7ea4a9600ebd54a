import Verif.Bigint.Spec

/-!
# Specification of the RFC 4648 codes

A code with `k` bits per symbol (4: hex, 5: base32, 6: base64) writes the bits of a byte string,
most significant first, as symbols of `k` bits, filling the last symbol with zero bits.  As numbers:
the big-endian value of the symbols is the big-endian value of the bytes, shifted left by the number
of filling bits.
-/

set_option autoImplicit false

namespace C3.Codec
open C3.Bigint (positional)

abbrev Byte := BitVec 8

/-- Big-endian value of a byte string. -/
def bytesVal (bs : List Byte) : Nat := positional 256 (bs.map BitVec.toNat)

/-- Big-endian value of a string of `k`-bit symbols. -/
def symsVal (k : Nat) (ss : List Nat) : Nat := positional (2 ^ k) ss

/-- `ss` is the sequence of `k`-bit symbols that encodes `bs`: as few symbols as hold all the bits,
and the same bits followed by zero bits. -/
def Encodes (k : Nat) (bs : List Byte) (ss : List Nat) : Prop :=
  8 * bs.length ≤ k * ss.length ∧ k * ss.length < 8 * bs.length + k ∧
  (∀ s ∈ ss, s < 2 ^ k) ∧
  symsVal k ss = bytesVal bs * 2 ^ (k * ss.length - 8 * bs.length)

/-- `bs` are the whole bytes contained in the `k`-bit symbols `ss`; left-over bits are dropped. -/
def Decodes (k : Nat) (ss : List Nat) (bs : List Byte) : Prop :=
  bs.length = k * ss.length / 8 ∧
  bytesVal bs = symsVal k ss / 2 ^ (k * ss.length - 8 * bs.length)

end C3.Codec
