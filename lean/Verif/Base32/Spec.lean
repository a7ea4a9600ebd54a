import Verif.Base32.Model
import Verif.Codec.Spec

/-! # Specification vocabulary for base32 -/

set_option autoImplicit false

namespace C3.Base32
open C3.Codec

/-- The characters of a sequence of 5-bit symbols. -/
def text (al : Alphabet) (ss : List Nat) : List Byte := ss.map fun s => al.encoding.getD s 0

/-- The padding that follows `n` symbols: up to a multiple of eight characters. -/
def pads (padding : Byte) (n : Nat) : List Byte :=
  if padding = 0 then [] else List.replicate ((8 - n % 8) % 8) padding

/-- The reverse table inverts the encoding table, and marks everything else with 0xFF. -/
structure Alphabet.Valid (al : Alphabet) : Prop where
  len : al.encoding.length = 32
  rlen : al.reverse.length = 256
  fwd : ∀ i < 32, al.reverse[(al.encoding.getD i 0).toNat]? = some (BitVec.ofNat 8 i)
  bwd : ∀ x : Byte, al.reverse[x.toNat]? = some 0xFF ∨ ∃ i < 32, al.encoding.getD i 0 = x

/-- The padding character (or NUL, if there is no padding) is not used as a symbol. -/
def Alphabet.PadOk (al : Alphabet) (padding : Byte) : Prop := ∀ i < 32, al.encoding.getD i 0 ≠ padding

/-- A sequence of symbols can be the content of an encoded string: the last group contains at least
one more byte than the same group with one symbol less. -/
def Complete (ss : List Nat) : Prop :=
  (∀ s ∈ ss, s < 32) ∧ ss.length % 8 ≠ 1 ∧ ss.length % 8 ≠ 3 ∧ ss.length % 8 ≠ 6

end C3.Base32
