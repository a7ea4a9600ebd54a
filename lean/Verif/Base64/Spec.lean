import Verif.Base64.Model
import Verif.Codec.Spec

/-! # Specification vocabulary for base64 -/

set_option autoImplicit false

namespace C3.Base64
open C3.Codec

/-- The characters of a sequence of 6-bit symbols. -/
def text (al : Alphabet) (ss : List Nat) : List Byte := ss.map fun s => al.encoding.getD s 0

/-- The padding that follows `n` symbols: up to a multiple of four characters. -/
def pads (padding : Byte) (n : Nat) : List Byte :=
  if padding = 0 then [] else List.replicate ((4 - n % 4) % 4) padding

/-- The reverse table inverts the encoding table, and marks everything else with 0xFF. -/
structure Alphabet.Valid (al : Alphabet) : Prop where
  len : al.encoding.length = 64
  rlen : al.reverse.length = 256
  fwd : ∀ i < 64, al.reverse[(al.encoding.getD i 0).toNat]? = some (BitVec.ofNat 8 i)
  bwd : ∀ x : Byte, al.reverse[x.toNat]? = some 0xFF ∨ ∃ i < 64, al.encoding.getD i 0 = x

/-- The padding character is not used as a symbol. -/
def Alphabet.PadOk (al : Alphabet) (padding : Byte) : Prop := ∀ i < 64, al.encoding.getD i 0 ≠ padding

/-- A sequence of symbols can be the content of an encoded string: no group of a single symbol. -/
def Complete (ss : List Nat) : Prop := (∀ s ∈ ss, s < 64) ∧ ss.length % 4 ≠ 1

end C3.Base64
