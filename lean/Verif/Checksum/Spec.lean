import Mathlib.Algebra.Polynomial.Div
import Mathlib.Data.ZMod.Basic
import Mathlib.Algebra.CharP.Two
import Mathlib.Tactic.LinearCombination
import Mathlib.RingTheory.Coprime.Lemmas

/-! # What the checksums are

A cyclic redundancy check is the remainder of the message, as a polynomial over the field of two
elements, by a generator. -/

set_option autoImplicit false

namespace C3.Checksum

open Polynomial

/-- A sequence of bits as a polynomial, the first bit is the highest coefficient. -/
noncomputable def poly : List Bool → (ZMod 2)[X]
  | [] => 0
  | b :: l => (if b then X ^ l.length else 0) + poly l

/-- The bits of a word, the lowest first. -/
def bitsUp {w : Nat} (x : BitVec w) : List Bool := (List.range w).map fun i => x.getLsbD i

/-- The bits of a word, the highest first. -/
def bitsDown {w : Nat} (x : BitVec w) : List Bool := (List.range w).map fun i => x.getLsbD (w - 1 - i)

/-- The generator of CRC-32 (IEEE 802.3). -/
noncomputable def G32 : (ZMod 2)[X] :=
  X^32 + X^26 + X^23 + X^22 + X^16 + X^12 + X^11 + X^10 + X^8 + X^7 + X^5 + X^4 + X^2 + X + 1

/-- The generator of CRC-64 (ECMA-182). -/
noncomputable def G64 : (ZMod 2)[X] :=
  X^64 + X^62 + X^57 + X^55 + X^54 + X^53 + X^52 + X^47 + X^46 + X^45 + X^40 + X^39 + X^38 + X^37 +
  X^35 + X^33 + X^32 + X^31 + X^29 + X^27 + X^24 + X^23 + X^22 + X^21 + X^19 + X^17 + X^13 + X^12 +
  X^10 + X^9 + X^7 + X^4 + X + 1

end C3.Checksum
