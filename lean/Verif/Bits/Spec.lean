/-! # Numbers as sequences of bits -/

set_option autoImplicit false

namespace C3.Bits

/-- The `n` low bits of a number, the highest of them first. -/
def msb (n v : Nat) : List Bool := (List.range n).map fun i => v.testBit (n - 1 - i)

/-- A sequence of bits as a number, the first is the highest. -/
def num : List Bool → Nat := List.foldl (fun a b => 2 * a + (if b then 1 else 0)) 0

/-- The bits of bytes, the highest of each first. -/
def bitsOf (l : List (BitVec 8)) : List Bool := l.flatMap fun b => msb 8 b.toNat

end C3.Bits
