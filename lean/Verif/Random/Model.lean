/-! # Values from a random number generator, lib/std/math/random.c3

The generator is the list of the values it gives. `none`: a contract does not hold, `unreachable` is reached, or there are no more
values. -/

set_option autoImplicit false

namespace C3.Random

/-- `uint.clz`. -/
def clz (r : BitVec 32) : Nat := if r = 0 then 32 else 31 - r.toNat.log2

/-- Lines 40–42; `r` is the range less one. -/
def mask (r : BitVec 32) : BitVec 32 := BitVec.allOnes 32 >>> clz r

/-- One round of the loop of lines 44–48 with the value `u` of `next_int`: the result, if the loop ends. -/
def draw (r u : BitVec 32) : Option (BitVec 32) := if r < u &&& mask r then none else some (u &&& mask r)

/-- The loop of lines 44–48, with what is left of the generator. -/
def loop (r : BitVec 32) : List (BitVec 32) → Option (BitVec 32 × List (BitVec 32))
  | [] => none
  | u :: l =>
    match draw r u with
    | some v => some (v, l)
    | none => loop r l

/-- `next`, lines 37–50, with its contract. The result is an `int`. -/
def next (range : BitVec 32) (g : List (BitVec 32)) : Option (BitVec 32 × List (BitVec 32)) :=
  if range = 0 then none
  else if range = 1 then some (0, g)
  else loop (range - 1) g

/-- `next_in_range`, lines 58–61, with its contract; the range is computed as an `int`. -/
def nextInRange (min max : BitVec 32) (g : List (BitVec 32)) : Option (BitVec 32 × List (BitVec 32)) :=
  if max.slt min then none
  else match next (max - min + 1) g with
    | some (v, g) => some (v + min, g)
    | none => none

/-- `@random_value_to_bytes`, lines 143–161, for `len` bytes; a value is given by its bytes, of which there are `size`. -/
def valueToBytes (size : Nat) : Nat → List (List UInt8) → Option (List UInt8 × List (List UInt8))
  | 0, _ => none
  | _ + 1, [] => none
  | len + 1, v :: g =>
    if len + 1 ≤ size then some (v.take (len + 1), g)
    else if size = 0 then none
    else match valueToBytes size (len + 1 - size) g with
      | some (bytes, g) => some (v.take size ++ bytes, g)
      | none => none

end C3.Random
