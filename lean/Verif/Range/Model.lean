/-! # Ranges, lib/std/collections/range.c3

For integer types of 32 to 64 bits, where `usz` has 64. Smaller types, whose differences are computed as `int`, larger ones, floats
and the output are not modelled. -/

set_option autoImplicit false

namespace C3.Range

/-- `Range` and `ExclusiveRange`, lines 7–11 and 37–41, of a type of `w` bits; `sgn`: is it signed? -/
structure Range (w : Nat) where
  start : BitVec w
  stop : BitVec w
  deriving DecidableEq, Repr

/-- `a < b` of the type. -/
def lt (sgn : Bool) {w : Nat} (a b : BitVec w) : Bool := if sgn then a.slt b else a.ult b

/-- The cast of the type to `usz`. -/
def cast (sgn : Bool) {w : Nat} (a : BitVec w) : BitVec 64 := if sgn then a.signExtend 64 else a.setWidth 64

/-- `Range.len`, lines 13–17. -/
def len (sgn : Bool) {w : Nat} (r : Range w) : BitVec 64 := if lt sgn r.stop r.start then 0 else cast sgn (r.stop - r.start) + 1

/-- `Range.contains`, lines 19–22. -/
def contains (sgn : Bool) {w : Nat} (r : Range w) (v : BitVec w) : Bool := !lt sgn v r.start && !lt sgn r.stop v

/-- `Range.get`, lines 27–30, and `ExclusiveRange.get`, 62–65: the sum is cast to the type, so that it does not matter how
`start` was made a `usz`. -/
def get {w : Nat} (r : Range w) (index : BitVec 64) : BitVec w := r.start + index.setWidth w

/-- `ExclusiveRange.len`, lines 43–47. -/
def exLen (sgn : Bool) {w : Nat} (r : Range w) : BitVec 64 := if lt sgn r.stop r.start then 0 else cast sgn (r.stop - r.start)

/-- `ExclusiveRange.contains`, lines 49–52. -/
def exContains (sgn : Bool) {w : Nat} (r : Range w) (v : BitVec w) : Bool := !lt sgn v r.start && lt sgn v r.stop

end C3.Range
