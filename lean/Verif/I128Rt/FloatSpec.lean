import Verif.I128Rt.Float
import Verif.I128Rt.Spec

/-! # What a floating point number is, and what it means to round to one

The bits of a positive number are an exponent field `x` above `sig` bits of
mantissa.  With the implicit bit put in, `m` is between `2^sig` and `2^(sig+1)`
and the number is `m * 2^x / 2^offset` with `offset = bias + sig`.  Every
positive floating point number, also one below the smallest normal number, is
of the form `m * 2^x / 2^offset` with `m < 2^(sig + 1)`. -/

set_option autoImplicit false

namespace C3.I128Rt

/-- The IEEE names of the two formats: bits, mantissa bits, bias. -/
structure Ieee where
  bits : Nat
  sig : Nat
  bias : Nat

def binary64 : Ieee := ⟨64, 52, 1023⟩
def binary32 : Ieee := ⟨32, 23, 127⟩

/-- The exponent of the unit a number is counted in. -/
def Ieee.offset (F : Ieee) : Nat := F.bias + F.sig

/-- The bits of the number with sign `neg`, exponent field `x` and mantissa `m`
with its implicit bit. -/
def Ieee.encode (F : Ieee) (neg : Bool) (x m : Nat) : Nat :=
  (if neg then 2 ^ (F.bits - 1) else 0) + x * 2 ^ F.sig + (m - 2 ^ F.sig)

/-- The distance of two naturals. -/
def gap (x y : Nat) : Nat := (x - y) + (y - x)

/-- `m * 2^x` is the floating point number nearest to the integer `a`, and of
two equally near it is the even one. -/
def Nearest (F : Ieee) (a x m : Nat) : Prop :=
  2 ^ F.sig ≤ m ∧ m < 2 ^ (F.sig + 1) ∧
  ∀ x' m', m' < 2 ^ (F.sig + 1) →
    gap (a * 2 ^ F.offset) (m * 2 ^ x) ≤ gap (a * 2 ^ F.offset) (m' * 2 ^ x') ∧
    (gap (a * 2 ^ F.offset) (m * 2 ^ x) = gap (a * 2 ^ F.offset) (m' * 2 ^ x') →
      m * 2 ^ x = m' * 2 ^ x' ∨ m % 2 = 0)

/-- The integer part of the number with exponent field `x` and mantissa `m`. -/
def Ieee.floor (F : Ieee) (x m : Nat) : Nat := m * 2 ^ x / 2 ^ F.offset

end C3.I128Rt
