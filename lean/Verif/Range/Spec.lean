import Verif.Range.Model

set_option autoImplicit false

namespace C3.Range

/-- The number a value of the type is. -/
def val (sgn : Bool) {w : Nat} (a : BitVec w) : Int := if sgn then a.toInt else a.toNat

/-- What a loop over a collection of `len` elements with `get` relies on: the indices below `len` give the values contained, each
of them once. -/
def Enumerates {w : Nat} (len : BitVec 64) (get : BitVec 64 → BitVec w) (contains : BitVec w → Bool) : Prop :=
  (∀ i : BitVec 64, i.toNat < len.toNat → contains (get i) = true) ∧
  (∀ i j : BitVec 64, i.toNat < len.toNat → j.toNat < len.toNat → get i = get j → i = j) ∧
  ∀ v, contains v = true → ∃ i : BitVec 64, i.toNat < len.toNat ∧ get i = v

/-- The difference of the bounds is one of the type, or the type is as wide as `usz`. -/
def Fits (sgn : Bool) {w : Nat} (r : Range w) : Prop :=
  sgn = true → w < 64 → val sgn r.stop - val sgn r.start < 2 ^ (w - 1)

end C3.Range
