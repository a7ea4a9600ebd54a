/-! # What 128-bit arithmetic is -/

set_option autoImplicit false

namespace C3.I128Rt

/-- The number a 128-bit pattern stands for when it is read as an `int128`. -/
def toInt (x : Nat) : Int := if x < 2 ^ 127 then x else (x : Int) - 2 ^ 128

/-- The pattern of an integer, reduced to 128 bits. -/
def ofInt (i : Int) : Nat := (i % 2 ^ 128).toNat

end C3.I128Rt
