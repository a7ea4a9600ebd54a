import Verif.Hex.Model
import Verif.Codec.Spec

/-! # Specification vocabulary for hex -/

set_option autoImplicit false

namespace C3.Hex
open C3.Codec

/-- The value of a hexadecimal digit, in either case. -/
def digitVal (c : Byte) : Option Nat :=
  if 48 ≤ c.toNat ∧ c.toNat ≤ 57 then some (c.toNat - 48)
  else if 97 ≤ c.toNat ∧ c.toNat ≤ 102 then some (c.toNat - 97 + 10)
  else if 65 ≤ c.toNat ∧ c.toNat ≤ 70 then some (c.toNat - 65 + 10)
  else none

/-- The lower case digit of a value. -/
def lower (s : Nat) : Byte := BitVec.ofNat 8 (if s < 10 then 48 + s else 97 + (s - 10))

end C3.Hex
