import Verif.Arena.Model

/-! # Specification of an arena -/

set_option autoImplicit false

namespace C3.Arena

/-- A block: first address and length. -/
abbrev Area := Nat × Nat

def Area.last (b : Area) : Nat := b.1 + b.2

/-- The requests and the addresses handed out for them. -/
def areas (reqs : List Word) (ps : List Word) : List Area := (ps.map BitVec.toNat).zip (reqs.map BitVec.toNat)

/-- No two blocks have an address in common. -/
def Disjoint (bs : List Area) : Prop := bs.Pairwise fun a b => a.last ≤ b.1 ∨ b.last ≤ a.1

/-- `size` rounded up to a multiple of 16. -/
def roundUp (n : Nat) : Nat := (n + 15) / 16 * 16

end C3.Arena
