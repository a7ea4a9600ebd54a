import Verif.Bitstruct.ModelSema
import Verif.Bitstruct.Spec
import Verif.Bigint.Spec

/-!
# What it is to be declared well
-/

set_option autoImplicit false

namespace C3.Bitstruct

/-- An expression is the constant `k`. -/
def BitExpr.Is (e : BitExpr) (k : Nat) : Prop := ∃ c, e = .const c ∧ c.val = k

/-- The source of a member, the one at position `i`, says that it is `m`. -/
structure Says (s : Source) (i : Nat) (m : Member) : Prop where
  type : s.type ≠ .other
  bytes : m.bytes = s.type.bytes
  signed : m.signed = s.type.signed
  bool : m.bool = decide (s.type = .bool)
  range : match s.range with
    | .none => s.type = .bool ∧ m.start = i ∧ m.stop = i
    | .single a => s.type = .bool ∧ a.Is m.start ∧ m.stop = m.start
    | .range a b => a.Is m.start ∧ b.Is m.stop

/-- Ranges for all, or for none. -/
def Uniform (s : List Source) : Prop := (∀ d ∈ s, d.range = .none) ∨ ∀ d ∈ s, d.range ≠ .none

/-- The members that are left, with their positions among all. -/
def kept (s : List Source) : List (Source × Nat) := s.zipIdx.filter fun d => !d.1.erased

end C3.Bitstruct
