import Verif.Bitstruct.ModelOps
import Verif.Bitstruct.Spec

/-!
# Constants of a bitstruct
-/

set_option autoImplicit false

namespace C3.Bitstruct

open C3.Bigint (CInt Int128 TypeKind)

/-- The initializer is one of the member's type. -/
def Typed (m : Member) : Init → Prop
  | .zero => True
  | .bool _ => m.bool = true
  | .int ixx => m.bool = false ∧ m.kind = some ixx.type

/-- `bool`, or one of the integer types. -/
def Kinded (m : Member) : Prop := m.bool = true ∨ ∃ t, m.kind = some t

/-- One initializer for each member, each of its type. -/
def TypedAll : List Member → List Init → Prop
  | [], [] => True
  | m :: ms, i :: is => Typed m i ∧ TypedAll ms is
  | _, _ => False

/-- No two members have bits in common. -/
def ApartMembers (ms : List Member) : Prop := ms.Pairwise Member.Disjoint

/-- The constant is one of the bitstruct. -/
def Const.Typed (ms : List Member) : Const → Prop
  | .zero => True
  | .struct is => TypedAll ms is

end C3.Bitstruct
