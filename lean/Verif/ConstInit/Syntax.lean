/-!
# Types and initializers

The types are flattened ones: names, optionals and the element type of scalars play no role.  Vectors are arrays, and bitstructs structs.
-/

set_option autoImplicit false

namespace C3.ConstInit

inductive Ty where
  | scalar
  | struct (members : List Ty)
  | union (members : List Ty)
  | array (len : Nat) (base : Ty)

def Ty.isUnion : Ty → Bool
  | .union _ => true
  | _ => false

def Ty.isScalar : Ty → Bool
  | .scalar => true
  | _ => false

def Ty.isStruct : Ty → Bool
  | .struct _ => true
  | _ => false

/-- The type of a member or element. -/
def Ty.child : Ty → Nat → Option Ty
  | .struct ms, i => ms[i]?
  | .union ms, i => ms[i]?
  | .array _ base, _ => some base
  | .scalar, _ => none

/-- An element of the path of a designator: `.f`, `[i]` and `[lo..hi]`. -/
inductive Step where
  | field (i : Nat)
  | index (i : Nat)
  | range (lo hi : Nat)

mutual

/-- An initializer: a constant, `{}`, `{ a, b }` and `{ .f[2] = a, .g = b }`; `α` is the type of constants. -/
inductive Init (α : Type) where
  | scalar (x : α)
  | empty
  | list (vs : Inits α)
  | desig (ds : Desigs α)

inductive Inits (α : Type) where
  | nil
  | cons (v : Init α) (vs : Inits α)

inductive Desigs (α : Type) where
  | nil
  | cons (path : List Step) (v : Init α) (ds : Desigs α)

end

end C3.ConstInit
