import Verif.Casts.Model
import Verif.Bigint.Spec

/-!
# Specification vocabulary for implicit integer conversions

The meaning of an expression in exact arithmetic, and the subexpressions its value is made of.
-/

set_option autoImplicit false

namespace C3.Casts
open C3.Bigint

/-- Every leaf holds a value of its type. -/
def Env.OK (env : Env) : Prop :=
  (∀ (t : TypeKind) i, t.InRange (env.val t i)) ∧ ∀ i, TypeKind.InRange .U64 (env.len i)

/-- The operands have the types the analyser gives them. -/
def WT : Expr → Prop
  | .leaf _ _ => True
  | .lit c => c.WF
  | .len _ => True
  | .bin _ l r => WT l ∧ WT r ∧ l.ty = r.ty
  | .orElse _ l r => WT l ∧ WT r ∧ l.ty = r.ty
  | .shl l r => WT l ∧ WT r
  | .shr l r => WT l ∧ WT r
  | .assign t _ r => WT r ∧ r.ty = t
  | .neg e => WT e
  | .bitneg e => WT e
  | .plus e => WT e
  | .ext _ e => WT e
  | .tern _ a b => WT a ∧ WT b ∧ a.ty = b.ty
  | .unwrap e => WT e
  | .rethrow e => WT e
  | .last e => WT e

/-- The operators on integers of any size. -/
def exactBin : BinOp → Int → Int → Option Int
  | .add, a, b => some (a + b)
  | .sub, a, b => some (a - b)
  | .mul, a, b => some (a * b)
  | .div, a, b => if b = 0 then none else some (a.tdiv b)
  | .mod, a, b => if b = 0 then none else some (a.tmod b)
  | .or, a, b => some (Int.lor a b)
  | .xor, a, b => some (Int.xor a b)
  | .and, a, b => some (Int.land a b)

/-- The value of an expression in exact arithmetic: nothing ever wraps.  Where `cut` holds the
subexpression counts with the value it has at run time. -/
def exact (cut : Expr → Bool) (env : Env) : Expr → Option Int
  | .leaf t i => some (env.val t i)
  | .lit c => some c.val
  | .len i => some (env.len i)
  | .assign t i r => eval env (.assign t i r)
  | .bin op l r =>
    if cut (.bin op l r) then eval env (.bin op l r) else
    match exact cut env l, exact cut env r with
    | some a, some b => exactBin op a b
    | _, _ => none
  | .orElse i l r => if env.fault i then exact cut env r else exact cut env l
  | .shl l r =>
    if cut (.shl l r) then eval env (.shl l r) else
    match exact cut env l, (eval env r).bind (shiftAmount l.ty r.ty) with
    | some a, some s => some (a * 2 ^ s)
    | _, _ => none
  | .shr l r =>
    if cut (.shr l r) then eval env (.shr l r) else
    match exact cut env l, (eval env r).bind (shiftAmount l.ty r.ty) with
    | some a, some s => some (a / 2 ^ s)
    | _, _ => none
  | .neg e => if cut (.neg e) then eval env (.neg e) else (exact cut env e).map fun a => -a
  | .bitneg e => if cut (.bitneg e) then eval env (.bitneg e) else (exact cut env e).map fun a => -a - 1
  | .ext t e => if cut (.ext t e) then eval env (.ext t e) else exact cut env e
  | .tern i a b => if env.cond i then exact cut env a else exact cut env b
  | .plus e => exact cut env e
  | .unwrap e => exact cut env e
  | .rethrow e => exact cut env e
  | .last e => exact cut env e

/-- Is the expression a conversion? -/
def isExt : Expr → Bool
  | .ext _ _ => true
  | _ => false

/-- For a narrowing to `w` bits: what is computed with fewer bits than that counts with its run-time
value, and so does a conversion to at most that many bits. -/
def narrowCut (w : Nat) (e : Expr) : Bool := e.ty.bits < w || (isExt e && e.ty.bits ≤ w)

/-- For a widening: a conversion counts with its run-time value. -/
def widenCut (e : Expr) : Bool := isExt e

/-- The operands of divisions, remainders and right shifts have not wrapped: they have their exact
values.  (Other operators need no such condition.) -/
def Steady (cut : Expr → Bool) (env : Env) : Expr → Prop
  | .leaf _ _ => True
  | .lit _ => True
  | .len _ => True
  | .assign _ _ _ => True
  | .bin op l r => cut (.bin op l r) = true ∨ (Steady cut env l ∧ Steady cut env r ∧
      (op = .div ∨ op = .mod → exact cut env l = eval env l ∧ exact cut env r = eval env r))
  | .orElse _ l r => Steady cut env l ∧ Steady cut env r
  | .shl l r => cut (.shl l r) = true ∨ Steady cut env l
  | .shr l r => cut (.shr l r) = true ∨ (Steady cut env l ∧ exact cut env l = eval env l)
  | .neg e => cut (.neg e) = true ∨ Steady cut env e
  | .bitneg e => cut (.bitneg e) = true ∨ Steady cut env e
  | .ext t e => cut (.ext t e) = true ∨ Steady cut env e
  | .tern _ a b => Steady cut env a ∧ Steady cut env b
  | .plus e => Steady cut env e
  | .unwrap e => Steady cut env e
  | .rethrow e => Steady cut env e
  | .last e => Steady cut env e

/-- The subexpressions a narrowing to `w` bits takes the value from: leaves, constants and conversions
to at most `w` bits.  Shift amounts, conditions and assigned values are not among them. -/
def sources (w : Nat) : Expr → List Expr
  | .bin _ l r => sources w l ++ sources w r
  | .orElse _ l r => sources w l ++ sources w r
  | .shl l _ => sources w l
  | .shr l _ => sources w l
  | .tern _ a b => sources w a ++ sources w b
  | .ext t e => if t.bits ≤ w then [.ext t e] else sources w e
  | .neg e => sources w e
  | .bitneg e => sources w e
  | .plus e => sources w e
  | .unwrap e => sources w e
  | .rethrow e => sources w e
  | .last e => sources w e
  | e => [e]

/-- A source fits the target type `t`: a constant is a value of `t`; every value the type of anything
else has needs no more bits than `t` has (keeping its own signedness). -/
def SourceFits (t : TypeKind) (s : Expr) : Prop :=
  match s with
  | .lit c => t.InRange c.val
  | s => ∀ v, s.ty.InRange v → FitsBits s.ty.signed t.bits v

/-- No slice length is among the sources. -/
def NoLen (w : Nat) (e : Expr) : Prop := ∀ i, Expr.len i ∉ sources w e

/-- `+e`, `e!!` and expression lists do not occur. -/
def Bare : Expr → Prop
  | .bin _ l r => Bare l ∧ Bare r
  | .orElse _ l r => Bare l ∧ Bare r
  | .shl l r => Bare l ∧ Bare r
  | .shr l r => Bare l ∧ Bare r
  | .assign _ _ _ => True
  | .neg e => Bare e
  | .bitneg e => Bare e
  | .ext _ _ => True
  | .tern _ a b => Bare a ∧ Bare b
  | .rethrow e => Bare e
  | .plus _ => False
  | .unwrap _ => False
  | .last _ => False
  | .leaf _ _ => True
  | .lit _ => True
  | .len _ => True

end C3.Casts
