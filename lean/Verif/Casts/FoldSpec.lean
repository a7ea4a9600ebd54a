import Verif.Casts.FoldModel
import Verif.Casts.Spec

/-!
# Specification vocabulary for constant folding
-/

set_option autoImplicit false

namespace C3.Casts
open C3.Bigint

/-- The expression is made of literals only, by operators the compiler evaluates itself. -/
def Constant : Expr → Prop
  | .lit _ => True
  | .bin _ l r => Constant l ∧ Constant r
  | .shl l r => Constant l ∧ Constant r
  | .shr l r => Constant l ∧ Constant r
  | .neg e => Constant e
  | .bitneg e => Constant e
  | .ext _ e => Constant e
  | _ => False

/-- No constant remainder by a negative constant occurs. -/
def NoNegRem (env : Env) : Expr → Prop
  | .bin op l r => NoNegRem env l ∧ NoNegRem env r ∧
      (op = .mod → Constant l → Constant r → ∀ b, eval env r = some b → 0 ≤ b)
  | .orElse _ l r => NoNegRem env l ∧ NoNegRem env r
  | .shl l r => NoNegRem env l ∧ NoNegRem env r
  | .shr l r => NoNegRem env l ∧ NoNegRem env r
  | .assign _ _ r => NoNegRem env r
  | .neg e => NoNegRem env e
  | .bitneg e => NoNegRem env e
  | .plus e => NoNegRem env e
  | .ext _ e => NoNegRem env e
  | .tern _ a b => NoNegRem env a ∧ NoNegRem env b
  | .unwrap e => NoNegRem env e
  | .rethrow e => NoNegRem env e
  | .last e => NoNegRem env e
  | .leaf _ _ => True
  | .lit _ => True
  | .len _ => True

/-- Every shift by a constant is by an amount from zero up to the width of the left side. -/
def ShiftsFit (env : Env) : Expr → Prop
  | .shl l r => ShiftsFit env l ∧ ShiftsFit env r ∧
      (Constant r → ∀ b, eval env r = some b → 0 ≤ b ∧ b < l.ty.bits)
  | .shr l r => ShiftsFit env l ∧ ShiftsFit env r ∧
      (Constant r → ∀ b, eval env r = some b → 0 ≤ b ∧ b < l.ty.bits)
  | .bin _ l r => ShiftsFit env l ∧ ShiftsFit env r
  | .orElse _ l r => ShiftsFit env l ∧ ShiftsFit env r
  | .assign _ _ r => ShiftsFit env r
  | .neg e => ShiftsFit env e
  | .bitneg e => ShiftsFit env e
  | .plus e => ShiftsFit env e
  | .ext _ e => ShiftsFit env e
  | .tern _ a b => ShiftsFit env a ∧ ShiftsFit env b
  | .unwrap e => ShiftsFit env e
  | .rethrow e => ShiftsFit env e
  | .last e => ShiftsFit env e
  | .leaf _ _ => True
  | .lit _ => True
  | .len _ => True

/-- Everything in the expression is evaluated: no `?:` and no `??`. -/
def Strict : Expr → Prop
  | .bin _ l r => Strict l ∧ Strict r
  | .orElse _ _ _ => False
  | .tern _ _ _ => False
  | .shl l r => Strict l ∧ Strict r
  | .shr l r => Strict l ∧ Strict r
  | .assign _ _ r => Strict r
  | .neg e => Strict e
  | .bitneg e => Strict e
  | .plus e => Strict e
  | .ext _ e => Strict e
  | .unwrap e => Strict e
  | .rethrow e => Strict e
  | .last e => Strict e
  | .leaf _ _ => True
  | .lit _ => True
  | .len _ => True

end C3.Casts
