import Verif.Casts.Model

/-!
# Model of constant folding of integer expressions

The integer-constant paths of `sema_expr_analyse_add`, `_sub`, `_mult`, `_div`, `_mod`, `_bit`,
`_shift`, `_neg_plus`, `_bit_not` in `src/compiler/sema_expr.c` and of `cast_int_to_int` in
`src/compiler/sema_casts.c`, put together over whole expressions.
-/

set_option autoImplicit false

namespace C3.Casts
open C3.Bigint

/-- Outcome of the analysis of an expression: a compile error or the analysed expression. -/
inductive Res where
  | error
  | ok (e : Expr)
deriving DecidableEq, Repr

/-- Continue with the analysed operand; the outer `none` is undefined behaviour of the compiler. -/
def Res.andThen (r : Option Res) (f : Expr → Option Res) : Option Res :=
  match r with
  | none => none
  | some .error => some .error
  | some (.ok e) => f e

/-- A folded operation on two constants. -/
def ofFold : Option Fold → Option Res
  | none => none
  | some .error => some .error
  | some (.const c) => some (.ok (.lit c))

/-- A folded operation that cannot be refused. -/
def ofInt : Option CInt → Option Res
  | none => none
  | some c => some (.ok (.lit c))

/-- Two analysed operands of one type under a binary operator: `sema_expr_analyse_add` 6966-6980, `_sub`
6828-6843, `_mult` 7006-7022, `_div` 7042-7080, `_mod` 7116-7126, `_bit` 7154-7195 of
`src/compiler/sema_expr.c`.  A constant zero on the right of `/` and `%` is an error whatever is on the
left. -/
def foldBin (op : BinOp) (l r : Expr) : Option Res :=
  match l, r with
  | .lit a, .lit b =>
    match op with
    | .add => ofInt (int_add a b)
    | .sub => ofInt (int_sub a b)
    | .mul => ofInt (int_mul a b)
    | .div => ofFold (sema_fold_div a b)
    | .mod => ofFold (sema_fold_mod a b)
    | .or => some (.ok (.lit (int_or a b)))
    | .xor => some (.ok (.lit (int_xor a b)))
    | .and => some (.ok (.lit (int_and a b)))
  | l, .lit b =>
    if (op = .div ∨ op = .mod) ∧ int_is_zero b = true then some .error
    else some (.ok (.bin op l (.lit b)))
  | l, r => some (.ok (.bin op l r))

/-- Two analysed operands of a shift: `sema_expr_check_shift_rhs` and `sema_expr_analyse_shift`,
`src/compiler/sema_expr.c:7213-7284`.  A constant amount is checked whatever is on the left. -/
def foldShift (shr : Bool) (l r : Expr) : Option Res :=
  match l, r with
  | .lit a, .lit b => ofFold (sema_fold_shift shr a b)
  | l, .lit b =>
    if int_ucomp b (BitVec.ofNat 64 (type_kind_bitsize l.ty)) .GE = true then some .error
    else if int_is_neg b = true then some .error
    else some (.ok (if shr then .shr l (.lit b) else .shl l (.lit b)))
  | l, r => some (.ok (if shr then .shr l r else .shl l r))

/-- The analysis of an expression whose operands already have their final types, from the leaves up.
`sema_expr_analyse_neg_plus` 7782-7852 (a unary plus is never folded, since `expr_is_const` is asked of
the unary expression itself), `sema_expr_analyse_bit_not` 7861-7916, `cast_int_to_int` for
conversions.  Conditions are not constants here. -/
def fold : Expr → Option Res
  | .leaf t i => some (.ok (.leaf t i))
  | .lit c => some (.ok (.lit c))
  | .len i => some (.ok (.len i))
  | .bin op l r => Res.andThen (fold l) fun l => Res.andThen (fold r) fun r => foldBin op l r
  | .orElse i l r => Res.andThen (fold l) fun l => Res.andThen (fold r) fun r => some (.ok (.orElse i l r))
  | .shl l r => Res.andThen (fold l) fun l => Res.andThen (fold r) fun r => foldShift false l r
  | .shr l r => Res.andThen (fold l) fun l => Res.andThen (fold r) fun r => foldShift true l r
  | .assign t i r => Res.andThen (fold r) fun r => some (.ok (.assign t i r))
  | .neg e => Res.andThen (fold e) fun e =>
    match e with
    | .lit c => ofInt (int_neg c)
    | e => some (.ok (.neg e))
  | .bitneg e => Res.andThen (fold e) fun e =>
    match e with
    | .lit c => ofInt (int_not c)
    | e => some (.ok (.bitneg e))
  | .plus e => Res.andThen (fold e) fun e => some (.ok (.plus e))
  | .ext t e => Res.andThen (fold e) fun e =>
    match cast_int_to_int e t with
    | none => none
    | some e => some (.ok e)
  | .tern i a b => Res.andThen (fold a) fun a => Res.andThen (fold b) fun b => some (.ok (.tern i a b))
  | .unwrap e => Res.andThen (fold e) fun e => some (.ok (.unwrap e))
  | .rethrow e => Res.andThen (fold e) fun e => some (.ok (.rethrow e))
  | .last e => Res.andThen (fold e) fun e => some (.ok (.last e))

end C3.Casts
