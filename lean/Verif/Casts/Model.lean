import Verif.Bigint.Model
import Mathlib.Data.Int.Bitwise

/-!
# Model of the implicit conversions between integer types

`src/compiler/sema_casts.c` (`rule_widen_narrow`, `recursive_may_narrow`, `cast_int_to_int`) and
`src/compiler/expr.c` (`expr_is_simple`), together with what `src/compiler/llvm_codegen_expr.c`
emits for integer expressions, so that accepted conversions can be given run-time values.

An analysed integer expression is a tree.  A register of `w` bits is a `BitVec w`; the value of an
expression of an integer type is the number its register denotes under that type.  Undefined
behaviour and traps (division by zero, the quotient `MIN / -1`, a shift amount out of range) are the
outcome `none`.
-/

set_option autoImplicit false

namespace C3.Casts
open C3.Bigint

/-- The binary operators on integers other than shifts and `??`,
`src/compiler/enums.h` (`BINARYOP_MULT` ..). -/
inductive BinOp where
  | add | sub | mul | div | mod | or | xor | and
deriving DecidableEq, Repr

/-- Analysed expressions of integer type (`Expr`, `src/compiler/compiler_internal.h`).

* `leaf t i`: any expression whose type is intrinsic and which `recursive_may_narrow` and
  `expr_is_simple` do not look into: variables, calls, member accesses, subscripts, dereferences.
  `i` names the occurrence, so that two reads of one variable around an update are different leaves.
  `EXPR_POST_UNARY` and `++x`/`--x`, which look through to the variable they update, are leaves of
  that variable's type as well.
* `lit c`: `EXPR_CONST` with an integer constant.
* `len i`: `EXPR_SLICE_LEN`, whose type is `usz` (64 bits here).
* `bin op l r`: both sides have been converted to one type by the analyser.
* `orElse i l r`: `l ?? r`; whether `l` is a fault is given by the environment.
* `shl`, `shr`; the right side may have any integer type.
* `assign t i r`: an assignment to the occurrence `i` of a variable of type `t`; `r` has been
  converted to `t`.  A compound assignment is the same with the operation done in `r`.
* `neg`, `bitneg`: `EXPR_UNARY`.
* `plus e`: `+e`, which the analyser turns into an `EXPR_RECAST` (`sema_expr.c:7820-7831`).
* `ext t e`: `EXPR_EXT_TRUNC`, the conversion of `e` to `t`; its `is_signed` is always the
  signedness of the type of `e` (`cast_int_to_int`).
* `tern i a b`: `EXPR_TERNARY`; the condition is given by the environment.  `a ?: b` has become a
  ternary on a temporary variable when it gets here (`sema_expr.c:935-949`).
* `unwrap e`: `EXPR_FORCE_UNWRAP` (`e!!`);  `rethrow e`: `EXPR_RETHROW` (`e!`);
  `last e`: `EXPR_TWO` and `EXPR_EXPRESSION_LIST`, of which the last expression is the value.

Left out: the other uses of `EXPR_RECAST` and `EXPR_BITASSIGN` (bitstructs), `EXPR_PTR_TO_INT`, enum constants, vectors,
floating point, and everything that is not of integer type. -/
inductive Expr where
  | leaf (t : TypeKind) (i : Nat)
  | lit (c : CInt)
  | len (i : Nat)
  | bin (op : BinOp) (l r : Expr)
  | orElse (i : Nat) (l r : Expr)
  | shl (l r : Expr)
  | shr (l r : Expr)
  | assign (t : TypeKind) (i : Nat) (r : Expr)
  | neg (e : Expr)
  | bitneg (e : Expr)
  | plus (e : Expr)
  | ext (t : TypeKind) (e : Expr)
  | tern (i : Nat) (a b : Expr)
  | unwrap (e : Expr)
  | rethrow (e : Expr)
  | last (e : Expr)
deriving DecidableEq, Repr

/-- `expr->type` (without the optional). -/
def Expr.ty : Expr → TypeKind
  | .leaf t _ => t
  | .lit c => c.type
  | .len _ => .U64
  | .bin _ l _ => l.ty
  | .orElse _ l _ => l.ty
  | .shl l _ => l.ty
  | .shr l _ => l.ty
  | .assign t _ _ => t
  | .neg e => e.ty
  | .bitneg e => e.ty
  | .plus e => e.ty
  | .ext t _ => t
  | .tern _ a _ => a.ty
  | .unwrap e => e.ty
  | .rethrow e => e.ty
  | .last e => e.ty

/-- `type_size`, in bytes, `src/compiler/types.c` (integer types). -/
def type_size (t : TypeKind) : Nat := type_kind_bitsize t / 8

/-- `expr_const_will_overflow`, `src/compiler/number.c:264-292`, the case `CONST_INTEGER`. -/
def expr_const_will_overflow (c : CInt) (kind : TypeKind) : Bool := !int_fits c kind

/-- `recursive_may_narrow`, `src/compiler/sema_casts.c:334-520`: `true` for the result `NULL` (no
problem), `false` for a problem expression. -/
def recursive_may_narrow (type : TypeKind) : Expr → Bool
  | .bin _ l r =>
    -- *, -, +, /, %, |, ^, &, ?? -> check both sides.
    recursive_may_narrow type l && recursive_may_narrow type r
  | .orElse _ l r => recursive_may_narrow type l && recursive_may_narrow type r
  -- For shifts and assignment, ignore the right hand side.
  | .shl l _ => recursive_may_narrow type l
  | .shr l _ => recursive_may_narrow type l
  | .assign t _ _ => decide (¬ type_size t > type_size type)
  | .len _ => decide (¬ type_size type < type_size .I32)
  | .last e => recursive_may_narrow type e
  | .tern _ a b => recursive_may_narrow type a && recursive_may_narrow type b
  | .ext t e => if type_size type ≥ type_size t then true else recursive_may_narrow type e
  | .lit c => !expr_const_will_overflow c type
  | .unwrap e => recursive_may_narrow type e
  | .rethrow e => recursive_may_narrow type e
  | .plus e => recursive_may_narrow type e
  | .neg e => recursive_may_narrow type e
  | .bitneg e => recursive_may_narrow type e
  -- CHECK_SIZE
  | .leaf t _ => decide (¬ type_size t > type_size type)

/-- `expr_is_simple` with `to_float = false`, `src/compiler/expr.c:923-990`. -/
def expr_is_simple : Expr → Bool
  | .tern _ a b => expr_is_simple b && expr_is_simple a
  | .rethrow e => expr_is_simple e
  | .bin .div l r => expr_is_simple l && expr_is_simple r
  | .bin .mod l r => expr_is_simple l && expr_is_simple r
  | .orElse _ l r => expr_is_simple l && expr_is_simple r
  | .bin _ _ _ => false
  | .assign _ _ _ => true
  | .shl _ _ => false
  | .shr _ _ => false
  | .bitneg _ => false
  | .neg _ => false
  -- default
  | .plus _ => true
  | .leaf _ _ => true
  | .lit _ => true
  | .len _ => true
  | .ext _ _ => true
  | .unwrap _ => true
  | .last _ => true

/-- `sema_cast_const(expr) && expr_const_will_overflow(&expr->const_expr, kind)`,
`src/compiler/sema_casts.c:1259`. -/
def constOverflows (kind : TypeKind) : Expr → Bool
  | .lit c => expr_const_will_overflow c kind
  | _ => false

/-- `rule_widen_narrow`, `src/compiler/sema_casts.c:1238-1294`, for an implicit conversion between
integer types.  The caller `cast_is_allowed` (95-145) has accepted equal types. -/
def rule_widen_narrow (e : Expr) (to' : TypeKind) : Bool :=
  let to_size := type_size to'
  let from_size := type_size e.ty
  -- If widening, require simple.
  if to_size > from_size then expr_is_simple e
  else
    -- If const, check in range.
    if constOverflows to' e then false
    -- Allow int <-> uint
    else if to_size = from_size then true
    else recursive_may_narrow to' e

/-- `cast_int_to_int`, `src/compiler/sema_casts.c:1653-1681`. -/
def cast_int_to_int (e : Expr) (to' : TypeKind) : Option Expr :=
  match e with
  | .lit c => (int_conv c to').map .lit
  | e => some (.ext to' e)

/-- `cast_implicit`: `cast_if_valid`, `src/compiler/sema_casts.c:283-323`, with `is_explicit` false,
for two integer types; the outer `none` is "the conversion is refused". -/
def castImplicit (e : Expr) (to' : TypeKind) : Option Expr :=
  if e.ty = to' then some e
  else if rule_widen_narrow e to' then cast_int_to_int e to'
  else none

/-! ## Run-time values -/

/-- What an execution supplies: the value of each occurrence of a leaf, the outcome of each condition
and whether the left side of a `??` is a fault. -/
structure Env where
  val : TypeKind → Nat → Int
  len : Nat → Int
  cond : Nat → Bool
  fault : Nat → Bool

/-- The number denoted by the register of type `t` that holds the low bits of `x`. -/
def reg (t : TypeKind) (x : Int) : Int :=
  let b := BitVec.ofInt (type_kind_bitsize t) x
  if type_kind_is_signed t then b.toInt else (b.toNat : Int)

/-- The operation `llvm_emit_binary` emits, `src/compiler/llvm_codegen_expr.c:4055-4145`, with
`trap_on_wrap` off: `add`, `sub`, `mul`, `sdiv`/`udiv`, `srem`/`urem`, `or`, `xor`, `and`. -/
def emitBin (t : TypeKind) : BinOp → Int → Int → Option Int
  | .add, a, b => some (reg t (a + b))
  | .sub, a, b => some (reg t (a - b))
  | .mul, a, b => some (reg t (a * b))
  | .div, a, b =>
    if b = 0 then none
    else if reg t (a.tdiv b) = a.tdiv b then some (a.tdiv b) else none
  | .mod, a, b =>
    if b = 0 then none
    else if reg t (a.tdiv b) = a.tdiv b then some (a.tmod b) else none
  | .or, a, b => some (reg t (Int.lor a b))
  | .xor, a, b => some (reg t (Int.xor a b))
  | .and, a, b => some (reg t (Int.land a b))

/-- The shift amount: the right side zero extended or truncated to the width of the left side
(`llvm_zext_trunc`), which must be below that width (`llvm_emit_trap_invalid_shift`),
`src/compiler/llvm_codegen_expr.c:4105-4118`. -/
def shiftAmount (tl tr : TypeKind) (r : Int) : Option Nat :=
  let s := ((BitVec.ofInt (type_kind_bitsize tr) r).setWidth (type_kind_bitsize tl)).toNat
  if s < type_kind_bitsize tl then some s else none

/-- `llvm_emit_expr` on integer expressions, `src/compiler/llvm_codegen_expr.c`; `ext` is
`llvm_emit_ext_trunc`, 6830-6851 (extension by the sign of the source type, or truncation). -/
def eval (env : Env) : Expr → Option Int
  | .leaf t i => some (env.val t i)
  | .lit c =>
    some (reg c.type (c.i.high.toNat * 2 ^ 64 + c.i.low.toNat : Nat))
  | .len i => some (env.len i)
  | .bin op l r =>
    match eval env l, eval env r with
    | some a, some b => emitBin l.ty op a b
    | _, _ => none
  | .orElse i l r => if env.fault i then eval env r else eval env l
  | .shl l r =>
    match eval env l, eval env r with
    | some a, some b => (shiftAmount l.ty r.ty b).map fun s => reg l.ty (a * 2 ^ s)
    | _, _ => none
  | .shr l r =>
    match eval env l, eval env r with
    | some a, some b => (shiftAmount l.ty r.ty b).map fun s => a / 2 ^ s
    | _, _ => none
  | .assign _ _ r => eval env r
  | .neg e => (eval env e).map fun a => reg e.ty (-a)
  | .bitneg e => (eval env e).map fun a => reg e.ty (-a - 1)
  | .plus e => eval env e
  | .ext t e => (eval env e).map (reg t)
  | .tern i a b => if env.cond i then eval env a else eval env b
  | .unwrap e => eval env e
  | .rethrow e => eval env e
  | .last e => eval env e

end C3.Casts
