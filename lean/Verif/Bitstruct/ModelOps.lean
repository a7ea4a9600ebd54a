import Verif.Bitstruct.Model
import Verif.Bigint.Model

/-!
# `~`, `&`, `|`, `^` on bitstructs, as constants and as code

From `src/compiler/sema_initializers.c`, and `src/compiler/llvm_codegen_expr.c`.  Members of enum types are not modelled here.
-/

set_option autoImplicit false

namespace C3.Bitstruct

open C3.Bigint (CInt Int128 TypeKind int_not int_and int_or int_xor i128_clz i128_lshr64)

/-- The operators. -/
inductive BitOp where
  | and | or | xor
deriving DecidableEq, Repr

/-- The initializer of a member: `CONST_INIT_ZERO`, or `CONST_INIT_VALUE` with a constant `bool` or integer. -/
inductive Init where
  | zero
  | bool (b : Bool)
  | int (ixx : CInt)
deriving DecidableEq, Repr

/-- The initializer of a bitstruct: `CONST_INIT_ZERO`, or `CONST_INIT_STRUCT` with one for each member. -/
inductive Const where
  | zero
  | struct (init_struct : List Init)
deriving DecidableEq, Repr

/-- The kind of integer the member has as its type. -/
def Member.kind (m : Member) : Option TypeKind :=
  match m.bytes, m.signed with
  | 1, true => some .I8
  | 1, false => some .U8
  | 2, true => some .I16
  | 2, false => some .U16
  | 4, true => some .I32
  | 4, false => some .U32
  | 8, true => some .I64
  | 8, false => some .U64
  | 16, true => some .I128
  | 16, false => some .U128
  | _, _ => none

/-- An integer in `sema_invert_bitstruct_const_initializer`, 672–686. -/
def invertInt (m : Member) (ixx : CInt) : Option CInt := do
  let bits := m.stop - m.start
  let res ← int_not ixx
  let neg ← int_not ⟨⟨0, 0⟩, res.type⟩
  let zeros ← i128_clz neg.i
  let bits_used := 128 - zeros.toNat
  if bits_used > bits then
    let i ← i128_lshr64 neg.i (BitVec.ofNat 64 (bits_used - bits))
    some (int_and res ⟨i, neg.type⟩)
  else some res

/-- A member in `sema_invert_bitstruct_const_initializer`, 659–686. -/
def invertMember (m : Member) (init : Init) : Option Init :=
  match m.bool, init with
  | true, .zero => some (.bool true)
  | true, .bool b => some (.bool !b)
  | false, .zero => do
    let kind ← m.kind
    let res ← invertInt m ⟨⟨0, 0⟩, kind⟩
    some (.int res)
  | false, .int ixx => do
    let res ← invertInt m ixx
    some (.int res)
  -- a member of another union
  | _, _ => none

/-- The loop, 659–687. -/
def invertAll : List Member → List Init → Option (List Init)
  | [], [] => some []
  | m :: ms, init :: inits => do
    let init ← invertMember m init
    let inits ← invertAll ms inits
    some (init :: inits)
  -- `ASSERT(vec_size(initializer->init_struct) == len)`
  | _, _ => none

/-- `sema_invert_bitstruct_const_initializer`, 641–688. -/
def sema_invert_bitstruct_const_initializer (members : List Member) : Const → Option Const
  | .zero => do
    let inits ← invertAll members (members.map fun _ => .zero)
    some (.struct inits)
  | .struct init_struct => do
    let inits ← invertAll members init_struct
    some (.struct inits)

/-- `|=`, `^=`, `&=` on constants that are `bool`, 744–756. -/
def BitOp.bool : BitOp → Bool → Bool → Bool
  | .and => (· && ·)
  | .or => (· || ·)
  | .xor => (· ^^ ·)

/-- The same on integers, 763–772. -/
def BitOp.int : BitOp → CInt → CInt → CInt
  | .and => int_and
  | .or => int_or
  | .xor => int_xor

/-- A member in `sema_merge_bitstruct_const_initializers`, 723–775. -/
def mergeMember (op : BitOp) (m : Member) (l r : Init) : Option Init :=
  let (l, r) := if r = .zero then (r, l) else (l, r)
  if l = .zero then some (if op = .and then l else r)
  else
    match m.bool, l, r with
    | true, .bool a, .bool b => some (.bool (op.bool a b))
    | false, .int a, .int b => some (.int (op.int a b))
    | _, _, _ => none

/-- The loop, 721–776. -/
def mergeAll (op : BitOp) : List Member → List Init → List Init → Option (List Init)
  | [], [], [] => some []
  | m :: ms, l :: ls, r :: rs => do
    let init ← mergeMember op m l r
    let inits ← mergeAll op ms ls rs
    some (init :: inits)
  | _, _, _ => none

/-- `sema_merge_bitstruct_const_initializers`, 691–778.  It stores the result in one of the arguments. -/
def sema_merge_bitstruct_const_initializers (op : BitOp) (members : List Member) (l r : Const) : Option Const :=
  let (l, r) := if r = .zero then (r, l) else (l, r)
  match l, r with
  | .zero, .zero => some .zero
  | .zero, r => some (if op = .and then .zero else r)
  | .struct ls, .struct rs => (mergeAll op members ls rs).map .struct
  -- `ASSERT(lhs->kind == CONST_INIT_STRUCT && rhs->kind == CONST_INIT_STRUCT)`
  | _, _ => none

/-- The constant of the member's type that is emitted for an initializer, `llvm_emit_const_expr`: the low bits. -/
def Init.value (m : Member) : Init → m.Value
  | .zero => 0#(8 * m.bytes)
  | .bool b => (BitVec.ofBool b).setWidth (8 * m.bytes)
  | .int ixx => (ixx.i.high ++ ixx.i.low).setWidth (8 * m.bytes)

/-- The members with what is emitted for them. -/
def entries (members : List Member) (inits : List Init) : List Entry := List.zipWith (fun m i => ⟨m, i.value m⟩) members inits

/-- The bytes of a constant: `llvm_emit_const_bitstruct` for integers of `n` bytes, `CONST_INIT_ZERO` being zeros. -/
def Const.bytesInt (platform swap : Bool) (n : Nat) (members : List Member) : Const → Option Mem
  | .zero => some (List.replicate n 0)
  | .struct inits => constInt platform swap n (entries members inits)

/-- The bytes of a constant: `llvm_emit_const_bitstruct_array` for arrays. -/
def Const.bytesArray (swap : Bool) (len : Nat) (members : List Member) : Const → Option Mem
  | .zero => some (List.replicate len 0)
  | .struct inits => constArray swap len (entries members inits)

/-- `and`, `or`, `xor` -/
def BitOp.bits {w : Nat} : BitOp → BitVec w → BitVec w → BitVec w
  | .and => (· &&& ·)
  | .or => (· ||| ·)
  | .xor => (· ^^^ ·)

/-- `llvm_emit_bitstruct_binary_op`, llvm_codegen_expr.c 3921–3947; integers are loaded too. -/
def llvm_emit_bitstruct_binary_op (platform : Bool) (n : Nat) (op : BitOp) (l r : Mem) : Option Mem := do
  let l ← load platform n l
  let r ← load platform n r
  some (store platform n (op.bits l r))

/-- `UNARYOP_BITNEG` in `llvm_emit_unary_expr`, llvm_codegen_expr.c 2411–2426. -/
def emitNot (platform : Bool) (n : Nat) (mem : Mem) : Option Mem := do
  let val ← load platform n mem
  some (store platform n (~~~val))

end C3.Bitstruct
