import Verif.Bigint.Model

/-!
# Model of constant comparison: `expr_const_compare` and `expr_const_in_range` (`number.c`)

Addresses are 64-bit numbers.  The bytes of a string constant live in the compiler's memory, a function
from addresses to bytes; the array `expr_contract_array` builds is a block of its own, so it is kept as a
list and its address differs from every other.  A failed `ASSERT`, an `UNREACHABLE` and a read of the
member of the constant's union that was not written are `none`.
-/

set_option autoImplicit false

namespace C3.ConstCompare
open C3.Bigint

abbrev Addr := BitVec 64

/-- Memory holding the bytes of string constants. -/
abbrev Mem := Addr → BitVec 8

/-- A `Decl *` naming a fault or a global: its address, and for a `DECL_DEFINE` the declaration it names. -/
structure Decl where
  addr : Addr
  alias : Option Addr
deriving DecidableEq, Repr

/-- `decl_flatten`, compiler_internal.h 3226–3233. -/
def decl_flatten (d : Decl) : Addr :=
  match d.alias with
  | some a => a
  | none => d.addr

/-- The bytes of a constant: `ptr`, `len` in memory, or the array made by `expr_contract_array`. -/
inductive Bytes where
  | at (ptr : Addr) (len : Nat)
  | fresh (data : List (BitVec 8))
deriving DecidableEq, Repr

/-- `bytes.len`. -/
def Bytes.len : Bytes → Nat
  | .at _ n => n
  | .fresh d => d.length

/-- `bytes.ptr[i]`; reading a fresh array beyond its end is a fault. -/
def Bytes.get (mem : Mem) : Bytes → Nat → Option (BitVec 8)
  | .at p _, i => some (mem (p + BitVec.ofNat 64 i))
  | .fresh d, i => d[i]?

/-- `right->bytes.ptr == left->bytes.ptr`. -/
def Bytes.samePtr : Bytes → Bytes → Bool
  | .at p _, .at q _ => p = q
  | _, _ => false

/-- The initializers of an array of characters, `ConstInitializer` (compiler_internal.h): zeroed, some
elements given with their index, or all elements given. -/
inductive Init where
  | zero
  | array (elements : List (Nat × CInt))
  | arrayFull (elements : List CInt)
deriving Repr

/-- An initializer and the length of its array type. -/
structure Initializer where
  len : Nat
  init : Init
deriving Repr

/-- `ExprConst`, with the kinds of `ConstKind`, enums.h 583–599.  The initializer of a constant is kept only
where `expr_contract_array` reads it (arrays of characters); a `CONST_SLICE` without initializer is the
empty slice. -/
inductive Const where
  | float (f : BitVec 64)
  | integer (i : CInt)
  | bool (b : Bool)
  | enum (type : Addr) (ordinal : BitVec 32)
  | fault (d : Decl)
  | bytes (b : Bytes)
  | string (b : Bytes)
  | pointer (p : Addr)
  | typeid (t : Addr)
  | slice (i : Option Initializer)
  | initializer (i : Initializer)
  | untypedList
  | ref (d : Decl)
  | member (d : Addr)
deriving Repr

/-- `compare_bool`, number.c 12–31. -/
def compare_bool (left right : Bool) (op : CmpOp) : Bool :=
  match op with
  | .EQ => left == right
  | .NE => left != right
  | .GT => left && !right
  | .LT => !left && right
  | .GE => left || !right
  | .LE => !left || right

/-- The order of two `double`s as IEEE 754 gives it; `none` if one is a NaN.  A bit pattern is a sign, 11
exponent bits and 52 fraction bits; patterns of one sign are ordered as their lower 63 bits, and both zeros
are equal. -/
def fpKey (x : BitVec 64) : Option Int :=
  let mag : Nat := x.toNat % 2 ^ 63
  if mag > 0x7FF0000000000000 then none
  else some (if x.toNat < 2 ^ 63 then (mag : Int) else -(mag : Int))

/-- `compare_fps`, number.c 32–51: the C operators on `double`, false on a NaN except `!=`. -/
def compare_fps (left right : BitVec 64) (op : CmpOp) : Bool :=
  match fpKey left, fpKey right with
  | some l, some r =>
    match op with
    | .GE => decide (l ≥ r)
    | .LE => decide (l ≤ r)
    | .NE => decide (l ≠ r)
    | .GT => decide (l > r)
    | .LT => decide (l < r)
    | .EQ => decide (l = r)
  | _, _ =>
    match op with
    | .NE => true
    | _ => false

/-- `arr[i] = (char)int_to_i64(v)`: a store of the low byte, checked against the array. -/
def storeChar (arr : List (BitVec 8)) (i : Nat) (v : CInt) : Option (List (BitVec 8)) :=
  if i < arr.length then some (arr.set i (v.i.low.setWidth 8)) else none

/-- The loop over `CONST_INIT_ARRAY`, number.c 76–82. -/
def storeElements (arr : List (BitVec 8)) : List (Nat × CInt) → Option (List (BitVec 8))
  | [] => some arr
  | (i, v) :: rest => do storeElements (← storeChar arr i v) rest

/-- The loop over `CONST_INIT_ARRAY_FULL`, number.c 86–91. -/
def storeFull (arr : List (BitVec 8)) (i : Nat) : List CInt → Option (List (BitVec 8))
  | [] => some arr
  | v :: rest => do storeFull (← storeChar arr i v) (i + 1) rest

/-- `expr_contract_array`, number.c 52–97, giving the bytes of the result (its kind is the caller's); the
constant must be an initializer or a slice and the array non-empty (asserted). -/
def expr_contract_array : Const → Option Bytes
  | .slice none => some (.at 0#64 0)
  | .slice (some i) => contract i
  | .initializer i => contract i
  | _ => none
where
  contract (i : Initializer) : Option Bytes :=
    if i.len > 0 then
      match i.init with
      | .zero => some (.fresh (List.replicate i.len 0#8))
      | .array es => (storeElements (List.replicate i.len 0#8) es).map .fresh
      | .arrayFull es => (storeFull (List.replicate i.len 0#8) 0 es).map .fresh
    else none

/-- `strncmp(a, b, n) == 0` from index `i` on, with `n` bytes left: equal bytes up to `n` of them or up to
and including a zero byte. -/
def strncmpEq (mem : Mem) (a b : Bytes) (i : Nat) : Nat → Option Bool
  | 0 => some true
  | n + 1 => do
    let x ← a.get mem i
    let y ← b.get mem i
    if x ≠ y then return false
    else if x = 0#8 then return true
    else strncmpEq mem a b (i + 1) n

/-- `memcmp(a, b, n) == 0` from index `i` on, with `n` bytes left. -/
def memcmpEq (mem : Mem) (a b : Bytes) (i : Nat) : Nat → Option Bool
  | 0 => some true
  | n + 1 => do
    let x ← a.get mem i
    let y ← b.get mem i
    if x ≠ y then return false
    else memcmpEq mem a b (i + 1) n

/-- The label `RETURN`, number.c 220–222: the operator must be an equality (asserted). -/
def ret (is_eq : Bool) : CmpOp → Option Bool
  | .EQ => some is_eq
  | .NE => some (!is_eq)
  | _ => none

/-- The bytes of a constant of kind `CONST_BYTES` or `CONST_STRING`, `const_is_bytes`, number.c 99–102. -/
def bytesOf : Const → Option Bytes
  | .bytes b => some b
  | .string b => some b
  | _ => none

/-- The first part of `expr_const_compare`, number.c 107–129: where one side is a string or bytes and the
other is not, the other becomes bytes of the same kind. -/
def contractOther (left right : Const) : Option (Const × Const) :=
  match left, right with
  | .bytes a, .bytes b => some (.bytes a, .bytes b)
  | .bytes a, .string b => some (.bytes a, .string b)
  | .string a, .bytes b => some (.string a, .bytes b)
  | .string a, .string b => some (.string a, .string b)
  | .bytes a, r => (expr_contract_array r).map fun b => (.bytes a, .bytes b)
  | .string a, r => (expr_contract_array r).map fun b => (.string a, .string b)
  | l, .bytes b => (expr_contract_array l).map fun a => (.bytes a, .bytes b)
  | l, .string b => (expr_contract_array l).map fun a => (.string a, .string b)
  | l, r => some (l, r)

/-- The `switch` of `expr_const_compare`, number.c 130–219.  A pointer against a reference reads the address
of the `Decl` as the pointer (both are eight bytes of the union). -/
def compareSwitch (mem : Mem) (left right : Const) (op : CmpOp) : Option Bool :=
  match left, right with
  | .bool l, .bool r => some (compare_bool l r op)
  | .integer l, .integer r => some (int_comp l r op)
  | .fault l, .fault r => some (decl_flatten r == decl_flatten l)
  | .ref _, .pointer _ => some false
  | .ref l, .ref r => some (decl_flatten r == decl_flatten l)
  | .float l, .float r => some (compare_fps l r op)
  | .pointer l, .pointer r => some (int_comp ⟨⟨0#64, l⟩, .U64⟩ ⟨⟨0#64, r⟩, .U64⟩ op)
  | .pointer l, .ref r => some (int_comp ⟨⟨0#64, l⟩, .U64⟩ ⟨⟨0#64, r.addr⟩, .U64⟩ op)
  | .string l, r => do
    let r ← bytesOf r
    if l.len ≠ r.len then ret false op
    else if l.samePtr r then ret true op
    else ret (← strncmpEq mem l r 0 l.len) op
  | .typeid l, .typeid r => ret (l == r) op
  | .enum lt lo, .enum rt ro =>
    if rt ≠ lt then some false
    else match op with
      | .GT => some (lo > ro)
      | .GE => some (lo ≥ ro)
      | .LT => some (lo < ro)
      | .LE => some (lo ≤ ro)
      | .NE => some (lo != ro)
      | .EQ => some (lo == ro)
  | .bytes l, r => do
    let r ← bytesOf r
    if l.len ≠ r.len then ret false op
    else if l.samePtr r then ret true op
    else ret (← memcmpEq mem l r 0 l.len) op
  | .slice _, _ => some false
  | .initializer _, _ => some false
  | .untypedList, _ => some false
  | .member l, .member r => ret (l == r) op
  | _, _ => none

/-- `expr_const_compare`, number.c 104–223. -/
def expr_const_compare (mem : Mem) (left right : Const) (op : CmpOp) : Option Bool := do
  let (l, r) ← contractOther left right
  compareSwitch mem l r op

/-- `expr_const_in_range`, number.c 225–232; the upper bound is `none` when it is the lower bound's own
constant (`right == right_to`). -/
def expr_const_in_range (mem : Mem) (left right : Const) (right_to : Option Const) : Option Bool :=
  match right_to with
  | none => expr_const_compare mem left right .EQ
  | some to => do
    if ← expr_const_compare mem left right .GE then expr_const_compare mem left to .LE else return false

/-- `sema_constant_fold_ops`, sema_expr.c 215–239, for an expression that is a constant. -/
def sema_constant_fold_ops : Const → Bool
  | .integer _ | .float _ | .bool _ | .enum _ _ | .fault _ | .string _ | .pointer _ | .typeid _ | .bytes _ | .member _ => true
  | .initializer _ | .slice _ | .untypedList | .ref _ => false

/-- The folding step of `sema_expr_analyse_comp`, sema_expr.c 7498–7505, for two constants of the type both
sides were converted to: the inner `none` is a comparison left to run time. -/
def foldComp (mem : Mem) (left right : Const) (op : CmpOp) : Option (Option Bool) :=
  if sema_constant_fold_ops left then (expr_const_compare mem left right op).map some else some none

end C3.ConstCompare
