import Verif.Bitstruct.Model
import Verif.Bigint.Model

/-!
# Which bitstructs are accepted

`sema_analyse_bitstruct` and `sema_analyse_bitstruct_member`, `src/compiler/sema_decls.c`, `parse_bitstruct_body`, `src/compiler/parse_global.c`.
Names, attributes other than `@overlap` and `@if`, and the positions of errors are left out.
-/

set_option autoImplicit false

namespace C3.Bitstruct

open C3.Bigint (CInt Int128 TypeKind int_is_neg int_comp CmpOp)

/-- The type of a member, after `type_flatten_for_bitstruct`. -/
inductive MemberType where
  | bool
  | int (kind : TypeKind)
  | other
deriving DecidableEq, Repr

/-- An expression for a bit: what `sema_analyse_expr` and `sema_cast_const` make of it. -/
inductive BitExpr where
  | const (ixx : CInt)
  | other
deriving DecidableEq, Repr

/-- The range after a member: none, `: a`, `: a..b`. -/
inductive Range where
  | none
  | single (start : BitExpr)
  | range (start stop : BitExpr)
deriving DecidableEq, Repr

/-- A member as it is written; `erased` is an `@if` that is false. -/
structure Source where
  type : MemberType
  range : Range
  erased : Bool
deriving DecidableEq, Repr

/-- A member after `parse_bitstruct_body`: with a bit that was inferred, or expressions. -/
inductive Bits where
  | inferred (bit : Nat)
  | single (start : BitExpr)
  | range (start stop : BitExpr)
deriving DecidableEq, Repr

structure Decl where
  type : MemberType
  bits : Bits
  erased : Bool
deriving DecidableEq, Repr

/-- The loop of `parse_bitstruct_body`, parse_global.c 1869–1924. -/
def parseLoop : Bool → List Decl → List Source → Option (Bool × List Decl)
  | consecutive, members, [] => some (consecutive, members)
  | consecutive, members, s :: rest =>
    match s.range with
    | .none =>
      if !consecutive && !members.isEmpty then none
      else parseLoop true (members ++ [⟨s.type, .inferred members.length, s.erased⟩]) rest
    | .single start => if consecutive then none else parseLoop consecutive (members ++ [⟨s.type, .single start, s.erased⟩]) rest
    | .range start stop => if consecutive then none else parseLoop consecutive (members ++ [⟨s.type, .range start stop, s.erased⟩]) rest

/-- `parse_bitstruct_body`, parse_global.c 1866–1926: `strukt.consecutive` and the members. -/
def parse_bitstruct_body (s : List Source) : Option (Bool × List Decl) := parseLoop false [] s

/-- `type_size` and the like of the type of a member. -/
def MemberType.bytes : MemberType → Nat
  | .bool => 1
  | .int .I8 | .int .U8 => 1
  | .int .I16 | .int .U16 => 2
  | .int .I32 | .int .U32 => 4
  | .int .I64 | .int .U64 => 8
  | .int .I128 | .int .U128 => 16
  | .other => 0

def MemberType.signed : MemberType → Bool
  | .int .I8 | .int .I16 | .int .I32 | .int .I64 | .int .I128 => true
  | _ => false

/-- `MAX_BITSTRUCT`, compiler_internal.h 48 -/
def MAX_BITSTRUCT : Nat := 0x1000

/-- The bit of an expression, 804–820 and 829–838: a constant, not negative, less than the number of bits. -/
def bitOfExpr (bits : Nat) : BitExpr → Option Nat
  | .other => none
  | .const ixx =>
    if int_is_neg ixx then none
    else if int_comp ixx ⟨⟨0, BitVec.ofNat 64 bits⟩, .I64⟩ .GE then none
    -- `(unsigned)`
    else some (ixx.i.low.toNat % 2 ^ 32)

/-- The range, 783–862: its first and its last bit, and whether the width is to be checked (it is not after `goto AFTER_BIT_CHECK`). -/
def rangeOf (consecutive : Bool) (bits : Nat) (d : Decl) : Option (Nat × Nat × Bool) :=
  match consecutive, d.bits with
  | true, .inferred bit => if d.type ≠ .bool then none else if bit ≥ bits then none else some (bit, bit, false)
  -- `ASSERT(!member->var.bit_is_expr)`
  | true, _ => none
  | false, .single start => do
    let start_bit ← bitOfExpr bits start
    if d.type ≠ .bool then none else some (start_bit, start_bit, true)
  | false, .range start stop => do
    let start_bit ← bitOfExpr bits start
    let end_bit ← bitOfExpr bits stop
    if start_bit > end_bit then none else some (start_bit, end_bit, true)
  | false, .inferred bit => some (bit, bit, true)

/-- The check for members with bits in common, 883–899. -/
def overlaps (start_bit end_bit : Nat) (other : Member) : Bool :=
  (start_bit ≥ other.start || end_bit ≥ other.start) && start_bit ≤ other.stop

/-- `sema_analyse_bitstruct_member`, 723–903, with the members before it.  In the code, the end of a range is not analysed (`start` is
once more); that is left out. -/
def sema_analyse_bitstruct_member (size : Nat) (consecutive allow_overlap : Bool) (before : List Member) (d : Decl) : Option Member := do
  if d.type = .other then none
  else
    let bits := size * 8
    if bits > MAX_BITSTRUCT then none
    else
      let (start_bit, end_bit, check) ← rangeOf consecutive bits d
      let bitsize_type := if d.type = .bool then 1 else d.type.bytes * 8
      let bits_available := end_bit + 1 - start_bit
      if check && bitsize_type < bits_available then none
      else if !allow_overlap && before.any (overlaps start_bit end_bit) then none
      else some ⟨start_bit, end_bit, d.type.bytes, d.type.signed, decide (d.type = .bool)⟩

/-- The loop of `sema_analyse_bitstruct`, 1071–1085. -/
def analyseAll (size : Nat) (consecutive allow_overlap : Bool) : List Member → List Decl → Option (List Member)
  | before, [] => some before
  | before, d :: rest =>
    if d.erased then analyseAll size consecutive allow_overlap before rest
    else (sema_analyse_bitstruct_member size consecutive allow_overlap before d).bind fun m => analyseAll size consecutive allow_overlap (before ++ [m]) rest

/-- A bitstruct with a container of `size` bytes: the members, if it is accepted. -/
def bitstruct (size : Nat) (allow_overlap : Bool) (s : List Source) : Option (List Member) := do
  let (consecutive, members) ← parse_bitstruct_body s
  analyseAll size consecutive allow_overlap [] members

end C3.Bitstruct
