/-
Model of how values are passed to and returned from functions on x86-64 outside Windows
(/repo/src/compiler/abi/c_abi_x64.c).

Types are lowered types (`type_lowering`, /repo/src/compiler/codegen_internal.h 20-89): no distinct types, enums, bitstructs,
optionals and no aliases, in members too. Vectors are left out, and so are the functions for `regcall`, which nothing calls. A
failed `ASSERT`, an `UNREACHABLE` and a null pointer that is used are `none`.
-/
set_option autoImplicit false

namespace C3.Abi

/-- Floating point types of at most 64 bits. -/
inductive FKind where
  | f16 | bf16 | f32 | f64
deriving DecidableEq, Repr

/-- `type_size` of one. -/
def FKind.size : FKind → Nat
  | .f16 => 2
  | .bf16 => 2
  | .f32 => 4
  | .f64 => 8

/-- `type_is_16bit_float` (compiler_internal.h 2832-2836). -/
def FKind.half : FKind → Bool
  | .f16 => true
  | .bf16 => true
  | _ => false

mutual
/-- Lowered types. `int` is `bool` and every integer type of at most 64 bits, `ptr` every pointer. `agg` is a struct or a union
(the flag) with the size, the alignment and the offsets of members that /repo/src/compiler/sema_decls.c 332-690 gave it, and
`has_variable_array`. -/
inductive Ty where
  | void
  | int (signed : Bool) (bytes : Nat)
  | ptr
  | i128
  | float (k : FKind)
  | f128
  | slice
  | any
  | agg (isUnion : Bool) (size align : Nat) (flex : Bool) (ms : Ms)
  | array (elem : Ty) (len : Nat)
/-- Members with their offsets. -/
inductive Ms where
  | nil
  | cons (offset : Nat) (type : Ty) (rest : Ms)
end

/-- `type_size` (/repo/src/compiler/types.c 314-380). -/
def size : Ty → Nat
  | .void => 1
  | .int _ b => b
  | .ptr => 8
  | .i128 => 16
  | .float k => k.size
  | .f128 => 16
  | .slice => 16
  | .any => 16
  | .agg _ s _ _ _ => s
  | .array e n => size e * n

/-- `type_abi_alignment` (types.c 667-736) with the alignments of x86-64 (target.c 1575-1650). -/
def align : Ty → Nat
  | .void => 1
  | .int _ b => b
  | .ptr => 8
  | .i128 => 16
  | .float k => k.size
  | .f128 => 16
  | .slice => 8
  | .any => 8
  | .agg _ _ a _ _ => a
  | .array e _ => align e

/-- `X64Class` (c_abi_x64.c 28-36). -/
inductive Class where
  | no | mem | integer | sse | sseup
deriving DecidableEq, Repr

/-- The order of the enumeration. -/
def Class.ord : Class → Nat
  | .no => 0
  | .mem => 1
  | .integer => 2
  | .sse => 3
  | .sseup => 4

/-- The last part of `x64_merge` (188-201), for `accum` before `field`. -/
def mergeOrd (accum field : Class) : Class :=
  match accum with
  | .no => field
  | .mem => .mem
  | .integer => .integer
  | .sseup => .sse
  | .sse => .sse

/-- `x64_merge` (169-203). -/
def merge (accum field : Class) : Option Class :=
  if accum = .mem then none
  else if accum = field then some accum
  else if accum.ord > field.ord then some (mergeOrd field accum)
  else some (mergeOrd accum field)

/-- `lo_class` and `hi_class`. -/
abbrev Classes := Class × Class

/-- `*current = c` (374-377): `current` is the low class for an offset below 8, else the high one. -/
def setCurrent (offset : Nat) (s : Classes) (c : Class) : Classes :=
  if offset < 8 then (c, s.2) else (s.1, c)

/-- `x64_classify_post_merge` (204-221). -/
def postMerge (size : Nat) (s : Classes) : Classes :=
  if s.2 = .mem then (.mem, s.2)
  else if size > 16 ∧ (s.1 ≠ .sse ∨ s.2 ≠ .sseup) then (.mem, s.2)
  else if s.2 = .sseup ∧ s.1 ≠ .sse ∧ s.1 ≠ .sseup then (s.1, .sse)
  else s

/-- One round of the loops over members and elements: the two merges. -/
def mergeBoth (s f : Classes) : Option Classes := do
  let lo ← merge s.1 f.1
  let hi ← merge s.2 f.2
  some (lo, hi)

/-- The loop of `x64_classify_array` (296-306). `f` classifies an element at an offset. -/
def arrayLoop (f : Nat → Option Classes) (elemSize : Nat) : Nat → Nat → Classes → Option Classes
  | 0, _, s => some s
  | n + 1, offset, s => do
    let c ← f offset
    let s ← mergeBoth s c
    if s.1 = .mem ∨ s.2 = .mem then some s
    else arrayLoop f elemSize n (offset + elemSize) s

mutual
/-- `x64_classify` (372-431) with `x64_classify_struct_union` (223-268) and `x64_classify_array` (270-309). `avx` is
`native_vector_size_avx`. -/
def classify (avx : Nat) : Ty → Nat → Option Classes
  | .void, offset => some (setCurrent offset (.no, .no) .no)
  | .int _ _, offset => some (setCurrent offset (.no, .no) .integer)
  | .ptr, offset => some (setCurrent offset (.no, .no) .integer)
  | .float _, offset => some (setCurrent offset (.no, .no) .sse)
  | .i128, _ => some (.integer, .integer)
  | .slice, _ => some (.integer, .integer)
  | .any, _ => some (.integer, .integer)
  | .f128, _ => some (.sse, .sseup)
  | .agg isUnion sz _ flex ms, offset =>
    if sz > 64 then some (setCurrent offset (.no, .no) .mem)
    else if flex then some (setCurrent offset (.no, .no) .mem)
    else classifyMembers avx isUnion sz offset ms (.no, .no)
  | .array e n, offset =>
    let sz := size e * n
    if sz > 64 then some (setCurrent offset (.no, .no) .mem)
    else if offset % align e ≠ 0 then
      some (postMerge sz (.mem, (setCurrent offset (.no, .no) .mem).2))
    else if sz > 16 ∧ (sz ≠ size e ∨ sz > avx) then some (.mem, .no)
    else do
      let s ← arrayLoop (classify avx e) (size e) n offset (.no, .no)
      let s := postMerge sz s
      if s.2 ≠ .sseup ∨ s.1 = .sse then some s else none

/-- The loop over members (236-267). -/
def classifyMembers (avx : Nat) (isUnion : Bool) (sz base : Nat) : Ms → Classes → Option Classes
  | .nil, s => some (postMerge sz s)
  | .cons o t rest, s =>
    if sz > 16 ∧ ((isUnion = false ∧ sz ≠ size t) ∨ sz > avx) then some (postMerge sz (.mem, s.2))
    else if (base + o) % align t ≠ 0 then some (postMerge sz (.mem, s.2))
    else do
      let f ← classify avx t (base + o)
      let s ← mergeBoth s f
      if s.1 = .mem ∨ s.2 = .mem then some (postMerge sz s)
      else classifyMembers avx isUnion sz base rest s
end

/-! ### The types of registers -/

/-- The loop over elements of `x64_bits_contain_no_user_data` (442-453): elements from `i`, `n` of them. -/
def noDataLoop (f : Nat → Nat → Bool) (elemSize start stop : Nat) : Nat → Nat → Bool
  | 0, _ => true
  | n + 1, i =>
    if i * elemSize ≥ stop then true
    else if f (if i * elemSize < start then start - i * elemSize else 0) (stop - i * elemSize) = false then false
    else noDataLoop f elemSize start stop n (i + 1)

mutual
/-- `x64_bits_contain_no_user_data` (433-468). -/
def noData : Ty → Nat → Nat → Bool
  | .array e n, start, stop =>
    if size e * n ≤ start then true else noDataLoop (noData e) (size e) start stop n 0
  | .agg _ sz _ _ ms, start, stop =>
    if sz ≤ start then true else noDataMembers start stop ms
  | t, start, _ => decide (size t ≤ start)

/-- Its loop over members (455-466). -/
def noDataMembers (start stop : Nat) : Ms → Bool
  | .nil => true
  | .cons o t rest =>
    if o ≥ stop then true
    else if noData t (if o < start then start - o else 0) (stop - o) = false then false
    else noDataMembers start stop rest
end

/-- `AbiType` (/repo/src/compiler/compiler_internal.h 1729-1736): a type, or an integer of a number of bits that is no type. The types
that occur are integers, pointers, floats and vectors of floats. -/
inductive AbiType where
  | int (signed : Bool) (bytes : Nat)
  | ptr
  | float (k : FKind)
  | f128
  | vector (k : FKind) (n : Nat)
  | bits (n : Nat)
deriving DecidableEq, Repr

/-- `abi_type_size` (c_abi.c 31-35). -/
def AbiType.size : AbiType → Nat
  | .int _ b => b
  | .ptr => 8
  | .float k => k.size
  | .f128 => 16
  | .vector k n => k.size * n
  | .bits n => n / 8

/-- `next_highest_power_of_2` (/repo/src/utils/lib.h 457-467) for the numbers of bits that occur, at most 64. -/
def pow2 (n : Nat) : Nat :=
  if n ≤ 8 then 8 else if n ≤ 16 then 16 else if n ≤ 32 then 32 else 64

/-- `abi_type_abi_alignment` (c_abi.c 37-41). Vectors that occur have a size that is a power of two. -/
def AbiType.align : AbiType → Nat
  | .int _ b => b
  | .ptr => 8
  | .float k => k.size
  | .f128 => 16
  | .vector k n => k.size * n
  | .bits n => pow2 n / 8

/-- `abi_type_get_int_bits` (c_abi_internal.h 63-75). -/
def intBits (bits : Nat) : AbiType :=
  if bits = 8 ∨ bits = 16 ∨ bits = 32 ∨ bits = 64 then .int false (bits / 8) else .bits bits

mutual
/-- `x64_get_fp_type_at_offset` (491-506): a type or `NULL`. `x64_get_member_at_offset` (358-370) gives `NULL` beyond the end,
and its member is used without a look. -/
def fpAt : Ty → Nat → Option (Option AbiType)
  | .float k, offset => some (if offset = 0 then some (.float k) else none)
  | .f128, offset => some (if offset = 0 then some .f128 else none)
  | .agg _ sz _ _ ms, offset => if sz ≤ offset then none else fpMembers offset ms none
  | .array e _, offset => fpAt e (offset - size e * (offset / size e))
  | _, _ => some none

/-- The last member before the first one that is behind the offset, and the type found in it; `last` is what the members before
give (`none` if there is none: the `ASSERT` on line 368). -/
def fpMembers (offset : Nat) : Ms → Option (Option AbiType) → Option (Option AbiType)
  | .nil, last => last
  | .cons o t rest, last => if o > offset then last else fpMembers offset rest (fpAt t (offset - o))
end

/-- `type_is_16bit_float`. -/
def AbiType.half : AbiType → Bool
  | .float k => k.half
  | _ => false

/-- The second number of an eightbyte (513-532). -/
def sseSecond (t : Ty) (offset : Nat) (f : AbiType) : Option (Option AbiType) :=
  match if size t - offset > f.size then fpAt t (offset + f.size) else some none with
  | none => none
  | some none => if f.half = true ∧ size t - offset > 4 then fpAt t (offset + 4) else some none
  | some (some g) => some (some g)

/-- What holds the first and the second number (534-549). -/
def sseJoin (t : Ty) (offset : Nat) (f : AbiType) : Option AbiType → Option AbiType
  | none => some f
  | some g =>
    if f = .float .f32 ∧ g = .float .f32 then some (.vector .f32 2)
    else if f.half = true ∧ g.half = true then
      match (if size t - offset > 4 then fpAt t (offset + 4) else some none), f with
      | some following, .float k => some (.vector k (if following.isSome then 4 else 2))
      | _, _ => none
    else if f.half = true ∨ g.half = true then some (.vector .f16 4)
    else some (.float .f64)

/-- `x64_get_sse_type_at_offset` (508-550); `ir_offset` and `source_offset`, `type` and `source_type` are the same in every call. -/
def sseType (t : Ty) (offset : Nat) : Option AbiType :=
  match fpAt t offset with
  | none => none
  | some none => some (.float .f64)
  | some (some f) =>
    if f = .float .f64 then some (.float .f64)
    else (sseSecond t offset f).bind (sseJoin t offset f)

/-- The end of `x64_get_int_type_at_offset` (618-621). The subtraction is one of unsigned numbers. -/
def intRest (src : Ty) (srcOffset : Nat) : Option AbiType :=
  if size src = srcOffset then none
  else if size src < srcOffset ∨ size src - srcOffset > 8 then some (.int false 8)
  else some (intBits ((size src - srcOffset) * 8))

mutual
/-- `x64_get_int_type_at_offset` (555-622). `type_ulong` is `int false 8`. -/
def intType (src : Ty) (srcOffset : Nat) : Ty → Nat → Option AbiType
  | .void, _ => none
  | .ptr, offset => if offset = 0 then some .ptr else intRest src srcOffset
  | .int s b, offset =>
    if b = 8 then if offset = 0 then some (.int s b) else intRest src srcOffset
    else if offset ≠ 0 then intRest src srcOffset
    else if noData src (srcOffset + b) (srcOffset + 8) then some (.int s b)
    else intRest src srcOffset
  | .agg isUnion sz _ _ ms, offset =>
    if isUnion then intRest src srcOffset
    else if sz ≤ offset then intRest src srcOffset
    else intMembers src srcOffset offset ms none
  | .any, offset => if offset < 8 then some (.int false 8) else if offset < 16 then some .ptr else intRest src srcOffset
  | .slice, offset => if offset < 8 then some .ptr else if offset < 16 then some (.int false 8) else intRest src srcOffset
  | .array e _, offset => intType src srcOffset e (offset - offset / size e * size e)
  | .i128, _ => intRest src srcOffset
  | .float _, _ => intRest src srcOffset
  | .f128, _ => intRest src srcOffset

/-- The member at the offset (585-593, 358-370), as in `fpMembers`. -/
def intMembers (src : Ty) (srcOffset offset : Nat) : Ms → Option AbiType → Option AbiType
  | .nil, last => last
  | .cons o t rest, last =>
    if o > offset then last else intMembers src srcOffset offset rest (intType src srcOffset t (offset - o))
end

mutual
/-- The loop of `type_abi_find_single_struct_element` (codegen_general.c 18-42) for a struct of a size. -/
def singleMs (sz : Nat) : Ms → Option Ty
  | .cons _ t .nil => match singleField t with
    | some f => if sz = size f then some f else none
    | none => none
  | _ => none

/-- One field of it (codegen_general.c 26-38). -/
def singleField : Ty → Option Ty
  | .array e n => if n = 1 then singleField e else some (.array e n)
  | .agg _ sz _ flex ms => if flex then none else singleMs sz ms
  | t => some t
end

/-- `type_abi_find_single_struct_element` (codegen_general.c 11-43). -/
def single : Ty → Option Ty
  | .agg _ sz _ flex ms => if flex then none else singleMs sz ms
  | _ => none

/-- `x64_get_byte_vector_type` (628-656). -/
def byteVector (t : Ty) : Option AbiType :=
  match (single t).getD t with
  | .f128 => some .f128
  | t => if size t = 16 ∨ size t = 32 ∨ size t = 64 then some (.vector .f64 (size t / 8)) else none

/-! ### How a value is passed -/

/-- `ABIArgInfo`. `ext` is an extension of a small integer, signed or not. -/
inductive Info where
  | ignore
  | direct (ext : Option Bool)
  | coerce (t : AbiType) (ext : Option Bool)
  | coerceInt
  | pair (lo hi : AbiType)
  | indirect (align : Nat) (byVal : Bool)
deriving DecidableEq, Repr

/-- `type_is_abi_aggregate` (types.c 421-459). -/
def aggregate : Ty → Bool
  | .slice => true
  | .any => true
  | .agg .. => true
  | .array .. => true
  | _ => false

/-- `type_is_promotable_int_bool` (compiler_internal.h 3527-3531) and the sign. -/
def promotable : Ty → Option Bool
  | .int s b => if b < 4 then some s else none
  | _ => none

/-- `x64_indirect_return_result` (42-54). -/
def indirectReturn (t : Ty) : Info :=
  if aggregate t then .indirect (align t) false else .direct (promotable t)

/-- `x64_indirect_result` (75-114). -/
def indirectResult (t : Ty) (freeInt : Nat) : Info :=
  if aggregate t = false then .direct (promotable t)
  else if freeInt = 0 ∧ align t ≤ 8 ∧ size t ≤ 8 then .coerceInt
  else if align t < 8 then .indirect 8 true
  else .indirect (align t) true

/-- `aligned_offset` (compiler_internal.h 2789-2792). -/
def alignedOffset (offset alignment : Nat) : Nat := (offset + alignment - 1) / alignment * alignment

/-- `x64_get_argument_pair_return` (658-664). -/
def pair (lo hi : AbiType) : Option Info :=
  if alignedOffset lo.size hi.align = 8 then some (.pair lo hi) else none

/-- `Registers` (13-17). -/
structure Regs where
  sse : Nat
  int : Nat
deriving DecidableEq, Repr

/-- Whether the result is the type itself or, for parameters, an integer of its size (836-845); `exact` for returns (745-749). -/
def sameType (exact : Bool) : Ty → AbiType → Bool
  | .int s b, .int s' b' => if exact then s == s' && b == b' else b == b'
  | .ptr, .ptr => true
  | .float k, .float k' => k == k'
  | .f128, .f128 => true
  | _, _ => false

/-- The end of both functions (743-752, 834-847). -/
def finish (exact : Bool) (t : Ty) (r : AbiType) : Option Info :=
  match r with
  | .bits n => if n = size t * 8 then some .coerceInt else none
  | r => if sameType exact t r then some (.direct none) else some (.coerce r none)

/-- The high part (806-828, 712-736): its type and whether it is in an SSE register, or none. -/
def highPart (t : Ty) (s : Classes) : Option (Option (AbiType × Bool)) :=
  match s.2 with
  | .mem => none
  | .no => some none
  | .integer => match intType t 8 t 8 with
    | none => none
    | some hi => some (some (hi, false))
  | .sse => match sseType t 8 with
    | none => none
    | some hi => some (some (hi, true))
  | .sseup => some none

/-- The low part in an SSE register (799-802, 824-827, 704-706, 727-735): `SSEUP` replaces its type. -/
def lowSse (t : Ty) (s : Classes) : Option AbiType :=
  match sseType t 0 with
  | none => none
  | some lo => if s.2 = .sseup then byteVector t else some lo

/-- What follows the low part (806-847, 712-752): how the value is passed and whether a second register is an SSE register. -/
def complete (exact : Bool) (t : Ty) (s : Classes) (lo : AbiType) : Option (Info × Option Bool) :=
  match highPart t s with
  | none => none
  | some none => (finish exact t lo).map fun info => (info, none)
  | some (some (hi, sse)) => (pair lo hi).map fun info => (info, some sse)

/-- The registers with those of the high part (813-821). -/
def used (first : Regs) : Option Bool → Regs
  | none => first
  | some true => ⟨first.sse + 1, first.int⟩
  | some false => ⟨first.sse, first.int + 1⟩

/-- `x64_classify_argument_type` (765-848): how a parameter is passed and the registers it needs. -/
def classifyArg (avx : Nat) (t : Ty) (freeInt : Nat) : Option (Info × Regs) :=
  match classify avx t 0 with
  | none => none
  | some s =>
    if (s.2 = .mem ∧ s.1 ≠ .mem) ∨ (s.2 = .sseup ∧ s.1 ≠ .sse) then none
    else match s.1 with
    | .no => if s.2 = .no then some (.ignore, ⟨0, 0⟩) else none
    | .sseup => none
    | .mem => some (indirectResult t freeInt, ⟨0, 0⟩)
    | .integer => match intType t 0 t 0 with
      | none => none
      | some lo =>
        if s.2 = .no ∧ (promotable t).isSome then
          match lo with
          | .int sg b => some (.coerce (.int sg b) (some sg), ⟨0, 1⟩)
          | _ => none
        else (complete false t s lo).map fun p => (p.1, used ⟨0, 1⟩ p.2)
    | .sse => match lowSse t s with
      | none => none
      | some lo => (complete false t s lo).map fun p => (p.1, used ⟨1, 0⟩ p.2)

/-- `x64_classify_return` (667-753). -/
def classifyReturn (avx : Nat) (t : Ty) : Option Info :=
  match classify avx t 0 with
  | none => none
  | some s =>
    if (s.2 = .mem ∧ s.1 ≠ .mem) ∨ (s.2 = .sseup ∧ s.1 ≠ .sse) then none
    else match s.1 with
    | .no => if s.2 = .no then some .ignore else none
    | .sseup => none
    | .mem => some (indirectReturn t)
    | .integer => match intType t 0 t 0 with
      | none => none
      | some lo =>
        if s.2 = .no ∧ (promotable t).isSome then
          match t with
          | .int sg b => some (.coerce (.int sg b) (some sg))
          | _ => none
        else (complete true t s lo).map Prod.fst
    | .sse => match lowSse t s with
      | none => none
      | some lo => (complete true t s lo).map Prod.fst

/-- `x64_classify_parameter` (871-883) with `try_use_registers` (19-26). -/
def classifyParam (avx : Nat) (t : Ty) (avail : Regs) : Option (Info × Regs) := do
  let (info, needed) ← classifyArg avx t avail.int
  if avail.sse < needed.sse then some (indirectResult t avail.int, avail)
  else if avail.int < needed.int then some (indirectResult t avail.int, avail)
  else some (info, ⟨avail.sse - needed.sse, avail.int - needed.int⟩)

/-- The loops over parameters (913-916, 923-926); without vectors, variable arguments are not different. -/
def classifyParams (avx : Nat) : List Ty → Regs → Option (List Info)
  | [], _ => some []
  | t :: rest, avail => do
    let (info, avail) ← classifyParam avx t avail
    let more ← classifyParams avx rest avail
    some (info :: more)

/-- `abi_arg_is_indirect` (c_abi.c 43-60). -/
def Info.isIndirect : Info → Bool
  | .indirect .. => true
  | _ => false

/-- `c_abi_func_create_x64` (885-930): the result and the parameters; a result that is returned by reference is its first
parameter, a pointer. -/
def createFunction (avx : Nat) (ret : Ty) (byRef : Bool) (params : List Ty) : Option (Info × List Info) := do
  let r ← classifyReturn avx ret
  let avail : Regs := ⟨8, if r.isIndirect then 5 else 6⟩
  some (r, ← classifyParams avx (if byRef then .ptr :: params else params) avail)

end C3.Abi
