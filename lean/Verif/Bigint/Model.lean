/-!
# Model of `src/compiler/bigint.c`

The compiler's compile-time integers.  Machine words are `BitVec 64` / `BitVec 32`, so `+`, `-`,
`*`, `<<<`, `>>>`, `<` on them are exactly the C operations on `uint64_t` / `uint32_t`.
A C shift by an amount outside `0..63` is undefined behaviour; it is the outcome `none`.
`int64_t` right shift is modelled as an arithmetic shift (implementation defined in C, arithmetic on
every compiler the project supports).
-/

namespace C3.Bigint

/-- `struct Int128_ { uint64_t high; uint64_t low; }`, `src/compiler/compiler_internal.h:94-98`. -/
structure Int128 where
  high : BitVec 64
  low : BitVec 64
deriving DecidableEq, Repr

/-- The ten integer kinds of `TypeKind`, `src/compiler/enums.h:1322-1336`.  The other kinds never
reach `bigint.c` (its `switch`es are `UNREACHABLE` for them) and are left out. -/
inductive TypeKind where
  | I8 | I16 | I32 | I64 | I128
  | U8 | U16 | U32 | U64 | U128
deriving DecidableEq, Repr

/-- `type_kind_bitsize`, `src/compiler/types.c:1407-1433` (integer kinds only). -/
def type_kind_bitsize : TypeKind → Nat
  | .I8 => 8 | .U8 => 8
  | .I16 => 16 | .U16 => 16
  | .I32 => 32 | .U32 => 32
  | .I64 => 64 | .U64 => 64
  | .I128 => 128 | .U128 => 128

/-- `type_kind_is_signed`, `src/compiler/compiler_internal.h:3095`. -/
def type_kind_is_signed : TypeKind → Bool
  | .I8 => true | .I16 => true | .I32 => true | .I64 => true | .I128 => true
  | .U8 => false | .U16 => false | .U32 => false | .U64 => false | .U128 => false

/-- `type_kind_is_unsigned`, `src/compiler/compiler_internal.h:3096`. -/
def type_kind_is_unsigned : TypeKind → Bool
  | .I8 => false | .I16 => false | .I32 => false | .I64 => false | .I128 => false
  | .U8 => true | .U16 => true | .U32 => true | .U64 => true | .U128 => true

/-- `struct Int { Int128 i; TypeKind type; }`, `src/compiler/compiler_internal.h:100-104`. -/
structure CInt where
  i : Int128
  type : TypeKind
deriving DecidableEq, Repr

/-- `CmpRes`. -/
inductive CmpRes where
  | LT | EQ | GT
deriving DecidableEq, Repr

/-- The comparison operators among `BinaryOp` (the others are `UNREACHABLE` in
`binary_op_matches_res`, `bigint.c:589-608`). -/
inductive CmpOp where
  | GT | GE | LT | LE | NE | EQ
deriving DecidableEq, Repr

/-- `UINT64_MAX`. -/
def UINT64_MAX : BitVec 64 := BitVec.allOnes 64

/-- `UINT128_MAX`, `INT128_MAX`, `INT128_MIN`, `compiler_internal.h:55-57`. -/
def UINT128_MAX : Int128 := ⟨UINT64_MAX, UINT64_MAX⟩
def INT128_MAX : Int128 := ⟨0x7fffffffffffffff#64, UINT64_MAX⟩
def INT128_MIN : Int128 := ⟨0x8000000000000000#64, 0#64⟩

/-- C `x << n` on `uint64_t`; undefined for `n ≥ 64`. -/
def cshl (x : BitVec 64) (n : Nat) : Option (BitVec 64) :=
  if n < 64 then some (x <<< n) else none

/-- C `x >> n` on `uint64_t`; undefined for `n ≥ 64`. -/
def cshr (x : BitVec 64) (n : Nat) : Option (BitVec 64) :=
  if n < 64 then some (x >>> n) else none

/-- C `(uint64_t)((int64_t)x >> n)`; undefined for `n ≥ 64`. -/
def csar (x : BitVec 64) (n : Nat) : Option (BitVec 64) :=
  if n < 64 then some (x.sshiftRight n) else none

/-- `HI32`, `LO32`, `ISNEG`, `bigint.c:37-39` (constant in-range shifts). -/
def HI32 (x : BitVec 64) : BitVec 64 := x >>> 32
def LO32 (x : BitVec 64) : BitVec 64 := x &&& 0xffffffff#64
def ISNEG (x : BitVec 64) : Bool := (x >>> 63) != 0#64

/-- `i128_from_int`, `bigint.c:100-103`. -/
def i128_from_int (i : BitVec 64) : Int128 := ⟨0, i⟩

/-- `i128_add`, `bigint.c:138-144`. -/
def i128_add (op1 op2 : Int128) : Int128 :=
  let low := op1.low + op2.low
  let high := op1.high + op2.high
  let high := if low < op1.low then high + 1 else high
  ⟨high, low⟩

/-- `i128_add64`, `bigint.c:146-150`. -/
def i128_add64 (op1 : Int128) (op2 : BitVec 64) : Int128 :=
  let low := op1.low + op2
  ⟨if low < op1.low then op1.high + 1 else op1.high, low⟩

/-- `i128_sub`, `bigint.c:152-159`. -/
def i128_sub (op1 op2 : Int128) : Int128 :=
  let low := op1.low - op2.low
  let high := op1.high - op2.high
  let high := if low > op1.low then high - 1 else high
  ⟨high, low⟩

/-- `i128_sub64`, `bigint.c:161-165`. -/
def i128_sub64 (op1 : Int128) (op2 : BitVec 64) : Int128 :=
  let low := op1.low - op2
  ⟨if low > op1.low then op1.high - 1 else op1.high, low⟩

/-- `i128_and`, `bigint.c:181-184`. -/
def i128_and (op1 op2 : Int128) : Int128 := ⟨op1.high &&& op2.high, op1.low &&& op2.low⟩

/-- `i128_or`, `bigint.c:186-189`. -/
def i128_or (op1 op2 : Int128) : Int128 := ⟨op1.high ||| op2.high, op1.low ||| op2.low⟩

/-- `i128_xor`, `bigint.c:191-194`. -/
def i128_xor (op1 op2 : Int128) : Int128 := ⟨op1.high ^^^ op2.high, op1.low ^^^ op2.low⟩

/-- `i128_not`, `bigint.c:202-205`. -/
def i128_not (op1 : Int128) : Int128 := ⟨~~~op1.high, ~~~op1.low⟩

/-- `i128_neg`, `bigint.c:196-200`. -/
def i128_neg (op1 : Int128) : Int128 :=
  if op1.low = 0 ∧ op1.high = 0 then op1 else i128_add64 (i128_not op1) 1

/-- `int64_mult`, `bigint.c:207-224`. -/
def int64_mult (u v : BitVec 64) : Int128 :=
  let u1 := LO32 u
  let v1 := LO32 v
  let t := u1 * v1
  let w3 := LO32 t
  let k := HI32 t
  let u := u >>> 32
  let t := u * v1 + k
  let k := LO32 t
  let w1 := HI32 t
  let v := v >>> 32
  let t := u1 * v + k
  ⟨(u * v) + w1 + HI32 t, (t <<< 32) + w3⟩

/-- `i128_mult`, `bigint.c:226-231`. -/
def i128_mult (op1 op2 : Int128) : Int128 :=
  let low_mult := int64_mult op1.low op2.low
  { low_mult with high := low_mult.high + (op1.high * op2.low + op1.low * op2.high) }

/-- `i128_mult64`, `bigint.c:233-238`. -/
def i128_mult64 (op1 : Int128) (op2 : BitVec 64) : Int128 :=
  let low_mult := int64_mult op1.low op2
  { low_mult with high := low_mult.high + op1.high * op2 }

/-- `i128_ucomp`, `bigint.c:274-280`. -/
def i128_ucomp (op1 op2 : Int128) : CmpRes :=
  if op1.high > op2.high then .GT
  else if op1.high < op2.high then .LT
  else if op1.low = op2.low then .EQ
  else if op1.low > op2.low then .GT else .LT

/-- `i128_scomp`, `bigint.c:372-384`. -/
def i128_scomp (op1 op2 : Int128) : CmpRes :=
  let lhs_sign := (op1.high &&& 0x8000000000000000#64) != 0
  let rhs_sign := (op2.high &&& 0x8000000000000000#64) != 0
  if lhs_sign != rhs_sign then (if lhs_sign then .LT else .GT)
  else if op1.high > op2.high then .GT
  else if op1.high < op2.high then .LT
  else if op1.low = op2.low then .EQ
  else if op1.low > op2.low then .GT else .LT

/-- `int128_ucomp64`, `bigint.c:267-272`. -/
def int128_ucomp64 (op1 : Int128) (op2 : BitVec 64) : CmpRes :=
  if op1.high ≠ 0 then .GT
  else if op1.low = op2 then .EQ
  else if op1.low > op2 then .GT else .LT

/-- `int128_scomp64`, `bigint.c:241-265`; `op2` is an `int64_t`, given by its bit pattern.
`op1.low == op2` compares after conversion to `uint64_t`. -/
def int128_scomp64 (op1 : Int128) (op2 : BitVec 64) : CmpRes :=
  if op2 = 0 ∧ op1.high = 0 ∧ op1.low = 0 then .EQ
  else
    let lhs_sign := ISNEG op1.high
    let rhs_sign := ISNEG op2
    if lhs_sign != rhs_sign then (if lhs_sign then .LT else .GT)
    else if lhs_sign then
      if op1.high ≠ UINT64_MAX then .LT
      else if op1.low = op2 then .EQ
      else if op2.slt op1.low then .GT else .LT
    else if op1.high ≠ 0 then .GT
    else if op1.low = op2 then .EQ
    else if op1.low > op2 then .GT else .LT

/-- `i128_shl64`, `bigint.c:282-289`; `none` = a C shift went out of range. -/
def i128_shl64 (op1 : Int128) (amount : BitVec 64) : Option Int128 := do
  if amount = 0 then return op1
  if amount > 127 then return ⟨0, 0⟩
  if amount = 64 then return ⟨op1.low, 0⟩
  if amount > 64 then return ⟨← cshl op1.low (amount - 64).toNat, 0⟩
  return ⟨(← cshl op1.high amount.toNat) ||| (← cshr op1.low (64 - amount).toNat),
          ← cshl op1.low amount.toNat⟩

/-- `i128_lshr64`, `bigint.c:297-307`. -/
def i128_lshr64 (op1 : Int128) (amount : BitVec 64) : Option Int128 := do
  if amount = 0 then return op1
  if amount > 127 then return ⟨0, 0⟩
  if amount = 64 then return ⟨0, op1.high⟩
  if amount > 64 then return ⟨0, ← cshr op1.high (amount - 64).toNat⟩
  let low ← cshr op1.low amount.toNat
  let low := low ||| (← cshl op1.high (64 - amount).toNat)
  let high ← cshr op1.high amount.toNat
  return ⟨high, low⟩

/-- `i128_ashr64`, `bigint.c:331-339`. -/
def i128_ashr64 (op1 : Int128) (amount : BitVec 64) : Option Int128 := do
  if amount = 0 then return op1
  if !ISNEG op1.high then return ← i128_lshr64 op1 amount
  if amount > 127 then return ⟨UINT64_MAX, UINT64_MAX⟩
  if amount = 64 then return ⟨UINT64_MAX, op1.high⟩
  if amount > 64 then return ⟨UINT64_MAX, ← csar op1.high (amount - 64).toNat⟩
  return ⟨← csar op1.high amount.toNat,
          (← cshr op1.low amount.toNat) ||| (← cshl op1.high (64 - amount).toNat)⟩

/-- `i128_shl`, `bigint.c:291-295`. -/
def i128_shl (op1 op : Int128) : Option Int128 :=
  if op.high ≠ 0 then some ⟨0, 0⟩ else i128_shl64 op1 op.low

/-- `i128_lshr`, `bigint.c:325-329`. -/
def i128_lshr (op1 op2 : Int128) : Option Int128 :=
  if op2.high ≠ 0 then some ⟨0, 0⟩ else i128_lshr64 op1 op2.low

/-- `i128_ashr`, `bigint.c:341-345`. -/
def i128_ashr (op1 op2 : Int128) : Option Int128 :=
  if op2.high ≠ 0 then
    some (if ISNEG op1.high then ⟨UINT64_MAX, UINT64_MAX⟩ else ⟨0, 0⟩)
  else i128_ashr64 op1 op2.low

/-- `i128_get_bit`, `bigint.c:310-318`, for a non-negative `bit` (the `ASSERT` of line 312). -/
def i128_get_bit (op : Int128) (bit : Nat) : Option Bool := do
  if bit > 63 then
    return ((← cshr op.high (bit - 64)) &&& 1#64) != 0#64
  return ((← cshr op.low (64 - bit)) &&& 1#64) != 0#64

/-- `i128_is_zero`, `bigint.c:320-323`. -/
def i128_is_zero (op : Int128) : Bool := op.high = 0 ∧ op.low = 0

/-- `i128_is_neg`, `bigint.c:362-365`. -/
def i128_is_neg (op : Int128) : Bool := ISNEG op.high

/-- `i128_add_swrap64`, `bigint.c:347-353`; `op2` is the bit pattern of an `int64_t`.
Returns the sum and the `wrapped` flag. -/
def i128_add_swrap64 (op1 : Int128) (op2 : BitVec 64) : Int128 × Bool :=
  let res := i128_add64 op1 op2
  let is_less := i128_scomp res op1 = .LT
  (res, if op2.slt 0 then !is_less else is_less)

/-- `i128_add_uwrap64`, `bigint.c:355-360`. -/
def i128_add_uwrap64 (op1 : Int128) (op2 : BitVec 64) : Int128 × Bool :=
  let res := i128_add64 op1 op2
  (res, i128_ucomp res op1 = .LT)

/-- `i128_extend`, `bigint.c:167-179`. -/
def i128_extend (op : Int128) (type : TypeKind) : Option Int128 := do
  let bits := type_kind_bitsize type
  if bits = 128 then return op
  let shift : BitVec 64 := BitVec.ofNat 64 (128 - bits)
  let op ← i128_shl64 op shift
  if type_kind_is_signed type then i128_ashr64 op shift else i128_lshr64 op shift

/-- `popcnt64`, `bigint.c:386-391`. The final `>> 56` result is converted to `uint32_t`. -/
def popcnt64 (n : BitVec 64) : BitVec 32 :=
  let n := n - ((n >>> 1) &&& 0x5555555555555555#64)
  let n := (n &&& 0x3333333333333333#64) + ((n >>> 2) &&& 0x3333333333333333#64)
  ((((n + (n >>> 4)) &&& 0x0F0F0F0F0F0F0F0F#64) * 0x0101010101010101#64) >>> 56).setWidth 32

/-- `i128_popcnt`, `bigint.c:393-396`. -/
def i128_popcnt (i : Int128) : BitVec 32 := popcnt64 i.high + popcnt64 i.low

/-- The four-line group that `ctz64` repeats five times (`bigint.c:403-426`):
`i = (n & am) + am; i = ((i & m) ^ m) >> sh; c += i; n >>= i;`.  State is `(n, c)`;
`c += i` adds a `uint64_t` into a `uint32_t`. -/
def ctzStep (sh : Nat) (am m : BitVec 64) (st : BitVec 64 × BitVec 32) :
    Option (BitVec 64 × BitVec 32) :=
  let i := (st.1 &&& am) + am
  let i := ((i &&& m) ^^^ m) >>> sh
  (cshr st.1 i.toNat).map fun n => (n, st.2 + i.setWidth 32)

/-- `ctz64`, `bigint.c:398-430`. -/
def ctz64 (n : BitVec 64) : Option (BitVec 32) := do
  let i := ~~~n
  let c : BitVec 32 := (((i ^^^ (i + 1)) &&& i) >>> 63).setWidth 32
  let st ← ctzStep 27 0xffffffff#64 0x100000000#64 (n, c)
  let st ← ctzStep 12 0xffff#64 0x10000#64 st
  let st ← ctzStep 5 0xff#64 0x100#64 st
  let st ← ctzStep 2 0xf#64 0x10#64 st
  let st ← ctzStep 1 3#64 4#64 st
  return st.2 + ((st.1 &&& 1#64) ^^^ 1#64).setWidth 32

/-- The four-line group that `clz64` repeats five times (`bigint.c:442-465`):
`neg_n = (n >> k) + am; neg_n = ((neg_n & m) ^ m) >> sh; c += neg_n; n <<= neg_n;`. -/
def clzStep (k sh : Nat) (am m : BitVec 64) (st : BitVec 64 × BitVec 32) :
    Option (BitVec 64 × BitVec 32) :=
  let neg_n := (st.1 >>> k) + am
  let neg_n := ((neg_n &&& m) ^^^ m) >>> sh
  (cshl st.1 neg_n.toNat).map fun n => (n, st.2 + neg_n.setWidth 32)

/-- `clz64`, `bigint.c:437-470`. -/
def clz64 (n : BitVec 64) : Option (BitVec 32) := do
  let neg_n := ~~~n
  let c : BitVec 32 := (((neg_n ^^^ (neg_n + 1)) &&& neg_n) >>> 63).setWidth 32
  let st ← clzStep 32 27 0xffffffff#64 0x100000000#64 (n, c)
  let st ← clzStep 48 12 0xffff#64 0x10000#64 st
  let st ← clzStep 56 5 0xff#64 0x100#64 st
  let st ← clzStep 60 2 0xf#64 0x10#64 st
  let st ← clzStep 62 1 3#64 4#64 st
  return st.2 + ((st.1 >>> 63) ^^^ 1#64).setWidth 32

/-- `i128_ctz`, `bigint.c:432-435`. -/
def i128_ctz (op : Int128) : Option (BitVec 32) := do
  if op.low = 0 then return (← ctz64 op.high) + 64 else ctz64 op.low

/-- `i128_clz`, `bigint.c:472-475`. -/
def i128_clz (op : Int128) : Option (BitVec 32) := do
  if op.high ≠ 0 then clz64 op.high else return (← clz64 op.low) + 64

/-- The `do … while (shift-- != 0)` loop of `i128_udivrem`, `bigint.c:511-521`; `shift` is the
value tested, so the body runs `shift + 1` times. Returns the final `(*div, op1)`. -/
def udivLoop : (shift : Nat) → (op1 op2 div : Int128) → Option (Int128 × Int128)
  | shift, op1, op2, div => do
    let div ← i128_shl64 div 1
    let (op1, div) :=
      if i128_ucomp op1 op2 ≠ .LT then
        (i128_sub op1 op2, { div with low := div.low ||| 1#64 })
      else (op1, div)
    let op2 ← i128_lshr64 op2 1
    match shift with
    | 0 => return (div, op1)
    | shift + 1 => udivLoop shift op1 op2 div

/-- `i128_udivrem`, `bigint.c:501-524`; returns `(*div, *rem)`. `shift` is the `uint32_t`
difference converted to `int32_t`. -/
def i128_udivrem (op1 op2 : Int128) : Option (Int128 × Int128) := do
  let shift := ((← i128_clz op2) - (← i128_clz op1)).toInt
  if shift < 0 then return (⟨0, 0⟩, op1)
  let op2 ← i128_shl64 op2 (BitVec.ofInt 64 shift)
  udivLoop shift.toNat op1 op2 ⟨0, 0⟩

/-- `i128_udiv`, `i128_urem`, `bigint.c:526-538`. -/
def i128_udiv (op1 op2 : Int128) : Option Int128 := do return (← i128_udivrem op1 op2).1
def i128_urem (op1 op2 : Int128) : Option Int128 := do return (← i128_udivrem op1 op2).2

/-- `i128_srem`, `bigint.c:540-552`. -/
def i128_srem (op1 op2 : Int128) : Option Int128 := do
  let topbit1 := op1.high &&& 0x8000000000000000#64
  let topbit2 := op2.high &&& 0x8000000000000000#64
  let op1 := if topbit1 ≠ 0 then i128_neg op1 else op1
  let op2 := if topbit2 ≠ 0 then i128_neg op2 else op2
  let res ← i128_urem op1 op2
  if topbit2 ^^^ topbit1 ≠ 0 then return i128_neg res
  return res

/-- `i128_sdiv`, `bigint.c:564-576`. -/
def i128_sdiv (op1 op2 : Int128) : Option Int128 := do
  let topbit1 := op1.high &&& 0x8000000000000000#64
  let topbit2 := op2.high &&& 0x8000000000000000#64
  let op1 := if topbit1 ≠ 0 then i128_neg op1 else op1
  let op2 := if topbit2 ≠ 0 then i128_neg op2 else op2
  let res ← i128_udiv op1 op2
  if topbit2 ^^^ topbit1 ≠ 0 then return i128_neg res
  return res

/-- `i128_from_signed`, `bigint.c:554-557`; the argument is the bit pattern of an `int64_t`. -/
def i128_from_signed (i : BitVec 64) : Int128 := ⟨if i.slt 0 then UINT64_MAX else 0, i⟩

/-- `int_is_neg`, `bigint.c:894-898`. -/
def int_is_neg (op : CInt) : Bool :=
  if type_kind_is_unsigned op.type then false else i128_is_neg op.i

/-- `int_signed_compare`, `bigint.c:578-587`; `op2` is the bit pattern of an `int64_t`
(`op1.i.low > op2` compares as `uint64_t`). -/
def int_signed_compare (op1 : CInt) (op2 : BitVec 64) : CmpRes :=
  if type_kind_is_signed op1.type then i128_scomp op1.i (i128_from_signed op2)
  else if op1.i.high ≠ 0 ∨ op2.slt 0 ∨ op1.i.low > op2 then .GT
  else if op1.i.low < op2 then .LT
  else .EQ

/-- `binary_op_matches_res`, `bigint.c:589-608`. -/
def binary_op_matches_res (op : CmpOp) (res : CmpRes) : Bool :=
  match op with
  | .GT => res = .GT
  | .GE => res ≠ .LT
  | .LT => res = .LT
  | .LE => res ≠ .GT
  | .NE => res ≠ .EQ
  | .EQ => res = .EQ

/-- `int_unsigned_compare`, `bigint.c:611-617`. -/
def int_unsigned_compare (op1 : CInt) (op2 : BitVec 64) : CmpRes :=
  if type_kind_is_signed op1.type && i128_is_neg op1.i then .LT
  else if op1.i.high ≠ 0 ∨ op1.i.low > op2 then .GT
  else if op1.i.low < op2 then .LT
  else .EQ

/-- `int_compare`, `bigint.c:619-629`. -/
def int_compare (op1 op2 : CInt) : CmpRes :=
  if type_kind_is_signed op1.type then
    if type_kind_is_signed op2.type then i128_scomp op1.i op2.i
    else if int_is_neg op1 then .LT
    else i128_ucomp op1.i op2.i
  else if int_is_neg op2 then .GT
  else i128_ucomp op1.i op2.i

/-- `int_comp`, `int_icomp`, `int_ucomp`, `bigint.c:631-644`. -/
def int_comp (op1 op2 : CInt) (op : CmpOp) : Bool := binary_op_matches_res op (int_compare op1 op2)
def int_icomp (op1 : CInt) (op2 : BitVec 64) (op : CmpOp) : Bool :=
  binary_op_matches_res op (int_signed_compare op1 op2)
def int_ucomp (op1 : CInt) (op2 : BitVec 64) (op : CmpOp) : Bool :=
  binary_op_matches_res op (int_unsigned_compare op1 op2)

/-- The `min`/`max` table of `int_fits`, `bigint.c:651-695`: `(is_signed, min, max)`;
`min` is not set for unsigned kinds (and not read). -/
def fitsBounds : TypeKind → Bool × Int128 × Int128
  | .I128 => (true, INT128_MIN, INT128_MAX)
  | .I64 => (true, i128_from_signed 0x8000000000000000#64, i128_from_signed 0x7fffffffffffffff#64)
  | .I32 => (true, i128_from_signed 0xffffffff80000000#64, i128_from_signed 0x7fffffff#64)
  | .I16 => (true, i128_from_signed 0xffffffffffff8000#64, i128_from_signed 0x7fff#64)
  | .I8 => (true, i128_from_signed 0xffffffffffffff80#64, i128_from_signed 0x7f#64)
  | .U128 => (false, ⟨0, 0⟩, UINT128_MAX)
  | .U64 => (false, ⟨0, 0⟩, ⟨0, UINT64_MAX⟩)
  | .U32 => (false, ⟨0, 0⟩, ⟨0, 0xffffffff#64⟩)
  | .U16 => (false, ⟨0, 0⟩, ⟨0, 0xffff#64⟩)
  | .U8 => (false, ⟨0, 0⟩, ⟨0, 0xff#64⟩)

/-- `int_fits`, `bigint.c:646-716`. -/
def int_fits (op1 : CInt) (kind : TypeKind) : Bool :=
  let (is_signed, min, max) := fitsBounds kind
  let op_is_signed := type_kind_is_signed op1.type
  if is_signed then
    if op_is_signed then
      if i128_scomp op1.i min = .LT then false
      else if i128_scomp op1.i max = .GT then false
      else true
    else i128_ucomp op1.i max ≠ .GT
  else if op_is_signed then
    if i128_is_neg op1.i then false
    else if i128_ucomp op1.i max = .GT then false
    else true
  else i128_ucomp op1.i max ≠ .GT

/-- `int_to_u64`, `bigint.c:718-721`. -/
def int_to_u64 (op : CInt) : BitVec 64 := op.i.low

/-- `int_is_zero`, `bigint.c:728-731`. -/
def int_is_zero (op : CInt) : Bool := op.i.high = 0 ∧ op.i.low = 0

/-- `int_bits_needed`, `bigint.c:733-747`. -/
def int_bits_needed (op : CInt) : Option (BitVec 32) := do
  if type_kind_is_signed op.type then
    let i := if i128_is_neg op.i then i128_sub64 (i128_neg op.i) 1 else op.i
    return 1 + 128 - (← i128_clz i)
  return 128 - (← i128_clz op.i)

/-- `int_add`, `int_add64`, `int_sub`, `int_sub64`, `int_mul`, `bigint.c:749-775`.
The `ASSERT(op1.type == op2.type)` is a precondition of the theorems. -/
def int_add (op1 op2 : CInt) : Option CInt := do
  return ⟨← i128_extend (i128_add op1.i op2.i) op1.type, op1.type⟩
def int_add64 (op1 : CInt) (op2 : BitVec 64) : Option CInt := do
  return ⟨← i128_extend (i128_add64 op1.i op2) op1.type, op1.type⟩
def int_sub (op1 op2 : CInt) : Option CInt := do
  return ⟨← i128_extend (i128_sub op1.i op2.i) op1.type, op1.type⟩
def int_sub64 (op1 : CInt) (op2 : BitVec 64) : Option CInt := do
  return ⟨← i128_extend (i128_sub64 op1.i op2) op1.type, op1.type⟩
def int_mul (op1 op2 : CInt) : Option CInt := do
  return ⟨← i128_extend (i128_mult op1.i op2.i) op1.type, op1.type⟩

/-- `int_conv`, `bigint.c:777-807`. -/
def int_conv (op : CInt) (to_type : TypeKind) : Option CInt := do
  let bitsize := type_kind_bitsize op.type
  let to_bitsize := type_kind_bitsize to_type
  if to_bitsize = 128 then return ⟨op.i, to_type⟩
  let from_signed := type_kind_is_signed op.type
  let to_signed := type_kind_is_signed to_type
  if bitsize < to_bitsize then
    if to_signed || to_signed == from_signed then return ⟨op.i, to_type⟩
    let shift := BitVec.ofNat 64 (128 - to_bitsize)
    return ⟨← i128_lshr64 (← i128_shl64 op.i shift) shift, to_type⟩
  let shift := BitVec.ofNat 64 (128 - to_bitsize)
  let without_top_bits ← i128_lshr64 (← i128_shl64 op.i shift) shift
  if to_signed then
    return ⟨← i128_ashr64 (← i128_shl64 without_top_bits shift) shift, to_type⟩
  return ⟨without_top_bits, to_type⟩

/-- `int_div`, `bigint.c:809-822`. -/
def int_div (op1 op2 : CInt) : Option CInt := do
  let res ← if type_kind_is_signed op1.type then i128_sdiv op1.i op2.i else i128_udiv op1.i op2.i
  return ⟨res, op1.type⟩

/-- `int_rem`, `bigint.c:824-837`. -/
def int_rem (op1 op2 : CInt) : Option CInt := do
  let res ← if type_kind_is_signed op1.type then i128_srem op1.i op2.i else i128_urem op1.i op2.i
  return ⟨res, op1.type⟩

/-- `int_and`, `int_or`, `int_xor`, `bigint.c:839-855`. -/
def int_and (op1 op2 : CInt) : CInt := ⟨i128_and op1.i op2.i, op1.type⟩
def int_or (op1 op2 : CInt) : CInt := ⟨i128_or op1.i op2.i, op1.type⟩
def int_xor (op1 op2 : CInt) : CInt := ⟨i128_xor op1.i op2.i, op1.type⟩

/-- `int_neg`, `bigint.c:857-860`. -/
def int_neg (op : CInt) : Option CInt := int_sub ⟨⟨0, 0⟩, op.type⟩ op

/-- `int_not`, `bigint.c:862-865`. -/
def int_not (op : CInt) : Option CInt := do
  return ⟨← i128_extend (i128_not op.i) op.type, op.type⟩

/-- `int_shr64`, `bigint.c:867-874`. -/
def int_shr64 (op1 : CInt) (op2 : BitVec 64) : Option CInt := do
  if type_kind_is_unsigned op1.type then
    return ⟨← i128_extend (← i128_lshr64 op1.i op2) op1.type, op1.type⟩
  return ⟨← i128_extend (← i128_ashr64 op1.i op2) op1.type, op1.type⟩

/-- `int_shl64`, `bigint.c:876-883` (both branches are the same expression). -/
def int_shl64 (op : CInt) (op2 : BitVec 64) : Option CInt := do
  return ⟨← i128_extend (← i128_shl64 op.i op2) op.type, op.type⟩

/-- Outcome of folding an operation on two integer constants: a compile error or a constant. -/
inductive Fold where
  | error
  | const (c : CInt)
deriving DecidableEq, Repr

/-- The integer-constant path of `sema_expr_analyse_div`, `src/compiler/sema_expr.c:7033-7084`:
zero check (7045-7050), fold (7064-7071).  Operands are already of one type. -/
def sema_fold_div (left right : CInt) : Option Fold := do
  if int_is_zero right then return .error
  return .const (← int_div left right)

/-- The integer-constant path of `sema_expr_analyse_mod`, `sema_expr.c:7114-7126`. -/
def sema_fold_mod (left right : CInt) : Option Fold := do
  if int_is_zero right then return .error
  return .const (← int_rem left right)

/-- The constant path of `sema_expr_check_shift_rhs` and `sema_expr_analyse_shift`,
`sema_expr.c:7213-7230` and `7266-7279`, for scalar integer constants. -/
def sema_fold_shift (shr : Bool) (left right : CInt) : Option Fold := do
  if int_ucomp right (BitVec.ofNat 64 (type_kind_bitsize left.type)) .GE then return .error
  if int_is_neg right then return .error
  if shr then return .const (← int_shr64 left right.i.low)
  return .const (← int_shl64 left right.i.low)

/-- The digit loop of `i128_to_string`, `bigint.c:50-55`.  `room` is the number of bytes left in
`char buffer[130]`; writing with `room = 0` is a buffer overflow (`none`), as is indexing
`digits[16]` out of range.  Digits come out least significant first, as in the buffer. -/
def toStringLoop : (room : Nat) → (op base_div : Int128) → Option (List Char)
  | 0, _, _ => none
  | room + 1, op, base_div => do
    let rem ← i128_urem op base_div
    let d ← "0123456789ABCDEF".toList[rem.low.toNat]?
    let op ← i128_udiv op base_div
    if i128_is_zero op then return [d]
    return d :: (← toStringLoop room op base_div)

/-- `i128_to_string`, `bigint.c:41-85`.  The result buffer has `digits + 4` bytes; needing more
(including the final NUL) is an overflow (`none`).  `ASSERT(2 ≤ base ≤ 16)` is a precondition. -/
def i128_to_string (op : Int128) (base : BitVec 64) (is_signed use_prefix : Bool) :
    Option (List Char) := do
  let add_minus := is_signed && ISNEG op.high
  let op := if add_minus then i128_neg op else op
  let buffer ← toStringLoop 130 op ⟨0, base⟩
  let pre := if add_minus then ['-'] else []
  let pre := pre ++ (if use_prefix then
      (if base = 2 then ['0', 'b'] else if base = 8 then ['0', 'o']
       else if base = 16 then ['0', 'x'] else [])
    else [])
  let res := pre ++ buffer.reverse
  if res.length + 1 ≤ buffer.length + 4 then return res else none

/-- `int_to_str`, `bigint.c:88-91`. -/
def int_to_str (i : CInt) (radix : BitVec 64) (use_prefix : Bool) : Option (List Char) :=
  i128_to_string i.i radix (type_kind_is_signed i.type) use_prefix

/-- `i128_from_str`, `bigint.c:105-114` and `i128_from_strl`, `116-125`: `c` ranges over the bytes
of the string, `(uint64_t)(c - '0')` is the sign-extended difference. -/
def i128_from_str (str : List Char) : Int128 :=
  str.foldl (fun x c =>
    i128_add64 (i128_mult64 x 10) (BitVec.ofInt 64 ((c.toNat : Int) - 48))) ⟨0, 0⟩

end C3.Bigint
