import Verif.I128Rt.Model

/-! # Model of the conversions of `lib/std/math/runtime/i128.c3`

`float_from_i128`, `float_from_u128`, `fixuint` and `fixint` for `double` and
`float`, the two types they are instantiated with (lines 299-306). -/

set_option autoImplicit false

namespace C3.I128Rt

/-- The constants a conversion picks by type. -/
structure Fmt where
  /-- bits of `$Rep` -/
  rep : Nat
  /-- `SIGNIFICANT_BITS` -/
  sig : Nat
  /-- `MANT_DIG` -/
  mantDig : Nat
  /-- `EXP_BIAS` of the conversions to floating point -/
  bias : Nat
  /-- `MANTISSA_MASK` -/
  mask : Nat
  /-- `SIGN_BIT` -/
  signBit : Nat
  /-- `EXPONENT_BITS` of the conversions from floating point -/
  expBits : Nat

/-- `i128.c3:313-319`, `372-377`, `427-430`, `math.c3:52`. -/
def double : Fmt :=
  { rep := 64, sig := 52, mantDig := 53, bias := 1023, mask := 0xFFFFFFFFFFFFF,
    signBit := 2 ^ 63, expBits := 11 }

/-- `i128.c3:320-326`, `378-383`, `431-434`, `math.c3:40`. -/
def single : Fmt :=
  { rep := 32, sig := 23, mantDig := 24, bias := 127, mask := 0x7FFFFF,
    signBit := 2 ^ 31, expBits := 8 }

/-- `x << n` on `uint128` and `int128`. -/
def shl128 (x n : Nat) : Option Nat := if n < 128 then some (x * 2 ^ n % 2 ^ 128) else none

/-- `x >> n` on `uint128`. -/
def shr128 (x n : Nat) : Option Nat := if n < 128 then some (x / 2 ^ n) else none

/-- `x >> n` on `int128`: the sign is shifted in. -/
def sar128 (x n : Nat) : Option Nat :=
  if n < 128 then
    some (if x / 2 ^ 127 = 1 then x / 2 ^ n + (2 ^ 128 - 2 ^ (128 - n)) else x / 2 ^ n)
  else none

/-- `$$clz` of a 128-bit integer. -/
def clz128 (x : Nat) : Nat := if x = 0 then 128 else 127 - x.log2

/-- A condition turned into a number, as in `(uint128)(c != 0)`. -/
def flag (c : Bool) : Nat := if c then 1 else 0

/-- `i128.c3:365` and `419`: put sign, exponent and mantissa together. -/
def pack (F : Fmt) (sign e a : Nat) : Nat :=
  (sign % 2 ^ F.rep &&& F.signBit) ||| ((e + F.bias) % 2 ^ F.rep * 2 ^ F.sig % 2 ^ F.rep) |||
    (a % 2 ^ F.rep &&& F.mask)

/-- The `switch`, `i128.c3:342-351` and `396-405`: bring the number to two bits
more than the mantissa has, gathering what is dropped in the last one. -/
def spare (F : Fmt) (right : Nat → Nat → Option Nat) (sd a : Nat) : Option Nat :=
  if sd = F.mantDig + 1 then shl128 a 1
  else if sd = F.mantDig + 2 then some a
  else do
    let u ← right a (sd - (F.mantDig + 2))
    let m ← shr128 (2 ^ 128 - 1) (128 + F.mantDig + 2 - sd)
    some (u ||| flag ((a &&& m) != 0))

/-- `i128.c3:338-365` and `392-419`, which differ in the kind of right shift
and in the sign. -/
def convert (F : Fmt) (right : Nat → Nat → Option Nat) (sign a : Nat) : Option Nat :=
  let sd := 128 - clz128 a
  let e := sd - 1
  if sd > F.mantDig then do
    let a ← spare F right sd a
    let a := a ||| flag ((a &&& 4) != 0)
    let a := add128 a 1
    let a ← right a 2
    if a &&& 2 ^ F.mantDig ≠ 0 then do
      let a ← right a 1
      some (pack F sign (e + 1) a)
    else some (pack F sign e a)
  else do
    let a ← shl128 a (F.mantDig - sd)
    some (pack F sign e a)

/-- `float_from_u128`, `i128.c3:368-420`. -/
def floatFromU128 (F : Fmt) (a : Nat) : Option Nat :=
  if a = 0 then some 0 else convert F shr128 0 a

/-- `float_from_i128`, `i128.c3:309-366`. -/
def floatFromI128 (F : Fmt) (a : Nat) : Option Nat :=
  if a = 0 then some 0
  else
    let sign := signMask a
    convert F sar128 sign (sub128 (a ^^^ sign) sign)

/-- The cast of an unsigned integer to `int`. -/
def toInt32 (x : Nat) : Int :=
  if x % 2 ^ 32 < 2 ^ 31 then (x % 2 ^ 32 : Nat) else (x % 2 ^ 32 : Nat) - 2 ^ 32

/-- `MAX_EXPONENT`, lines 444 and 488. -/
def Fmt.maxExponent (F : Fmt) : Nat := 2 ^ F.expBits - 1

/-- `EXPONENT_BIAS`, lines 445 and 489. -/
def Fmt.expBias (F : Fmt) : Nat := F.maxExponent / 2 ^ 1

/-- `ABS_MASK`, lines 447-448 and 491-492. -/
def Fmt.absMask (F : Fmt) : Nat := 2 ^ (F.expBits + F.sig) - 1

/-- `exponent`, lines 457-459 and 501-503. -/
def Fmt.exponent (F : Fmt) (rep : Nat) : Int :=
  toInt32 (((rep &&& F.absMask) / 2 ^ F.sig + (2 ^ F.rep - F.expBias)) % 2 ^ F.rep)

/-- `significand`, lines 460 and 504. -/
def Fmt.significand (F : Fmt) (rep : Nat) : Nat :=
  ((rep &&& F.absMask) &&& (2 ^ F.sig - 1)) ||| 2 ^ F.sig

/-- `rep & SIGN_BIT` as a condition, lines 458 and 502. -/
def Fmt.negative (F : Fmt) (rep : Nat) : Bool := (rep &&& 2 ^ (F.expBits + F.sig)) != 0

/-- `fixuint`, `i128.c3:423-465`. -/
def fixuint (F : Fmt) (rep : Nat) : Option Nat :=
  let exponent := F.exponent rep
  let significand := F.significand rep
  if F.negative rep || exponent < 0 then some 0
  else if exponent.toNat ≥ 16 * 8 then some (2 ^ 128 - 1)
  else if exponent < F.sig then shr128 significand (F.sig - exponent.toNat)
  else shl128 significand (exponent.toNat - F.sig)

/-- `sign * x` on `int128`. -/
def mulSign (neg : Bool) (x : Nat) : Nat := if neg then sub128 0 x else x

/-- `fixint`, `i128.c3:467-510`.  The significand is not negative, so that the
right shift is the one of `uint128`. -/
def fixint (F : Fmt) (rep : Nat) : Option Nat :=
  let exponent := F.exponent rep
  let significand := F.significand rep
  let neg := F.negative rep
  if exponent < 0 then some 0
  else if exponent.toNat ≥ 16 * 8 then some (if neg then 2 ^ 127 else 2 ^ 127 - 1)
  else if exponent < F.sig then do
    some (mulSign neg (← shr128 significand (F.sig - exponent.toNat)))
  else do
    some (mulSign neg (← shl128 significand (exponent.toNat - F.sig)))

end C3.I128Rt
