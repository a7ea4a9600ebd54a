import Verif.Bigint.Model
import Mathlib.Data.Int.Bitwise

/-!
# Specification vocabulary for compile-time integers

Only mathematical integers here: no word arithmetic.
-/

namespace C3.Bigint

/-- The 128 bits read as an unsigned number. -/
def Int128.u (x : Int128) : Nat := x.high.toNat * 2 ^ 64 + x.low.toNat

/-- The 128 bits read as a two's complement number. -/
def Int128.s (x : Int128) : Int :=
  if x.u < 2 ^ 127 then (x.u : Int) else (x.u : Int) - 2 ^ 128

/-- Number of bits of an integer type. -/
def TypeKind.bits : TypeKind → Nat
  | .I8 | .U8 => 8
  | .I16 | .U16 => 16
  | .I32 | .U32 => 32
  | .I64 | .U64 => 64
  | .I128 | .U128 => 128

/-- Is the integer type signed? -/
def TypeKind.signed : TypeKind → Bool
  | .I8 | .I16 | .I32 | .I64 | .I128 => true
  | .U8 | .U16 | .U32 | .U64 | .U128 => false

/-- Smallest and largest value of an integer type. -/
def TypeKind.minVal (t : TypeKind) : Int := if t.signed then -2 ^ (t.bits - 1) else 0
def TypeKind.maxVal (t : TypeKind) : Int := if t.signed then 2 ^ (t.bits - 1) - 1 else 2 ^ t.bits - 1

/-- `v` is a value of type `t`. -/
def TypeKind.InRange (t : TypeKind) (v : Int) : Prop := t.minVal ≤ v ∧ v ≤ t.maxVal

instance (t : TypeKind) (v : Int) : Decidable (t.InRange v) := by
  unfold TypeKind.InRange; infer_instance

/-- The mathematical value of a compile-time constant. -/
def CInt.val (c : CInt) : Int := if c.type.signed then c.i.s else (c.i.u : Int)

/-- A constant is well formed when its value is a value of its type. -/
def CInt.WF (c : CInt) : Prop := c.type.InRange c.val

instance (c : CInt) : Decidable c.WF := by unfold CInt.WF; infer_instance

/-- `r` is `x` reduced to the type `t`: a value of `t` congruent to `x` modulo `2 ^ bits`.
There is exactly one such `r` (`Wraps.unique`). -/
def Wraps (t : TypeKind) (x r : Int) : Prop :=
  t.InRange r ∧ ((2 : Int) ^ t.bits) ∣ (r - x)

/-- The order of two integers, as a comparison result. -/
def cmpInt (a b : Int) : CmpRes := if a < b then .LT else if a = b then .EQ else .GT

/-- The meaning of the comparison operators. -/
def CmpOp.holds : CmpOp → Int → Int → Prop
  | .GT, a, b => a > b
  | .GE, a, b => a ≥ b
  | .LT, a, b => a < b
  | .LE, a, b => a ≤ b
  | .NE, a, b => a ≠ b
  | .EQ, a, b => a = b

/-- The integer a `uint64_t` bit pattern denotes when it is read as `int64_t`. -/
abbrev i64 (x : BitVec 64) : Int := x.toInt

/-- `c` is the number of leading zeros of the `w`-bit number `n` (`w` for zero). -/
def LeadingZeros (w n c : Nat) : Prop := c ≤ w ∧ n < 2 ^ (w - c) ∧ (c < w → 2 ^ (w - c - 1) ≤ n)

/-- `c` is the number of trailing zeros of `n`; the width `w` for zero. -/
def TrailingZeros (w n c : Nat) : Prop :=
  (n = 0 → c = w) ∧ (n ≠ 0 → 2 ^ c ∣ n ∧ ¬ 2 ^ (c + 1) ∣ n)

/-- The number of one bits among the lowest `w` bits of `n`. -/
def bitCount (w n : Nat) : Nat := (List.range w).countP (fun i => n.testBit i)

/-- `v` is representable with `n` bits (two's complement when `signed`). -/
def FitsBits (signed : Bool) (n : Nat) (v : Int) : Prop :=
  if signed then 1 ≤ n ∧ -2 ^ (n - 1) ≤ v ∧ v < 2 ^ (n - 1) else 0 ≤ v ∧ v < 2 ^ n

/-- The number denoted by a list of digits, most significant first. -/
def positional (base : Nat) (ds : List Nat) : Nat := ds.foldl (fun acc d => acc * base + d) 0

/-- The character of a digit below 16. -/
def digitChar (d : Nat) : Char := "0123456789ABCDEF".toList.getD d '?'

/-- The radix prefix the compiler prints. -/
def radixPrefix (base : Nat) : List Char :=
  if base = 2 then ['0', 'b'] else if base = 8 then ['0', 'o']
  else if base = 16 then ['0', 'x'] else []

end C3.Bigint
