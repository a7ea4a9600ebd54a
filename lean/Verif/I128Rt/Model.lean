/-! # Model of the integer half of `lib/std/math/runtime/i128.c3`

The routines a C3 program calls when it divides, multiplies or shifts 128-bit
integers on a target whose C library does not bring them.  A `ulong` is a `Nat`
below `2^64`, a `uint128` and an `int128` are a `Nat` below `2^128` (an
`int128` by its two's complement bits).  A division by zero and a shift of a
`ulong` by 64 or more are `none`: the first traps, the second has no defined
result. -/

set_option autoImplicit false

namespace C3.I128Rt

/-- `Int128bits`, `i128.c3:205-213`: the two words of a 128-bit integer.  The
struct lies over the integer with `low` first, which is the layout of a little
endian target; big endian ones are not modelled. -/
structure Bits where
  /-- `low`, line 209 -/
  low : Nat
  /-- `high`, line 210 -/
  high : Nat
deriving Repr, DecidableEq

/-- Writing the member `all`, line 212. -/
def ofAll (a : Nat) : Bits := ⟨a % 2 ^ 64, a / 2 ^ 64 % 2 ^ 64⟩

/-- Reading the member `all`, line 212. -/
def Bits.all (x : Bits) : Nat := x.high * 2 ^ 64 + x.low

/-- `x << n` on `ulong`. -/
def shl (x n : Nat) : Option Nat := if n < 64 then some (x * 2 ^ n % 2 ^ 64) else none

/-- `x >> n` on `ulong`. -/
def shr (x n : Nat) : Option Nat := if n < 64 then some (x / 2 ^ n) else none

/-- `x / y` on unsigned integers. -/
def udiv (x y : Nat) : Option Nat := if y = 0 then none else some (x / y)

/-- `x % y` on unsigned integers. -/
def umod (x y : Nat) : Option Nat := if y = 0 then none else some (x % y)

/-- `x - y` on a `uint128`. -/
def sub128 (x y : Nat) : Nat := (x + (2 ^ 128 - y)) % 2 ^ 128

/-- `x + y` on a `uint128`. -/
def add128 (x y : Nat) : Nat := (x + y) % 2 ^ 128

/-- `x - y` on a `uint`. -/
def sub32 (x y : Nat) : Nat := (x + (2 ^ 32 - y)) % 2 ^ 32

/-- `$$clz` of a `ulong`. -/
def clz (x : Nat) : Nat := if x = 0 then 64 else 63 - x.log2

/-- `$$ctz` of a `ulong`. -/
def ctz (x : Nat) : Nat := if x = 0 then 64 else if x % 2 = 1 then 0 else 1 + ctz (x / 2)
decreasing_by omega

/-- `x >> 127` of an `int128`: all ones for a negative number, else 0. -/
def signMask (x : Nat) : Nat := if x / 2 ^ 127 = 1 then 2 ^ 128 - 1 else 0

/-- The loop's state: the remainder, the quotient and the carry. -/
structure Loop where
  r : Bits
  q : Bits
  carry : Nat

/-- One pass of the loop of `@__udivmodti4`, `i128.c3:163-176`. -/
def pass (d : Bits) (l : Loop) : Option Loop := do
  let rh := (← shl l.r.high 1) ||| (← shr l.r.low (64 - 1))
  let rl := (← shl l.r.low 1) ||| (← shr l.q.high (64 - 1))
  let qh := (← shl l.q.high 1) ||| (← shr l.q.low (64 - 1))
  let ql := (← shl l.q.low 1) ||| l.carry
  let r : Bits := ⟨rl, rh⟩
  let s := signMask (sub128 (sub128 d.all r.all) 1)
  some ⟨ofAll (sub128 r.all (d.all &&& s)), ⟨ql, qh⟩, s &&& 1⟩

/-- The loop of `@__udivmodti4`, `i128.c3:161-177`. -/
def loop (d : Bits) : Nat → Loop → Option Loop
  | 0, l => some l
  | sr + 1, l => do loop d sr (← pass d l)

/-- `i128.c3:160-182`: run the loop from the given split and return. -/
def finish (d : Bits) (rem : Bool) (sr : Nat) (q r : Bits) : Option Nat := do
  let l ← loop d sr ⟨r, q, 0⟩
  if rem then some l.r.all
  else some ((l.q.all * 2 % 2 ^ 128) ||| l.carry)

/-- The case of a divisor whose low word is zero, `i128.c3:38-82`. -/
def lowZero (n d : Bits) (rem : Bool) : Option Nat :=
  if d.high = 0 then
    if rem then umod n.high d.low else udiv n.high d.low
  else if n.low = 0 then
    if rem then do some (Bits.all ⟨0, ← umod n.high d.high⟩) else udiv n.high d.high
  else if d.high &&& (d.high - 1) = 0 then
    if rem then some (Bits.all ⟨n.low, n.high &&& (d.high - 1)⟩)
    else shr n.high (ctz d.high)
  else
    let sr := sub32 (clz d.high) (clz n.high)
    if sr > 64 - 2 then some (if rem then n.all else 0)
    else do
      let sr := sr + 1
      let qh ← shl n.low (64 - sr)
      let rh ← shr n.high sr
      let rl := (← shl n.high (64 - sr)) ||| (← shr n.low sr)
      finish d rem sr ⟨0, qh⟩ ⟨rl, rh⟩

/-- The case of a divisor that fits one word, `i128.c3:88-121`. -/
def oneWord (n d : Bits) (rem : Bool) : Option Nat :=
  if d.low &&& (d.low - 1) = 0 then
    if rem then some (n.low &&& (d.low - 1))
    else if d.low = 1 then some n.all
    else do
      let sr := ctz d.low
      let qh ← shr n.high sr
      let ql := (← shl n.high (64 - sr)) ||| (← shr n.low sr)
      some (Bits.all ⟨ql, qh⟩)
  else
    let sr := sub32 (1 + 64 + clz d.low) (clz n.high)
    if sr = 64 then finish d rem sr ⟨0, n.low⟩ ⟨n.high, 0⟩
    else if sr < 64 then do
      let qh ← shl n.low (64 - sr)
      let rh ← shr n.high sr
      let rl := (← shl n.high (64 - sr)) ||| (← shr n.low sr)
      finish d rem sr ⟨0, qh⟩ ⟨rl, rh⟩
    else do
      let ql ← shl n.low (128 - sr)
      let qh := (← shl n.high (128 - sr)) ||| (← shr n.low (sr - 64))
      let rl ← shr n.high (sr - 64)
      finish d rem sr ⟨ql, qh⟩ ⟨rl, 0⟩

/-- The case of a divisor with two nonzero words, `i128.c3:125-152`. -/
def twoWords (n d : Bits) (rem : Bool) : Option Nat :=
  let sr := sub32 (clz d.high) (clz n.high)
  if sr > 64 - 1 then some (if rem then n.all else 0)
  else
    let sr := sr + 1
    if sr = 64 then finish d rem sr ⟨0, n.low⟩ ⟨n.high, 0⟩
    else do
      let rh ← shr n.high sr
      let rl := (← shl n.high (64 - sr)) ||| (← shr n.low sr)
      let qh ← shl n.low (64 - sr)
      finish d rem sr ⟨0, qh⟩ ⟨rl, rh⟩

/-- `@__udivmodti4`, `i128.c3:13-183`. -/
def udivmod (a b : Nat) (rem : Bool) : Option Nat :=
  let n := ofAll a
  let d := ofAll b
  if n.high = 0 then
    if d.high = 0 then
      if rem then umod n.low d.low else udiv n.low d.low
    else some (if rem then n.low else 0)
  else if d.low = 0 then lowZero n d rem
  else if d.high = 0 then oneWord n d rem
  else twoWords n d rem

/-- `__umodti3`, `i128.c3:185-188`. -/
def umodti3 (n d : Nat) : Option Nat := udivmod n d true

/-- `__udivti3`, `i128.c3:190-193`. -/
def udivti3 (n d : Nat) : Option Nat := udivmod n d false

/-- `(x ^ sign) + (-sign)` on 128 bits, used at `i128.c3:7-8`, `10`, `198-202`. -/
def applySign (x sign : Nat) : Nat := add128 (x ^^^ sign) (sub128 0 sign)

/-- `__divti3`, `i128.c3:3-11`. -/
def divti3 (a b : Nat) : Option Nat := do
  let signA := signMask a
  let signB := signMask b
  let q ← udivti3 (applySign a signA) (applySign b signB)
  some (applySign q (signA ^^^ signB))

/-- `__modti3`, `i128.c3:195-203`. -/
def modti3 (a b : Nat) : Option Nat := do
  let b' := applySign b (signMask b)
  let a' := applySign a (signMask a)
  let r ← umodti3 a' b'
  some (applySign r (signMask a))

/-- `__lshrti3`, `i128.c3:215-231`. -/
def lshrti3 (a b : Nat) : Option Nat :=
  let x := ofAll a
  if b ≥ 64 then do
    some (Bits.all ⟨← shr x.high (b - 64), 0⟩)
  else if b = 0 then some a
  else do
    let low := (← shl x.high (64 - b)) ||| (← shr x.low b)
    some (Bits.all ⟨low, ← shr x.high b⟩)

/-- `__ashrti3`, `i128.c3:233-249`. -/
def ashrti3 (a b : Nat) : Option Nat :=
  let x := ofAll a
  if b ≥ 64 then do
    let low ← shr x.high (b - 64)
    some (Bits.all ⟨low, ← shr x.high 63⟩)
  else if b = 0 then some a
  else do
    let low := (← shl x.high (64 - b)) ||| (← shr x.low b)
    some (Bits.all ⟨low, ← shr x.high b⟩)

/-- `__ashlti3`, `i128.c3:251-267`. -/
def ashlti3 (a b : Nat) : Option Nat :=
  let x := ofAll a
  if b ≥ 64 then do
    let x := { x with low := 0 }
    some (Bits.all { x with high := ← shl x.low (b - 64) })
  else if b = 0 then some a
  else do
    let high := (← shl x.high b) ||| (← shr x.low (64 - b))
    some (Bits.all ⟨← shl x.low b, high⟩)

/-- `__mulddi3`, `i128.c3:271-288`. -/
def mulddi3 (a b : Nat) : Nat :=
  let mask := 0xffffffff
  let low := (a &&& mask) * (b &&& mask) % 2 ^ 64
  let t := low / 2 ^ 32
  let low := low &&& mask
  let t := (t + (a / 2 ^ 32) * (b &&& mask)) % 2 ^ 64
  let low := (low + (t &&& mask) * 2 ^ 32) % 2 ^ 64
  let high := t / 2 ^ 32
  let t := low / 2 ^ 32
  let low := low &&& mask
  let t := (t + (b / 2 ^ 32) * (a &&& mask)) % 2 ^ 64
  let low := (low + (t &&& mask) * 2 ^ 32) % 2 ^ 64
  let high := (high + t / 2 ^ 32) % 2 ^ 64
  let high := (high + (a / 2 ^ 32) * (b / 2 ^ 32)) % 2 ^ 64
  Bits.all ⟨low, high⟩

/-- `__multi3`, `i128.c3:290-297`. -/
def multi3 (a b : Nat) : Nat :=
  let x := ofAll a
  let y := ofAll b
  let r := ofAll (mulddi3 x.low y.low)
  Bits.all { r with high := (r.high + (x.high * y.low + x.low * y.high) % 2 ^ 64) % 2 ^ 64 }

end C3.I128Rt
