/-! # `lib/std/crypto/rc4.c3` -/

set_option autoImplicit false

namespace C3.Rc4

abbrev Byte := BitVec 8

/-- `Rc4`, lines 6–10. -/
structure Rc4 where
  i : BitVec 32
  j : BitVec 32
  state : List Byte

/-- `@swap` of two elements, `lib/std/core/builtin.c3` 69–74; an index out of bounds is `none`. -/
def swap (s : List Byte) (i j : Nat) : Option (List Byte) := do
  let temp ← s[i]?
  let b ← s[j]?
  let s := s.set i b
  if j < s.length then some (s.set j temp) else none

/-- The body of the loop of `Rc4.init`, lines 24–25. The sum of two bytes and a number below 256 is
an `int`, `key.len` is not zero (line 16, `none` otherwise). -/
def keyStep (key : List Byte) (s : List Byte) (i : Nat) (j : BitVec 32) :
    Option (List Byte × BitVec 32) := do
  let a ← s[i]?
  let k ← if key.length = 0 then none else key[i % key.length]?
  let j := (j + a.zeroExtend 32 + k.zeroExtend 32) &&& 0xFF
  let s ← swap s i j.toNat
  some (s, j)

/-- The loop, lines 22–26, from `i` with `n` rounds left. -/
def keyLoop (key : List Byte) : Nat → Nat → List Byte → BitVec 32 → Option (List Byte)
  | 0, _, s, _ => some s
  | n + 1, i, s, j => do
    let r ← keyStep key s i j
    keyLoop key n (i + 1) r.1 r.2

/-- `Rc4.init`, lines 18–29. -/
def init (key : List Byte) : Option Rc4 := do
  let s ← keyLoop key 256 0 ((List.range 256).map fun i => BitVec.ofNat 8 i) 0
  some { i := 0, j := 0, state := s }

/-- The body of the loop of `Rc4.crypt`, lines 58–61: the state behind it and the byte written.
`state` is a pointer, but an index out of bounds is `none` here as well. -/
def cryptStep (r : Rc4) (c : Byte) : Option (Rc4 × Byte) := do
  let i := (r.i + 1) &&& 0xFF
  let a ← r.state[i.toNat]?
  let j := (r.j + a.zeroExtend 32) &&& 0xFF
  let s ← swap r.state i.toNat j.toNat
  let a ← s[i.toNat]?
  let b ← s[j.toNat]?
  let k ← s[((a.zeroExtend 32 + b.zeroExtend 32) &&& (0xFF : BitVec 32)).toNat]?
  some ({ i := i, j := j, state := s }, c ^^^ k)

/-- `Rc4.crypt`, lines 50–65: the new state and the first `in.len` bytes of `out`. Every byte of
the input is read before the byte of the output at the same index is written, so it does not matter
whether the two are the same memory, as they are in `crypt`. -/
def cryptAll (r : Rc4) : List Byte → Option (Rc4 × List Byte)
  | [] => some (r, [])
  | c :: l => do
    let x ← cryptStep r c
    let y ← cryptAll x.1 l
    some (y.1, x.2 :: y.2)

/-- `rc4::crypt`, lines 36–41. -/
def crypt (key data : List Byte) : Option (List Byte) := do
  let r ← init key
  let x ← cryptAll r data
  some x.2

end C3.Rc4
