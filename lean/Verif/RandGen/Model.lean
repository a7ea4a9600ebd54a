/-! # Random number generators, lib/std/math/random/*.c3

A generator is its state, and a call gives a value and the next state. Of each generator the one function is modelled that
changes the state, and which the others call. States are those `set_seed` gives, see the definitions; how seeds are made is
left out. Arithmetic on `char` and `ushort` is done as `int` and cut off, which is the same modulo the width. -/

set_option autoImplicit false

namespace C3.RandGen

/-- math.lcg.c3 4–7. -/
def ODD_PHI128 : BitVec 128 := 0x9e3779b97f4a7c15f39cc0605cedc835
def ODD_PHI64 : BitVec 64 := 0x9e3779b97f4a7c15
def ODD_PHI32 : BitVec 32 := 0x9e3779b9
def ODD_PHI16 : BitVec 16 := 0x9e37
/-- math.sfc.c3 8. -/
def ODD_PHI8 : BitVec 8 := 0x9f
/-- math.lcg.c3 9–12, math.pcg.c3 9–12. -/
def MUL_LCG128 : BitVec 128 := 0xdb36357734e34abb0050d0761fcdfc15
def MUL_LCG64 : BitVec 64 := 0xd1342543de82ef95
def MUL_LCG32 : BitVec 32 := 0x915f77f5
def MUL_LCG16 : BitVec 16 := 0x915d
/-- math.mcg.c3 3–6. -/
def MUL_MCG128 : BitVec 128 := 0x9e3779b97f4a7c15f39cc0605cedc835
def MUL_MCG64 : BitVec 64 := 0xf1357aea2e62a9c5
def MUL_MCG32 : BitVec 32 := 0x93d765dd
def MUL_MCG16 : BitVec 16 := 0x93d5

/-- `Lcg128Random.next_long`, math.lcg.c3 24–30. -/
def lcg128 (s : BitVec 128) : BitVec 64 × BitVec 128 := ((s >>> 64).setWidth 64, s * MUL_LCG128 + ODD_PHI128)
/-- `Lcg64Random.next_int`, math.lcg.c3 51–57. -/
def lcg64 (s : BitVec 64) : BitVec 32 × BitVec 64 := ((s >>> 32).setWidth 32, s * MUL_LCG64 + ODD_PHI64)
/-- `Lcg32Random.next_short`, math.lcg.c3 77–83. -/
def lcg32 (s : BitVec 32) : BitVec 16 × BitVec 32 := ((s >>> 16).setWidth 16, s * MUL_LCG32 + ODD_PHI32)
/-- `Lcg16Random.next_byte`, math.lcg.c3 100–106. -/
def lcg16 (s : BitVec 16) : BitVec 8 × BitVec 16 := ((s >>> 8).setWidth 8, s * MUL_LCG16 + ODD_PHI16)

/-- `Pcg128Random.next_long`, math.pcg.c3 26–34. -/
def pcg128 (s : BitVec 128) : BitVec 64 × BitVec 128 :=
  (((((s ^^^ s >>> 35) >>> 58).setWidth 64)).rotateRight (s >>> 122).toNat, s * MUL_LCG128 + ODD_PHI128)
/-- `Pcg64Random.next_int`, math.pcg.c3 54–62. -/
def pcg64 (s : BitVec 64) : BitVec 32 × BitVec 64 :=
  (((((s ^^^ s >>> 18) >>> 27).setWidth 32)).rotateRight (s >>> 59).toNat, s * MUL_LCG64 + ODD_PHI64)
/-- `Pcg32Random.next_short`, math.pcg.c3 83–91. -/
def pcg32 (s : BitVec 32) : BitVec 16 × BitVec 32 :=
  (((((s ^^^ s >>> 10) >>> 12).setWidth 16)).rotateRight (s >>> 28).toNat, s * MUL_LCG32 + ODD_PHI32)
/-- `Pcg16Random.next_byte`, math.pcg.c3 111–119. -/
def pcg16 (s : BitVec 16) : BitVec 8 × BitVec 16 :=
  (((((s ^^^ s >>> 5) >>> 5).setWidth 8)).rotateRight (s >>> 13).toNat, s * MUL_LCG16 + ODD_PHI16)

/-- `Mcg128Random.next_long`, math.mcg.c3 25–31; `set_seed`, 12–15, gives odd states only, as for the next three. -/
def mcg128 (s : BitVec 128) : BitVec 64 × BitVec 128 := ((s >>> 64).setWidth 64, s * MUL_MCG128)
/-- `Mcg64Random.next_int`, math.mcg.c3 58–64. -/
def mcg64 (s : BitVec 64) : BitVec 32 × BitVec 64 := ((s >>> 32).setWidth 32, s * MUL_MCG64)
/-- `Mcg32Random.next_short`, math.mcg.c3 81–87. -/
def mcg32 (s : BitVec 32) : BitVec 16 × BitVec 32 := ((s >>> 16).setWidth 16, s * MUL_MCG32)
/-- `Mcg16Random.next_byte`, math.mcg.c3 107–113. -/
def mcg16 (s : BitVec 16) : BitVec 8 × BitVec 16 := ((s >>> 8).setWidth 8, s * MUL_MCG16)

/-- `SimpleRandom.next_int`, math.simple_random.c3 16–21, with the constants of 32–34; `set_seed`, 6–14, gives states below
2^48 only. -/
def simple (s : BitVec 64) : BitVec 32 × BitVec 64 :=
  let nextseed := (s * 0x5DEECE66D + 0xB) &&& 0xFFFFFFFFFFFF
  ((nextseed >>> 16).setWidth 32, nextseed)

/-- The four words of `Sfc*Random`. -/
structure Sfc (w : Nat) where
  s0 : BitVec w
  s1 : BitVec w
  s2 : BitVec w
  s3 : BitVec w
deriving DecidableEq

/-- The functions of math.sfc.c3 20–29, 50–59, 79–88, 109–118, 139–148, which have shifts of their own; `<<` binds closer than
`+` (src/compiler/enums.h 994–996). -/
def sfc {w : Nat} (shr shl rot : Nat) (phi : BitVec w) (s : Sfc w) : BitVec w × Sfc w :=
  let result := s.s0 + s.s1 + s.s3
  (result, ⟨s.s1 ^^^ s.s1 >>> shr, s.s2 + s.s2 <<< shl, s.s2.rotateRight rot + result, s.s3 + phi⟩)

/-- `Sfc128Random.next_int128`, math.sfc.c3 20–29. -/
def sfc128 : Sfc 128 → BitVec 128 × Sfc 128 := sfc 11 3 40 ODD_PHI128
/-- `Sfc64Random.next_long`, math.sfc.c3 50–59. -/
def sfc64 : Sfc 64 → BitVec 64 × Sfc 64 := sfc 11 3 40 ODD_PHI64
/-- `Sfc32Random.next_int`, math.sfc.c3 79–88. -/
def sfc32 : Sfc 32 → BitVec 32 × Sfc 32 := sfc 9 3 11 ODD_PHI32
/-- `Sfc16Random.next_short`, math.sfc.c3 109–118. -/
def sfc16 : Sfc 16 → BitVec 16 × Sfc 16 := sfc 2 3 12 ODD_PHI16
/-- `Sfc8Random.next_byte`, math.sfc.c3 139–148. -/
def sfc8 : Sfc 8 → BitVec 8 × Sfc 8 := sfc 1 2 3 ODD_PHI8

/-- `Sfc128Random.next_long`, math.sfc.c3 35: the cast is to `uint`. -/
def sfc128_next_long (s : Sfc 128) : BitVec 64 × Sfc 128 := (((sfc128 s).1.setWidth 32).setWidth 64, (sfc128 s).2)

end C3.RandGen
