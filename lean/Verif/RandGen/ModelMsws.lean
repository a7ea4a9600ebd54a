import Verif.RandGen.Model

/-! # The middle square generators, lib/std/math/random/math.msws.c3 -/

set_option autoImplicit false

namespace C3.RandGen

/-- `Msws128Random` and the narrower ones, math.msws.c3 11–15, 49–53, 85–89, 123–127, 160–164. -/
structure Msws (w : Nat) where
  state0 : BitVec w
  state1 : BitVec w
  weyl0 : BitVec w
  weyl1 : BitVec w
deriving DecidableEq, Repr

/-- The body that `next_int128`, `next_long`, `next_int`, `next_short` and `next_byte` share, math.msws.c3 23–36, 60–73, 97–110,
135–148, 171–184: the value, and the state after it. -/
def msws {w : Nat} (rot : Nat) (phi : BitVec w) (s : Msws w) : BitVec w × Msws w :=
  let s1 := s.state1 * s.state1 + s.weyl1
  (s.state0 + s1,
    ⟨(s.state0 * s.state0 + s.weyl0).rotateRight rot, s1.rotateRight rot, s.weyl0 + phi, s.weyl1 - phi⟩)

/-- `Msws128Random.next_int128`, math.msws.c3 23–36. -/
def msws128 : Msws 128 → BitVec 128 × Msws 128 := msws 64 ODD_PHI128
/-- `Msws64Random.next_long`, math.msws.c3 60–73. -/
def msws64 : Msws 64 → BitVec 64 × Msws 64 := msws 32 ODD_PHI64
/-- `Msws32Random.next_int`, math.msws.c3 97–110. -/
def msws32 : Msws 32 → BitVec 32 × Msws 32 := msws 16 ODD_PHI32
/-- `Msws16Random.next_short`, math.msws.c3 135–148. -/
def msws16 : Msws 16 → BitVec 16 × Msws 16 := msws 8 ODD_PHI16
/-- `Msws8Random.next_byte`, math.msws.c3 171–184. -/
def msws8 : Msws 8 → BitVec 8 × Msws 8 := msws 4 ODD_PHI8

end C3.RandGen
