import Verif.Hash.Spec

/-! # SHA-1 as FIPS 180-4 has it -/

set_option autoImplicit false

namespace C3.Hash.Sha1.Fips

/-- Section 4.1.1. -/
def F (t : Nat) (x y z : Word) : Word :=
  if t < 20 then (x &&& y) ^^^ (~~~x &&& z)
  else if t < 40 then x ^^^ y ^^^ z
  else if t < 60 then (x &&& y) ^^^ (x &&& z) ^^^ (y &&& z)
  else x ^^^ y ^^^ z

/-- Section 4.2.1. -/
def K (t : Nat) : Word :=
  if t < 20 then 0x5a827999 else if t < 40 then 0x6ed9eba1 else if t < 60 then 0x8f1bbcdc else 0xca62c1d6

/-- The word `t` of a block, the highest byte first. -/
def word (b : List Byte) (t : Nat) : Word :=
  b.getD (4 * t) 0 ++ b.getD (4 * t + 1) 0 ++ b.getD (4 * t + 2) 0 ++ b.getD (4 * t + 3) 0

/-- The message schedule, section 6.1.2, step 1. -/
def W (b : List Byte) (t : Nat) : Word :=
  if t < 16 then word b t
  else (W b (t - 3) ^^^ W b (t - 8) ^^^ W b (t - 14) ^^^ W b (t - 16)).rotateLeft 1
termination_by t

/-- Five words. -/
structure Hash where
  (a b c d e : Word)
  deriving DecidableEq, Repr

/-- Section 6.1.2, step 3. -/
def round (blk : List Byte) (v : Hash) (t : Nat) : Hash :=
  let T := v.a.rotateLeft 5 + F t v.b v.c v.d + v.e + K t + W blk t
  { e := v.d, d := v.c, c := v.b.rotateLeft 30, b := v.a, a := T }

/-- Section 6.1.2: a block. -/
def compress (H : Hash) (blk : List Byte) : Hash :=
  let v := (List.range 80).foldl (round blk) H
  ⟨H.a + v.a, H.b + v.b, H.c + v.c, H.d + v.d, H.e + v.e⟩

/-- Section 5.3.1. -/
def H0 : Hash := ⟨0x67452301, 0xefcdab89, 0x98badcfe, 0x10325476, 0xc3d2e1f0⟩

/-- The bytes of a word, the highest first. -/
def bytes (w : Word) : List Byte :=
  [w.extractLsb' 24 8, w.extractLsb' 16 8, w.extractLsb' 8 8, w.extractLsb' 0 8]

/-- SHA-1. -/
def sha1 (m : List Byte) : List Byte :=
  let H := hashed compress H0 (be 8) m
  [H.a, H.b, H.c, H.d, H.e].flatMap bytes

end C3.Hash.Sha1.Fips
