import Verif.Hash.Spec

/-! # HMAC (RFC 2104) and PBKDF2 (RFC 8018) -/

set_option autoImplicit false

namespace C3.Hash.Rfc

/-- Bytes, one by one. -/
def xor (a b : List Byte) : List Byte := List.zipWith (· ^^^ ·) a b

/-- The key of `B` bytes: longer ones are hashed, then zeros are put behind it. -/
def key0 (H : List Byte → List Byte) (B : Nat) (key : List Byte) : List Byte :=
  let k := if key.length > B then H key else key
  k ++ List.replicate (B - k.length) 0

/-- `H(K XOR opad, H(K XOR ipad, text))`. -/
def hmac (H : List Byte → List Byte) (B : Nat) (key text : List Byte) : List Byte :=
  H (xor (key0 H B key) (List.replicate B 0x5C) ++
    H (xor (key0 H B key) (List.replicate B 0x36) ++ text))

/-- `U_{j+1}` of section 5.2 for the block `i`. -/
def U (prf : List Byte → List Byte → List Byte) (P S : List Byte) (i : Nat) : Nat → List Byte
  | 0 => prf P (S ++ be 4 i)
  | j + 1 => prf P (U prf P S i j)

/-- `F (P, S, c, i) = U_1 XOR U_2 XOR ... XOR U_c`. -/
def F (prf : List Byte → List Byte → List Byte) (P S : List Byte) (c i : Nat) : List Byte :=
  (List.range (c - 1)).foldl (fun t j => xor t (U prf P S i (j + 1))) (U prf P S i 0)

/-- The first `dkLen` bytes of `T_1 || T_2 || ... || T_l`, `l = CEIL (dkLen / hLen)`. -/
def pbkdf2 (prf : List Byte → List Byte → List Byte) (hLen : Nat) (P S : List Byte) (c dkLen : Nat) :
    List Byte :=
  ((List.range ((dkLen + hLen - 1) / hLen)).flatMap fun i => F prf P S c (i + 1)).take dkLen

end C3.Hash.Rfc
