import Verif.Codec.Model

/-!
# Model of `lib/std/encoding/base64.c3`

`char` is `BitVec 8`, `uint` is `BitVec 32`; `usz` lengths are `Nat` (the length computations cannot
overflow for slices that exist: `(n + 2) / 3 * 4` needs `n < 3 · 2^62`).
-/

set_option autoImplicit false

namespace C3.Base64
open C3.Codec

/-- `struct Base64Alphabet`, `base64.c3:11-15`. -/
structure Alphabet where
  encoding : List (BitVec 8)
  reverse : List (BitVec 8)

/-- `STANDARD`, `base64.c3:17-28`. -/
def STANDARD : Alphabet where
  encoding := ascii [
    'A', 'B', 'C', 'D', 'E', 'F', 'G', 'H', 'I', 'J', 'K', 'L', 'M', 'N', 'O', 'P',
    'Q', 'R', 'S', 'T', 'U', 'V', 'W', 'X', 'Y', 'Z', 'a', 'b', 'c', 'd', 'e', 'f',
    'g', 'h', 'i', 'j', 'k', 'l', 'm', 'n', 'o', 'p', 'q', 'r', 's', 't', 'u', 'v',
    'w', 'x', 'y', 'z', '0', '1', '2', '3', '4', '5', '6', '7', '8', '9', '+', '/']
  reverse := hexTable 256 0xffffffffffffffffffffffffffffffffffffffffffffffffffffffffffffffffffffffffffffffffffffff3effffff3f3435363738393a3b3c3dffffffffffffff000102030405060708090a0b0c0d0e0f10111213141516171819ffffffffffff1a1b1c1d1e1f202122232425262728292a2b2c2d2e2f30313233ffffffffffffffffffffffffffffffffffffffffffffffffffffffffffffffffffffffffffffffffffffffffffffffffffffffffffffffffffffffffffffffffffffffffffffffffffffffffffffffffffffffffffffffffffffffffffffffffffffffffffffffffffffffffffffffffffffffffffffffffffffffffffffffffffffffffff

/-- `URL`, `base64.c3:30-41`. -/
def URL : Alphabet where
  encoding := ascii [
    'A', 'B', 'C', 'D', 'E', 'F', 'G', 'H', 'I', 'J', 'K', 'L', 'M', 'N', 'O', 'P',
    'Q', 'R', 'S', 'T', 'U', 'V', 'W', 'X', 'Y', 'Z', 'a', 'b', 'c', 'd', 'e', 'f',
    'g', 'h', 'i', 'j', 'k', 'l', 'm', 'n', 'o', 'p', 'q', 'r', 's', 't', 'u', 'v',
    'w', 'x', 'y', 'z', '0', '1', '2', '3', '4', '5', '6', '7', '8', '9', '-', '_']
  reverse := hexTable 256 0xffffffffffffffffffffffffffffffffffffffffffffffffffffffffffffffffffffffffffffffffffffffffff3effff3435363738393a3b3c3dffffffffffffff000102030405060708090a0b0c0d0e0f10111213141516171819ffffffff3fff1a1b1c1d1e1f202122232425262728292a2b2c2d2e2f30313233ffffffffffffffffffffffffffffffffffffffffffffffffffffffffffffffffffffffffffffffffffffffffffffffffffffffffffffffffffffffffffffffffffffffffffffffffffffffffffffffffffffffffffffffffffffffffffffffffffffffffffffffffffffffffffffffffffffffffffffffffffffffffffffffffffffffffff

/-- `NO_PAD`, `DEFAULT_PAD`, `base64.c3:8-9`. -/
def NO_PAD : BitVec 8 := 0
def DEFAULT_PAD : BitVec 8 := 61

/-- `encode_len`, `base64.c3:69-74`. -/
def encode_len (n : Nat) (padding : BitVec 8) : Nat :=
  if padding ≠ 0 then (n + 2) / 3 * 4
  else
    let trailing := n % 3
    n / 3 * 4 + (trailing * 4 + 2) / 3

/-- `decode_len`, `base64.c3:84-96`. -/
def decode_len (n : Nat) (padding : BitVec 8) : Except Fault Nat :=
  let dn := n / 4 * 3
  let trailing := n % 4
  if padding ≠ 0 then
    if trailing ≠ 0 then .error .INVALID_PADDING
    else .ok dn
  else if trailing = 1 then .error .INVALID_PADDING
  else .ok (dn + trailing * 3 / 4)

/-- `MASK`, `base64.c3:254`. -/
def MASK : BitVec 32 := 0b111111

/-- `alphabet.encoding[group >> shift & MASK]`. -/
def enc (alphabet : Alphabet) (group : BitVec 32) (shift : Nat) : Option (BitVec 8) :=
  alphabet.encoding[((group >>> shift) &&& MASK).toNat]?

/-- The loop over whole groups, `base64.c3:115-124`, followed by `k` on the rest of `dst`. -/
def encLoop (alphabet : Alphabet) (k : List (BitVec 8) → Option (List (BitVec 8))) :
    List (BitVec 8) → List (BitVec 8) → Option (List (BitVec 8))
  | [], dst => k dst
  | a :: b :: c :: src3, dst => do
    let group : BitVec 32 := a.setWidth 32 <<< 16 ||| b.setWidth 32 <<< 8 ||| c.setWidth 32
    let dst ← store dst 0 (← enc alphabet group 18)
    let dst ← store dst 1 (← enc alphabet group 12)
    let dst ← store dst 2 (← enc alphabet group 6)
    let dst ← store dst 3 (← enc alphabet group 0)
    let rest ← encLoop alphabet k src3 (dst.drop 4)
    some (dst.take 4 ++ rest)
  | _, _ => none

/-- The `switch (trailing)`, `base64.c3:128-153`; `tail` are the last `trailing` bytes of `src`. -/
def encTail (alphabet : Alphabet) (padding : BitVec 8) (tail dst : List (BitVec 8)) :
    Option (List (BitVec 8)) :=
  match tail with
  | [a] => do
    let group : BitVec 32 := a.setWidth 32 <<< 16
    let dst ← store dst 0 (← enc alphabet group 18)
    let dst ← store dst 1 (← enc alphabet group 12)
    if padding > 0 then
      let dst ← store dst 2 padding
      store dst 3 padding
    else some dst
  | [a, b] => do
    let group : BitVec 32 := a.setWidth 32 <<< 16 ||| b.setWidth 32 <<< 8
    let dst ← store dst 0 (← enc alphabet group 18)
    let dst ← store dst 1 (← enc alphabet group 12)
    let dst ← store dst 2 (← enc alphabet group 6)
    if padding > 0 then store dst 3 padding else some dst
  | [] => some dst
  | _ => none

/-- `encode_buffer`, `base64.c3:107-155`: the new cells of `dst` and the length of the result, which
is the slice `dst[:len]`.  A failed `assert` is `none`. -/
def encode_buffer (src dst : List (BitVec 8)) (padding : BitVec 8) (alphabet : Alphabet) :
    Option (List (BitVec 8) × Nat) :=
  if src.length = 0 then some (dst, 0)
  else
    let dn := encode_len src.length padding
    if ¬ dst.length ≥ dn then none
    else
      let trailing := src.length % 3
      let src3 := src.take (src.length - trailing)
      (encLoop alphabet (encTail alphabet padding (src.drop (src.length - trailing))) src3 dst).map
        fun dst => (dst, dn)

/-- `encode`, `base64.c3:46-50`; the allocated array is uninitialised, hence an argument. -/
def encode (src fresh : List (BitVec 8)) (padding : BitVec 8) (alphabet : Alphabet) :
    Option (List (BitVec 8)) :=
  if fresh.length ≠ encode_len src.length padding then none
  else (encode_buffer src fresh padding alphabet).map fun r => r.1.take r.2

/-- What follows the loop in `decode_buffer`: the remaining cells and the number taken off `dn`. -/
abbrev Tail := List (BitVec 8) → Option (Except Fault (List (BitVec 8) × Nat))

/-- The loop over whole groups, `base64.c3:187-206`, followed by `k` on the rest of `dst`. -/
def decLoop (alphabet : Alphabet) (k : Tail) : List (BitVec 8) → Tail
  | [], dst => k dst
  | s0 :: s1 :: s2 :: s3 :: src4, dst => do
    let c0 ← alphabet.reverse[s0.toNat]?
    let c1 ← alphabet.reverse[s1.toNat]?
    let c2 ← alphabet.reverse[s2.toNat]?
    let c3 ← alphabet.reverse[s3.toNat]?
    if c0 = 0xFF ∨ c1 = 0xFF ∨ c2 = 0xFF ∨ c3 = 0xFF then
      some (.error .INVALID_CHARACTER)
    else
      let group : BitVec 32 := c0.setWidth 32 <<< 18 ||| c1.setWidth 32 <<< 12 |||
        c2.setWidth 32 <<< 6 ||| c3.setWidth 32
      let dst ← store dst 0 ((group >>> 16).setWidth 8)
      let dst ← store dst 1 ((group >>> 8).setWidth 8)
      let dst ← store dst 2 (group.setWidth 8)
      match ← decLoop alphabet k src4 (dst.drop 3) with
      | .error f => some (.error f)
      | .ok (rest, m) => some (.ok (dst.take 3 ++ rest, m))
  | _, _ => none

/-- The part after the loop, `base64.c3:208-251`; `src` are the last `trailing` bytes. -/
def decTail (alphabet : Alphabet) (padding : BitVec 8) (src : List (BitVec 8)) : Tail := fun dst => do
  if src.length = 0 then return .ok (dst, 0)
  let c0 ← alphabet.reverse[(← src[0]?).toNat]?
  let c1 ← alphabet.reverse[(← src[1]?).toNat]?
  if c0 = 0xFF ∨ c1 = 0xFF then return .error .INVALID_PADDING
  if padding = 0 then
    if src.length = 2 then
      let group : BitVec 32 := c0.setWidth 32 <<< 18 ||| c1.setWidth 32 <<< 12
      let dst ← store dst 0 ((group >>> 16).setWidth 8)
      return .ok (dst, 0)
    else if src.length = 3 then
      let c2 ← alphabet.reverse[(← src[2]?).toNat]?
      if c2 = 0xFF then return .error .INVALID_CHARACTER
      let group : BitVec 32 := c0.setWidth 32 <<< 18 ||| c1.setWidth 32 <<< 12 ||| c2.setWidth 32 <<< 6
      let dst ← store dst 0 ((group >>> 16).setWidth 8)
      let dst ← store dst 1 ((group >>> 8).setWidth 8)
      return .ok (dst, 0)
    else return .ok (dst, 0)
  else
    let s2 ← src[2]?
    let s3 ← src[3]?
    if padding = s2 then
      if s3 ≠ padding then return .error .INVALID_PADDING
      let group : BitVec 32 := c0.setWidth 32 <<< 18 ||| c1.setWidth 32 <<< 12
      let dst ← store dst 0 ((group >>> 16).setWidth 8)
      return .ok (dst, 2)
    else if padding = s3 then
      let c2 ← alphabet.reverse[s2.toNat]?
      if c2 = 0xFF then return .error .INVALID_CHARACTER
      let group : BitVec 32 := c0.setWidth 32 <<< 18 ||| c1.setWidth 32 <<< 12 ||| c2.setWidth 32 <<< 6
      let dst ← store dst 0 ((group >>> 16).setWidth 8)
      let dst ← store dst 1 ((group >>> 8).setWidth 8)
      return .ok (dst, 1)
    else return .ok (dst, 0)

/-- `decode_buffer`, `base64.c3:168-252`: a fault, or the new cells of `dst` and the length of the
result, which is the slice `dst[:len]`. -/
def decode_buffer (src dst : List (BitVec 8)) (padding : BitVec 8) (alphabet : Alphabet) :
    Option (Except Fault (List (BitVec 8) × Nat)) :=
  if src.length = 0 then some (.ok (dst, 0))
  else
    match decode_len src.length padding with
    | .error f => some (.error f)
    | .ok dn =>
      if ¬ dst.length ≥ dn then none
      else do
        let trailing := if padding = 0 then src.length % 4 else 4
        let last ← src.getLast?
        let src4 :=
          if padding = 0 then src.take (src.length - trailing)
          else if last = padding then src.take (src.length - 4) else src
        match ← decLoop alphabet (decTail alphabet padding (src.drop (src.length - trailing))) src4 dst with
        | .error f => some (.error f)
        | .ok (dst, m) => some (.ok (dst, dn - m))

/-- `decode`, `base64.c3:52-56`. -/
def decode (src fresh : List (BitVec 8)) (padding : BitVec 8) (alphabet : Alphabet) :
    Option (Except Fault (List (BitVec 8))) :=
  match decode_len src.length padding with
  | .error f => some (.error f)
  | .ok n =>
    if fresh.length ≠ n then none
    else (decode_buffer src fresh padding alphabet).map fun r => r.map fun r => r.1.take r.2

end C3.Base64
