import Verif.Codec.Model

/-!
# Model of `lib/std/encoding/base32.c3`

`char` is `BitVec 8`, `uint` is `BitVec 32`; `usz` lengths are `Nat`.  The expressions that combine
`char`s (`buf[7] | buf[6] << 5`) are computed in a wider type and then truncated by the code; only
the low 8 bits matter, so the model computes them with 8 bits.
-/

set_option autoImplicit false

namespace C3.Base32
open C3.Codec

/-- `struct Base32Alphabet`, `base32.c3:6-10`. -/
structure Alphabet where
  encoding : List (BitVec 8)
  reverse : List (BitVec 8)

/-- `STANDARD`, `base32.c3:251-261`. -/
def STANDARD : Alphabet where
  encoding := ascii [
    'A', 'B', 'C', 'D', 'E', 'F', 'G', 'H', 'I', 'J', 'K', 'L', 'M', 'N', 'O', 'P',
    'Q', 'R', 'S', 'T', 'U', 'V', 'W', 'X', 'Y', 'Z', '2', '3', '4', '5', '6', '7']
  reverse := hexTable 256 0xffffffffffffffffffffffffffffffffffffffffffffffffffffffffffffffffffffffffffffffffffffffffffffffffffff1a1b1c1d1e1fffffffffffffffffff000102030405060708090a0b0c0d0e0f10111213141516171819ffffffffffffffffffffffffffffffffffffffffffffffffffffffffffffffffffffffffffffffffffffffffffffffffffffffffffffffffffffffffffffffffffffffffffffffffffffffffffffffffffffffffffffffffffffffffffffffffffffffffffffffffffffffffffffffffffffffffffffffffffffffffffffffffffffffffffffffffffffffffffffffffffffffffffffffffffffffffffffffffffffffffff

/-- `HEX`, `base32.c3:263-273`. -/
def HEX : Alphabet where
  encoding := ascii [
    '0', '1', '2', '3', '4', '5', '6', '7', '8', '9', 'A', 'B', 'C', 'D', 'E', 'F',
    'G', 'H', 'I', 'J', 'K', 'L', 'M', 'N', 'O', 'P', 'Q', 'R', 'S', 'T', 'U', 'V']
  reverse := hexTable 256 0xffffffffffffffffffffffffffffffffffffffffffffffffffffffffffffffffffffffffffffffffffffffffffffffff00010203040506070809ffffffffffffff0a0b0c0d0e0f101112131415161718191a1b1c1d1e1fffffffffffffffffffffffffffffffffffffffffffffffffffffffffffffffffffffffffffffffffffffffffffffffffffffffffffffffffffffffffffffffffffffffffffffffffffffffffffffffffffffffffffffffffffffffffffffffffffffffffffffffffffffffffffffffffffffffffffffffffffffffffffffffffffffffffffffffffffffffffffffffffffffffffffffffffffffffffffffffffffffffffffffffffff

/-- `NO_PAD`, `DEFAULT_PAD`, `base32.c3:12-13`. -/
def NO_PAD : BitVec 8 := 0
def DEFAULT_PAD : BitVec 8 := 61

/-- `decode_len`, `base32.c3:53-59`. -/
def decode_len (n : Nat) (padding : BitVec 8) : Nat :=
  if padding ≠ 0 then n / 8 * 5
  else
    let trailing := n % 8
    n / 8 * 5 + trailing * 5 / 8

/-- `encode_len`, `base32.c3:68-76`. -/
def encode_len (n : Nat) (padding : BitVec 8) : Nat :=
  if padding ≠ 0 then (n + 4) / 5 * 8
  else
    let trailing := n % 5
    n / 5 * 8 + (trailing * 8 + 4) / 5

/-- `MASK`, `INVALID`, `base32.c3:239-240`. -/
def MASK : BitVec 32 := 0b11111
def INVALID : BitVec 8 := 0xff

/-- `alphabet.encoding[(word >> shift) & MASK]`. -/
def enc (alphabet : Alphabet) (word : BitVec 32) (shift : Nat) : Option (BitVec 8) :=
  alphabet.encoding[((word >>> shift) &&& MASK).toNat]?

/-- The padding loop at the end of `encode_buffer`, `base32.c3:230-235`: cells `i .. 7`. -/
def padLoop (padding : BitVec 8) (dst : List (BitVec 8)) (i : Nat) : Option (List (BitVec 8)) :=
  if i < 8 then do
    let dst ← store dst i padding
    padLoop padding dst (i + 1)
  else some dst
termination_by 8 - i

/-- `case 1` of `switch (trailing)`, `base32.c3:222-225`. -/
def encCase1 (al : Alphabet) (a : BitVec 8) (msb : BitVec 32) (dst : List (BitVec 8)) :
    Option (List (BitVec 8)) := do
  let msb := msb ||| a.setWidth 32 <<< 24
  let dst ← store dst 1 (← enc al msb 22)
  store dst 0 (← enc al msb 27)

/-- `case 2`, `base32.c3:217-221`. -/
def encCase2 (al : Alphabet) (a b : BitVec 8) (msb : BitVec 32) (dst : List (BitVec 8)) :
    Option (List (BitVec 8)) := do
  let msb := msb ||| b.setWidth 32 <<< 16
  let dst ← store dst 3 (← enc al msb 12)
  let dst ← store dst 2 (← enc al msb 17)
  encCase1 al a msb dst

/-- `case 3`, `base32.c3:213-216`. -/
def encCase3 (al : Alphabet) (a b c : BitVec 8) (msb : BitVec 32) (dst : List (BitVec 8)) :
    Option (List (BitVec 8)) := do
  let msb := msb ||| c.setWidth 32 <<< 8
  let dst ← store dst 4 (← enc al msb 7)
  encCase2 al a b msb dst

/-- `case 4`, `base32.c3:207-212`. -/
def encCase4 (al : Alphabet) (a b c d : BitVec 8) (msb : BitVec 32) (dst : List (BitVec 8)) :
    Option (List (BitVec 8)) := do
  let msb := msb ||| d.setWidth 32
  let lsb := msb <<< 8
  let dst ← store dst 6 (← enc al lsb 5)
  let dst ← store dst 5 (← enc al msb 2)
  encCase3 al a b c msb dst

/-- The part after the loop, `base32.c3:200-236`; `tail` are the last `trailing` bytes of `src`. -/
def encTail (al : Alphabet) (padding : BitVec 8) (tail dst : List (BitVec 8)) :
    Option (List (BitVec 8)) :=
  if tail.length = 0 then some dst
  else do
    let dst ← match tail with
      | [a, b, c, d] => encCase4 al a b c d 0 dst
      | [a, b, c] => encCase3 al a b c 0 dst
      | [a, b] => encCase2 al a b 0 dst
      | [a] => encCase1 al a 0 dst
      | _ => some dst
    if padding > 0 then padLoop padding dst (tail.length * 8 / 5 + 1) else some dst

/-- The loop over whole groups, `base32.c3:179-199`, followed by `k` on the rest of `dst`. -/
def encLoop (al : Alphabet) (k : List (BitVec 8) → Option (List (BitVec 8))) :
    List (BitVec 8) → List (BitVec 8) → Option (List (BitVec 8))
  | [], dst => k dst
  | a :: b :: c :: d :: e :: src, dst => do
    let msb : BitVec 32 := a.setWidth 32 <<< 24 ||| b.setWidth 32 <<< 16 ||| c.setWidth 32 <<< 8 |||
      d.setWidth 32
    let lsb : BitVec 32 := msb <<< 8 ||| e.setWidth 32
    let dst ← store dst 0 (← enc al msb 27)
    let dst ← store dst 1 (← enc al msb 22)
    let dst ← store dst 2 (← enc al msb 17)
    let dst ← store dst 3 (← enc al msb 12)
    let dst ← store dst 4 (← enc al msb 7)
    let dst ← store dst 5 (← enc al msb 2)
    let dst ← store dst 6 (← enc al lsb 5)
    let dst ← store dst 7 (← enc al lsb 0)
    let rest ← encLoop al k src (dst.drop 8)
    some (dst.take 8 ++ rest)
  | _, _ => none

/-- `encode_buffer`, `base32.c3:171-237`: the new cells of `dst` and the length of the result, which
is the slice `dst[:len]`. -/
def encode_buffer (src dst : List (BitVec 8)) (padding : BitVec 8) (al : Alphabet) :
    Option (List (BitVec 8) × Nat) :=
  if src.length = 0 then some (dst, 0)
  else
    let n := src.length / 5 * 5
    let dn := encode_len src.length padding
    (encLoop al (encTail al padding (src.drop n)) (src.take n) dst).map fun dst => (dst, dn)

/-- `encode`, `base32.c3:23-27`; the allocated array is uninitialised, hence an argument. -/
def encode (src fresh : List (BitVec 8)) (padding : BitVec 8) (al : Alphabet) :
    Option (List (BitVec 8)) :=
  if fresh.length ≠ encode_len src.length padding then none
  else (encode_buffer src fresh padding al).map fun r => r.1.take r.2

/-- The loop that loads up to 8 symbols, `base32.c3:98-111`: `k` is `8 - i`, `buf` the first `i`
cells of the buffer (the others are never used). -/
def load (al : Alphabet) (padding : BitVec 8) : Nat → List (BitVec 8) → List (BitVec 8) →
    Option (Except Fault (List (BitVec 8) × List (BitVec 8)))
  | 0, src, buf => some (.ok (buf, src))
  | _ + 1, [], buf => if padding > 0 then some (.error .INVALID_PADDING) else some (.ok (buf, []))
  | k + 1, c :: src, buf =>
    if c = padding then some (.ok (buf, c :: src))
    else do
      let r ← al.reverse[c.toNat]?
      if r = INVALID then some (.error .INVALID_CHARACTER)
      else load al padding k src (buf ++ [r])

/-- `case 2` of `switch (i)`, `base32.c3:147-151`; `n` counts the bytes. -/
def decCase2 (b0 b1 : BitVec 8) (n : Nat) (dst : List (BitVec 8)) : Option (List (BitVec 8) × Nat) := do
  let dst ← store dst 0 (b1 >>> 2 ||| b0 <<< 3)
  some (dst, n + 1)

/-- `case 4`, `base32.c3:139-146`. -/
def decCase4 (b0 b1 b2 b3 : BitVec 8) (n : Nat) (dst : List (BitVec 8)) :
    Option (List (BitVec 8) × Nat) := do
  let dst ← store dst 1 (b3 >>> 4 ||| b2 <<< 1 ||| b1 <<< 6)
  decCase2 b0 b1 (n + 1) dst

/-- `case 5`, `base32.c3:132-138`. -/
def decCase5 (b0 b1 b2 b3 b4 : BitVec 8) (n : Nat) (dst : List (BitVec 8)) :
    Option (List (BitVec 8) × Nat) := do
  let dst ← store dst 2 (b4 >>> 1 ||| b3 <<< 4)
  decCase4 b0 b1 b2 b3 (n + 1) dst

/-- `case 7`, `base32.c3:124-131`. -/
def decCase7 (b0 b1 b2 b3 b4 b5 b6 : BitVec 8) (n : Nat) (dst : List (BitVec 8)) :
    Option (List (BitVec 8) × Nat) := do
  let dst ← store dst 3 (b6 >>> 3 ||| b5 <<< 2 ||| b4 <<< 7)
  decCase5 b0 b1 b2 b3 b4 (n + 1) dst

/-- `case 8`, `base32.c3:117-123`. -/
def decCase8 (b0 b1 b2 b3 b4 b5 b6 b7 : BitVec 8) (n : Nat) (dst : List (BitVec 8)) :
    Option (List (BitVec 8) × Nat) := do
  let dst ← store dst 4 (b7 ||| b6 <<< 5)
  decCase7 b0 b1 b2 b3 b4 b5 b6 (n + 1) dst

/-- `switch (i)`, `base32.c3:114-154`, for the `i` symbols loaded. -/
def decGroup (buf dst : List (BitVec 8)) : Option (Except Fault (List (BitVec 8) × Nat)) :=
  match buf with
  | [b0, b1, b2, b3, b4, b5, b6, b7] => (decCase8 b0 b1 b2 b3 b4 b5 b6 b7 0 dst).map .ok
  | [b0, b1, b2, b3, b4, b5, b6] => (decCase7 b0 b1 b2 b3 b4 b5 b6 0 dst).map .ok
  | [b0, b1, b2, b3, b4] => (decCase5 b0 b1 b2 b3 b4 0 dst).map .ok
  | [b0, b1, b2, b3] => (decCase4 b0 b1 b2 b3 0 dst).map .ok
  | [b0, b1] => (decCase2 b0 b1 0 dst).map .ok
  | _ => some (.error .INVALID_CHARACTER)

/-- The outer loop of `decode_buffer`, `base32.c3:95-157`: the new cells of `dst` and the number of
bytes.  `fuel` bounds the number of iterations; running out of it is `none`, like the other
failures the theorems exclude. -/
def decLoop (al : Alphabet) (padding : BitVec 8) : Nat → List (BitVec 8) → List (BitVec 8) →
    Option (Except Fault (List (BitVec 8) × Nat))
  | 0, _, _ => none
  | fuel + 1, src, dst =>
    if src.length > 0 ∧ dst.length > 0 then do
      match ← load al padding 8 src [] with
      | .error f => some (.error f)
      | .ok (buf, src) =>
        match ← decGroup buf dst with
        | .error f => some (.error f)
        | .ok (dst, n) =>
          if dst.length < 5 then some (.ok (dst, n))
          else
            match ← decLoop al padding fuel src (dst.drop 5) with
            | .error f => some (.error f)
            | .ok (rest, m) => some (.ok (dst.take 5 ++ rest, n + m))
    else some (.ok (dst, 0))

/-- `decode_buffer`, `base32.c3:89-159`: a fault, or the new cells of `dst` and the length of the
result, which is the slice `dst[:len]`. -/
def decode_buffer (src dst : List (BitVec 8)) (padding : BitVec 8) (al : Alphabet) :
    Option (Except Fault (List (BitVec 8) × Nat)) :=
  if src.length = 0 then some (.ok (dst, 0))
  else decLoop al padding (dst.length + 1) src dst

/-- `decode`, `base32.c3:37-41`. -/
def decode (src fresh : List (BitVec 8)) (padding : BitVec 8) (al : Alphabet) :
    Option (Except Fault (List (BitVec 8))) :=
  if fresh.length ≠ decode_len src.length padding then none
  else (decode_buffer src fresh padding al).map fun r => r.map fun r => r.1.take r.2

end C3.Base32
