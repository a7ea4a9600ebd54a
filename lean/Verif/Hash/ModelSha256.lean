import Verif.Hash.Spec

/-! # SHA-256, `lib/std/hash/sha256.c3` -/

set_option autoImplicit false

namespace C3.Hash.Sha256

/-! ## The compression function -/

/-- `K`, lines 8–17. -/
def K : List Word := [
  0x428a2f98, 0x71374491, 0xb5c0fbcf, 0xe9b5dba5, 0x3956c25b, 0x59f111f1, 0x923f82a4, 0xab1c5ed5,
  0xd807aa98, 0x12835b01, 0x243185be, 0x550c7dc3, 0x72be5d74, 0x80deb1fe, 0x9bdc06a7, 0xc19bf174,
  0xe49b69c1, 0xefbe4786, 0x0fc19dc6, 0x240ca1cc, 0x2de92c6f, 0x4a7484aa, 0x5cb0a9dc, 0x76f988da,
  0x983e5152, 0xa831c66d, 0xb00327c8, 0xbf597fc7, 0xc6e00bf3, 0xd5a79147, 0x06ca6351, 0x14292967,
  0x27b70a85, 0x2e1b2138, 0x4d2c6dfc, 0x53380d13, 0x650a7354, 0x766a0abb, 0x81c2c92e, 0x92722c85,
  0xa2bfe8a1, 0xa81a664b, 0xc24b8b70, 0xc76c51a3, 0xd192e819, 0xd6990624, 0xf40e3585, 0x106aa070,
  0x19a4c116, 0x1e376c08, 0x2748774c, 0x34b0bcb5, 0x391c0cb3, 0x4ed8aa4a, 0x5b9cca4f, 0x682e6ff3,
  0x748f82ee, 0x78a5636f, 0x84c87814, 0x8cc70208, 0x90befffa, 0xa4506ceb, 0xbef9a3f7, 0xc67178f2]

/-- `@rotr`, line 20. -/
def rotr (x : Word) (n : Nat) : Word := (x >>> n) ||| (x <<< (32 - n))
/-- `@ch`, line 23. -/
def ch (x y z : Word) : Word := (x &&& y) ^^^ (~~~x &&& z)
/-- `@maj`, line 24. -/
def maj (x y z : Word) : Word := (x &&& y) ^^^ (x &&& z) ^^^ (y &&& z)
/-- `@_sigma0`, line 25. -/
def bigSigma0 (x : Word) : Word := rotr x 2 ^^^ rotr x 13 ^^^ rotr x 22
/-- `@_sigma1`, line 26. -/
def bigSigma1 (x : Word) : Word := rotr x 6 ^^^ rotr x 11 ^^^ rotr x 25
/-- `@sigma0`, line 27. -/
def sigma0 (x : Word) : Word := rotr x 7 ^^^ rotr x 18 ^^^ (x >>> 3)
/-- `@sigma1`, line 28. -/
def sigma1 (x : Word) : Word := rotr x 17 ^^^ rotr x 19 ^^^ (x >>> 10)

/-- An array access; the theorems show that every index is in range. -/
def at' (l : List Word) (i : Nat) : Word := l.getD i 0

/-- A byte of the buffer as a `uint`. -/
def byteAt (b : List Byte) (i : Nat) : Word := (b.getD i 0).zeroExtend 32

/-- The first loop, lines 133–136: the elements of `m` so far are `m`. -/
def load (buffer : List Byte) : Nat → List Word
  | 0 => []
  | i + 1 => load buffer i ++ [(byteAt buffer (i * 4) <<< 24) ||| (byteAt buffer (i * 4 + 1) <<< 16) |||
      (byteAt buffer (i * 4 + 2) <<< 8) ||| byteAt buffer (i * 4 + 3)]

/-- The second loop, lines 137–139: `m` up to index `16 + k`. -/
def expand (m : List Word) : Nat → List Word
  | 0 => m
  | k + 1 =>
    let m := expand m k
    let i := 16 + k
    m ++ [sigma1 (at' m (i - 2)) + at' m (i - 7) + sigma0 (at' m (i - 15)) + at' m (i - 16)]

/-- The eight words of the state. -/
structure Vars where
  (a b c d e f g h : Word)
  deriving DecidableEq, Repr

/-- A pass of the loop of lines 152–163. -/
def step (m : List Word) (v : Vars) (i : Nat) : Vars :=
  let t1 := v.h + bigSigma1 v.e + ch v.e v.f v.g + at' K i + at' m i
  let t2 := bigSigma0 v.a + maj v.a v.b v.c
  let h := v.g
  let g := v.f
  let f := v.e
  let e := v.d + t1
  let d := v.c
  let c := v.b
  let b := v.a
  let a := t1 + t2
  ⟨a, b, c, d, e, f, g, h⟩

/-- The loop of lines 152–163. -/
def rounds (m : List Word) (v : Vars) : Nat → Vars
  | 0 => v
  | i + 1 => step m (rounds m v i) i

/-- `sha256_transform`, lines 127–176, without the clearing of the buffer. -/
def transform (s : Vars) (buffer : List Byte) : Vars :=
  let m := expand (load buffer 16) 48
  let v := rounds m s 64
  ⟨s.a + v.a, s.b + v.b, s.c + v.c, s.d + v.d, s.e + v.e, s.f + v.f, s.g + v.g, s.h + v.h⟩

/-- `Sha256.init`, lines 49–64: the state. -/
def iv : Vars :=
  ⟨0x6A09E667, 0xBB67AE85, 0x3C6EF372, 0xA54FF53A, 0x510E527F, 0x9B05688C, 0x1F83D9AB, 0x5BE0CD19⟩

/-- The four bytes of a word, lines 114–117. -/
def wordBytes (w : Word) : List Byte :=
  [(w >>> 24).truncate 8, (w >>> 16).truncate 8, (w >>> 8).truncate 8, w.truncate 8]

/-- The loop of lines 113–118. -/
def digest (s : Vars) : List Byte :=
  wordBytes s.a ++ wordBytes s.b ++ wordBytes s.c ++ wordBytes s.d ++
  wordBytes s.e ++ wordBytes s.f ++ wordBytes s.g ++ wordBytes s.h

/-! ## The stream

The compression function is a parameter: it takes the state and the buffer, and the
buffer is zero behind it (line 175). -/

/-- `Sha256`, lines 30–35. -/
structure Ctx (σ : Type) where
  state : σ
  bitcount : Nat
  buffer : List Byte

/-- `Sha256.init`. -/
def init {σ : Type} (iv : σ) : Ctx σ := ⟨iv, 0, List.replicate 64 0⟩

/-- `self.buffer[i] = c`; `none` is an index out of bounds. -/
def put (b : List Byte) (i : Nat) (c : Byte) : Option (List Byte) :=
  if i < 64 then some (b.set i c) else none

/-- The loop of `Sha256.update`, lines 76–82. -/
def feed {σ : Type} (f : σ → List Byte → σ) : σ → List Byte → Nat → List Byte → Option (σ × List Byte)
  | s, b, _, [] => some (s, b)
  | s, b, pos, c :: data => do
    let b ← put b pos c
    if pos + 1 == 64 then feed f (f s b) (List.replicate 64 0) 0 data
    else feed f s b (pos + 1) data

/-- `Sha256.update`, lines 70–83.  Longer data break the contract of line 68. -/
def update {σ : Type} (f : σ → List Byte → σ) (c : Ctx σ) (data : List Byte) : Option (Ctx σ) :=
  if data.length > 0xFFFFFFFF then none
  else do
    let pos := (c.bitcount / 8) % 2 ^ 32 % 64
    let r ← feed f c.state c.buffer pos data
    some ⟨r.1, (c.bitcount + data.length * 8 % 2 ^ 32) % 2 ^ 64, r.2⟩

/-- The loops of lines 94–96 and 101–103. -/
def zeros (b : List Byte) (i n : Nat) : Option (List Byte) :=
  if i < n then do
    let b ← put b i 0
    zeros b (i + 1) n
  else some b
termination_by n - i

/-- The loop of lines 106–108, from `j` on. -/
def putCount (bitcount : Nat) (b : List Byte) (j : Nat) : Option (List Byte) :=
  if j < 8 then do
    let b ← put b (64 - 8 + j) (BitVec.ofNat 8 (bitcount / 2 ^ (56 - j * 8)))
    putCount bitcount b (j + 1)
  else some b
termination_by 8 - j

/-- Lines 93–99: a block more if the count has no room. -/
def spill {σ : Type} (f : σ → List Byte → σ) (s : σ) (b : List Byte) (i : Nat) :
    Option (σ × List Byte × Nat) :=
  if i > 64 - 8 then do
    let b ← zeros b i 64
    some (f s b, List.replicate 64 0, 0)
  else some (s, b, i)

/-- `Sha256.final`, lines 85–121: the state from which the digest is made. -/
def final {σ : Type} (f : σ → List Byte → σ) (c : Ctx σ) : Option σ := do
  let i := c.bitcount / 8 % 64
  let b ← put c.buffer i 0x80
  let r ← spill f c.state b (i + 1)
  let b ← zeros r.2.1 r.2.2 (64 - 8)
  let b ← putCount c.bitcount b 0
  some (f r.1 b)

/-- `init`, some `update`s, and `final`. -/
def updates {σ : Type} (f : σ → List Byte → σ) : Ctx σ → List (List Byte) → Option (Ctx σ)
  | c, [] => some c
  | c, d :: ds => do
    let c ← update f c d
    updates f c ds

/-- The hash of data given in pieces. -/
def hashPieces {σ : Type} (f : σ → List Byte → σ) (iv : σ) (ds : List (List Byte)) : Option σ := do
  let c ← updates f (init iv) ds
  final f c

/-- `hash`, lines 41–47. -/
def hash (data : List Byte) : Option (List Byte) := (hashPieces transform iv [data]).map digest

end C3.Hash.Sha256
