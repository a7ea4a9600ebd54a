import Verif.Hash.Spec

/-! # MD5, `lib/std/hash/md5.c3`, on a little endian machine -/

set_option autoImplicit false

namespace C3.Hash.Md5

/-! ## The compression function -/

/-- A variable. -/
def at' (l : List Word) (i : Nat) : Word := l.getD i 0

/-- The load of line 111 at `ptr[n * 4]`. -/
def load (b : List Byte) (n : Nat) : Word :=
  b.getD (n * 4 + 3) 0 ++ b.getD (n * 4 + 2) 0 ++ b.getD (n * 4 + 1) 0 ++ b.getD (n * 4) 0

/-- A call `@step(@f, &a, b, c, d, ptr, n, t, s)`.  The variables `a` to `d` are 0 to 3; the macros
`@f`, `@g`, `@h`, `@h2`, `@i` are 0 to 4. -/
structure Call where
  (f a b c d n : Nat)
  t : Word
  s : Nat
  deriving DecidableEq, Repr

/-- The calls of lines 136–205. -/
def calls : List Call := [
  ⟨0, 0, 1, 2, 3, 0, 0xd76aa478, 7⟩, ⟨0, 3, 0, 1, 2, 1, 0xe8c7b756, 12⟩, ⟨0, 2, 3, 0, 1, 2, 0x242070db, 17⟩, ⟨0, 1, 2, 3, 0, 3, 0xc1bdceee, 22⟩,
  ⟨0, 0, 1, 2, 3, 4, 0xf57c0faf, 7⟩, ⟨0, 3, 0, 1, 2, 5, 0x4787c62a, 12⟩, ⟨0, 2, 3, 0, 1, 6, 0xa8304613, 17⟩, ⟨0, 1, 2, 3, 0, 7, 0xfd469501, 22⟩,
  ⟨0, 0, 1, 2, 3, 8, 0x698098d8, 7⟩, ⟨0, 3, 0, 1, 2, 9, 0x8b44f7af, 12⟩, ⟨0, 2, 3, 0, 1, 10, 0xffff5bb1, 17⟩, ⟨0, 1, 2, 3, 0, 11, 0x895cd7be, 22⟩,
  ⟨0, 0, 1, 2, 3, 12, 0x6b901122, 7⟩, ⟨0, 3, 0, 1, 2, 13, 0xfd987193, 12⟩, ⟨0, 2, 3, 0, 1, 14, 0xa679438e, 17⟩, ⟨0, 1, 2, 3, 0, 15, 0x49b40821, 22⟩,
  ⟨1, 0, 1, 2, 3, 1, 0xf61e2562, 5⟩, ⟨1, 3, 0, 1, 2, 6, 0xc040b340, 9⟩, ⟨1, 2, 3, 0, 1, 11, 0x265e5a51, 14⟩, ⟨1, 1, 2, 3, 0, 0, 0xe9b6c7aa, 20⟩,
  ⟨1, 0, 1, 2, 3, 5, 0xd62f105d, 5⟩, ⟨1, 3, 0, 1, 2, 10, 0x02441453, 9⟩, ⟨1, 2, 3, 0, 1, 15, 0xd8a1e681, 14⟩, ⟨1, 1, 2, 3, 0, 4, 0xe7d3fbc8, 20⟩,
  ⟨1, 0, 1, 2, 3, 9, 0x21e1cde6, 5⟩, ⟨1, 3, 0, 1, 2, 14, 0xc33707d6, 9⟩, ⟨1, 2, 3, 0, 1, 3, 0xf4d50d87, 14⟩, ⟨1, 1, 2, 3, 0, 8, 0x455a14ed, 20⟩,
  ⟨1, 0, 1, 2, 3, 13, 0xa9e3e905, 5⟩, ⟨1, 3, 0, 1, 2, 2, 0xfcefa3f8, 9⟩, ⟨1, 2, 3, 0, 1, 7, 0x676f02d9, 14⟩, ⟨1, 1, 2, 3, 0, 12, 0x8d2a4c8a, 20⟩,
  ⟨2, 0, 1, 2, 3, 5, 0xfffa3942, 4⟩, ⟨3, 3, 0, 1, 2, 8, 0x8771f681, 11⟩, ⟨2, 2, 3, 0, 1, 11, 0x6d9d6122, 16⟩, ⟨3, 1, 2, 3, 0, 14, 0xfde5380c, 23⟩,
  ⟨2, 0, 1, 2, 3, 1, 0xa4beea44, 4⟩, ⟨3, 3, 0, 1, 2, 4, 0x4bdecfa9, 11⟩, ⟨2, 2, 3, 0, 1, 7, 0xf6bb4b60, 16⟩, ⟨3, 1, 2, 3, 0, 10, 0xbebfbc70, 23⟩,
  ⟨2, 0, 1, 2, 3, 13, 0x289b7ec6, 4⟩, ⟨3, 3, 0, 1, 2, 0, 0xeaa127fa, 11⟩, ⟨2, 2, 3, 0, 1, 3, 0xd4ef3085, 16⟩, ⟨3, 1, 2, 3, 0, 6, 0x04881d05, 23⟩,
  ⟨2, 0, 1, 2, 3, 9, 0xd9d4d039, 4⟩, ⟨3, 3, 0, 1, 2, 12, 0xe6db99e5, 11⟩, ⟨2, 2, 3, 0, 1, 15, 0x1fa27cf8, 16⟩, ⟨3, 1, 2, 3, 0, 2, 0xc4ac5665, 23⟩,
  ⟨4, 0, 1, 2, 3, 0, 0xf4292244, 6⟩, ⟨4, 3, 0, 1, 2, 7, 0x432aff97, 10⟩, ⟨4, 2, 3, 0, 1, 14, 0xab9423a7, 15⟩, ⟨4, 1, 2, 3, 0, 5, 0xfc93a039, 21⟩,
  ⟨4, 0, 1, 2, 3, 12, 0x655b59c3, 6⟩, ⟨4, 3, 0, 1, 2, 3, 0x8f0ccc92, 10⟩, ⟨4, 2, 3, 0, 1, 10, 0xffeff47d, 15⟩, ⟨4, 1, 2, 3, 0, 1, 0x85845dd1, 21⟩,
  ⟨4, 0, 1, 2, 3, 8, 0x6fa87e4f, 6⟩, ⟨4, 3, 0, 1, 2, 15, 0xfe2ce6e0, 10⟩, ⟨4, 2, 3, 0, 1, 6, 0xa3014314, 15⟩, ⟨4, 1, 2, 3, 0, 13, 0x4e0811a1, 21⟩,
  ⟨4, 0, 1, 2, 3, 4, 0xf7537e82, 6⟩, ⟨4, 3, 0, 1, 2, 11, 0xbd3af235, 10⟩, ⟨4, 2, 3, 0, 1, 2, 0x2ad7d2bb, 15⟩, ⟨4, 1, 2, 3, 0, 9, 0xeb86d391, 21⟩]

/-- The macros of lines 103–107. -/
def func (f : Nat) (x y z : Word) : Word :=
  match f with
  | 0 => z ^^^ (x &&& (y ^^^ z))
  | 1 => y ^^^ (z &&& (x ^^^ y))
  | 2 => (x ^^^ y) ^^^ z
  | 3 => x ^^^ (y ^^^ z)
  | _ => y ^^^ (x ||| ~~~z)

/-- `@step`, lines 109–114. -/
def exec (blk : List Byte) (vars : List Word) (k : Call) : List Word :=
  let a := at' vars k.a + (func k.f (at' vars k.b) (at' vars k.c) (at' vars k.d) + load blk k.n + k.t)
  let a := (a <<< k.s) ||| ((a &&& 0xffffffff) >>> (32 - k.s))
  vars.set k.a (a + at' vars k.b)

/-- The variables `a` to `d`. -/
structure Vars where
  (a b c d : Word)
  deriving DecidableEq, Repr

/-- The body of the loop of `body`, lines 129–214. -/
def transform (s : Vars) (blk : List Byte) : Vars :=
  let r := calls.foldl (exec blk) [s.a, s.b, s.c, s.d]
  ⟨at' r 0 + s.a, at' r 1 + s.b, at' r 2 + s.c, at' r 3 + s.d⟩

/-- `Md5.init`, lines 28–37: the state. -/
def iv : Vars := ⟨0x67452301, 0xefcdab89, 0x98badcfe, 0x10325476⟩

/-- `bitcast(w, char[4])`. -/
def wordBytes (w : Word) : List Byte :=
  [w.truncate 8, (w >>> 8).truncate 8, (w >>> 16).truncate 8, (w >>> 24).truncate 8]

/-- Lines 91–95. -/
def digest (s : Vars) : List Byte := wordBytes s.a ++ wordBytes s.b ++ wordBytes s.c ++ wordBytes s.d

/-! ## The stream

The work on a block is a parameter. -/

/-- `Md5`, lines 8–14; `block` is not used. -/
structure Ctx (σ : Type) where
  state : σ
  lo : Nat
  hi : Nat
  buffer : List Byte

/-- `Md5.init`, lines 28–37.  The buffer stays as it is. -/
def init {σ : Type} (iv : σ) (buffer : List Byte) : Ctx σ := ⟨iv, 0, 0, buffer⟩

/-- `ctx.buffer[j : n] = data`; `none` if it does not fit. -/
def copyTo (b : List Byte) (j : Nat) (data : List Byte) : Option (List Byte) :=
  if j + data.length ≤ 64 then some (b.take j ++ data ++ b.drop (j + data.length)) else none

/-- `body`, lines 117–222: the state and what is behind `ptr`; `none` is a read behind the data. -/
def body {σ : Type} (f : σ → List Byte → σ) (s : σ) (data : List Byte) (size : Nat) :
    Option (σ × List Byte) :=
  if _h : 64 ≤ data.length then
    let s := f s (data.take 64)
    let size := (size + 2 ^ 64 - 64) % 2 ^ 64
    if size ≠ 0 then body f s (data.drop 64) size else some (s, data.drop 64)
  else none
termination_by data.length

/-- Lines 62–66. -/
def tail {σ : Type} (f : σ → List Byte → σ) (s : σ) (buffer data : List Byte) :
    Option (σ × List Byte) :=
  if data.length ≥ 64 then do
    let r ← body f s data (data.length - data.length % 64)
    let b ← copyTo buffer 0 (r.2.take (data.length % 64))
    some (r.1, b)
  else do
    let b ← copyTo buffer 0 data
    some (s, b)

/-- Lines 46–66: the state and the buffer after them. -/
def feed {σ : Type} (f : σ → List Byte → σ) (s : σ) (buffer : List Byte) (used : Nat)
    (data : List Byte) : Option (σ × List Byte) :=
  if used ≠ 0 then
    let available := 64 - used
    if data.length < available then do
      let b ← copyTo buffer used data
      some (s, b)
    else do
      let b ← copyTo buffer used (data.take available)
      let r ← body f s b 64
      tail f r.1 b (data.drop available)
  else tail f s buffer data

/-- `Md5.update`, lines 40–67. -/
def update {σ : Type} (f : σ → List Byte → σ) (c : Ctx σ) (data : List Byte) : Option (Ctx σ) := do
  let lo := (c.lo + data.length) % 2 ^ 64 % 2 ^ 29
  let hi := if lo < c.lo then (c.hi + 1) % 2 ^ 32 else c.hi
  let hi := (hi + data.length / 2 ^ 29) % 2 ^ 32
  let r ← feed f c.state c.buffer (c.lo % 64) data
  some ⟨r.1, lo, hi, r.2⟩

/-- Lines 76–82: the state, the buffer, `used` and `available`. -/
def spill {σ : Type} (f : σ → List Byte → σ) (s : σ) (b : List Byte) (used available : Nat) :
    Option (σ × List Byte × Nat × Nat) :=
  if available < 8 then do
    let b ← copyTo b used (List.replicate available 0)
    let r ← body f s b 64
    some (r.1, b, 0, 64)
  else some (s, b, used, available)

/-- `Md5.final`, lines 69–98: the state from which the digest is made. -/
def final {σ : Type} (f : σ → List Byte → σ) (c : Ctx σ) : Option σ := do
  let used := c.lo % 64
  let b ← copyTo c.buffer used [0x80]
  let r ← spill f c.state b (used + 1) (64 - (used + 1))
  let b ← copyTo r.2.1 r.2.2.1 (List.replicate (r.2.2.2 - 8) 0)
  let b ← copyTo b 56 (wordBytes (BitVec.ofNat 32 c.lo <<< 3))
  let b ← copyTo b 60 (wordBytes (BitVec.ofNat 32 c.hi))
  let r ← body f r.1 b 64
  some r.1

/-- Some `update`s. -/
def updates {σ : Type} (f : σ → List Byte → σ) : Ctx σ → List (List Byte) → Option (Ctx σ)
  | c, [] => some c
  | c, d :: ds => do
    let c ← update f c d
    updates f c ds

/-- The hash of data given in pieces; the buffer held anything before. -/
def hashPieces {σ : Type} (f : σ → List Byte → σ) (iv : σ) (buffer : List Byte)
    (ds : List (List Byte)) : Option σ := do
  let c ← updates f (init iv buffer) ds
  final f c

/-- `hash`, lines 20–26. -/
def hash (data : List Byte) : Option (List Byte) :=
  (hashPieces transform iv (List.replicate 64 0) [data]).map digest

end C3.Hash.Md5
