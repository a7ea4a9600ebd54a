import Verif.Hash.Spec

/-! # SHA-1, `lib/std/hash/sha1.c3`, on a little endian machine -/

set_option autoImplicit false

namespace C3.Hash.Sha1

/-! ## The compression function -/

/-- An array access; the theorems show that every index is in range. -/
def at' (l : List Word) (i : Nat) : Word := l.getD i 0

/-- `block.l[i]` after the copy of line 164: four bytes, the lowest first. -/
def load (b : List Byte) (i : Nat) : Word :=
  b.getD (4 * i + 3) 0 ++ b.getD (4 * i + 2) 0 ++ b.getD (4 * i + 1) 0 ++ b.getD (4 * i) 0

/-- `blk`, lines 106–110: the word and the block. -/
def blk (l : List Word) (i : Nat) : Word × List Word :=
  let w := (at' l ((i + 13) % 16) ^^^ at' l ((i + 8) % 16) ^^^ at' l ((i + 2) % 16) ^^^
    at' l (i % 16)).rotateLeft 1
  (w, l.set (i % 16) w)

/-- `blk0`, lines 112–120. -/
def blk0 (l : List Word) (i : Nat) : Word × List Word :=
  let w := ((at' l i).rotateLeft 24 &&& 0xFF00FF00) ||| ((at' l i).rotateLeft 8 &&& 0x00FF00FF)
  (w, l.set i w)

/-- A call `r0(&block, v, &w, x, y, &z, i)` of `sha1_transform`; the variables `a` to `e` are 0 to 4. -/
structure Call where
  (r v w x y z i : Nat)
  deriving DecidableEq, Repr

/-- The calls of lines 170–249. -/
def calls : List Call := [
  ⟨0, 0, 1, 2, 3, 4, 0⟩, ⟨0, 4, 0, 1, 2, 3, 1⟩, ⟨0, 3, 4, 0, 1, 2, 2⟩, ⟨0, 2, 3, 4, 0, 1, 3⟩,
  ⟨0, 1, 2, 3, 4, 0, 4⟩, ⟨0, 0, 1, 2, 3, 4, 5⟩, ⟨0, 4, 0, 1, 2, 3, 6⟩, ⟨0, 3, 4, 0, 1, 2, 7⟩,
  ⟨0, 2, 3, 4, 0, 1, 8⟩, ⟨0, 1, 2, 3, 4, 0, 9⟩, ⟨0, 0, 1, 2, 3, 4, 10⟩, ⟨0, 4, 0, 1, 2, 3, 11⟩,
  ⟨0, 3, 4, 0, 1, 2, 12⟩, ⟨0, 2, 3, 4, 0, 1, 13⟩, ⟨0, 1, 2, 3, 4, 0, 14⟩, ⟨0, 0, 1, 2, 3, 4, 15⟩,
  ⟨1, 4, 0, 1, 2, 3, 16⟩, ⟨1, 3, 4, 0, 1, 2, 17⟩, ⟨1, 2, 3, 4, 0, 1, 18⟩, ⟨1, 1, 2, 3, 4, 0, 19⟩,
  ⟨2, 0, 1, 2, 3, 4, 20⟩, ⟨2, 4, 0, 1, 2, 3, 21⟩, ⟨2, 3, 4, 0, 1, 2, 22⟩, ⟨2, 2, 3, 4, 0, 1, 23⟩,
  ⟨2, 1, 2, 3, 4, 0, 24⟩, ⟨2, 0, 1, 2, 3, 4, 25⟩, ⟨2, 4, 0, 1, 2, 3, 26⟩, ⟨2, 3, 4, 0, 1, 2, 27⟩,
  ⟨2, 2, 3, 4, 0, 1, 28⟩, ⟨2, 1, 2, 3, 4, 0, 29⟩, ⟨2, 0, 1, 2, 3, 4, 30⟩, ⟨2, 4, 0, 1, 2, 3, 31⟩,
  ⟨2, 3, 4, 0, 1, 2, 32⟩, ⟨2, 2, 3, 4, 0, 1, 33⟩, ⟨2, 1, 2, 3, 4, 0, 34⟩, ⟨2, 0, 1, 2, 3, 4, 35⟩,
  ⟨2, 4, 0, 1, 2, 3, 36⟩, ⟨2, 3, 4, 0, 1, 2, 37⟩, ⟨2, 2, 3, 4, 0, 1, 38⟩, ⟨2, 1, 2, 3, 4, 0, 39⟩,
  ⟨3, 0, 1, 2, 3, 4, 40⟩, ⟨3, 4, 0, 1, 2, 3, 41⟩, ⟨3, 3, 4, 0, 1, 2, 42⟩, ⟨3, 2, 3, 4, 0, 1, 43⟩,
  ⟨3, 1, 2, 3, 4, 0, 44⟩, ⟨3, 0, 1, 2, 3, 4, 45⟩, ⟨3, 4, 0, 1, 2, 3, 46⟩, ⟨3, 3, 4, 0, 1, 2, 47⟩,
  ⟨3, 2, 3, 4, 0, 1, 48⟩, ⟨3, 1, 2, 3, 4, 0, 49⟩, ⟨3, 0, 1, 2, 3, 4, 50⟩, ⟨3, 4, 0, 1, 2, 3, 51⟩,
  ⟨3, 3, 4, 0, 1, 2, 52⟩, ⟨3, 2, 3, 4, 0, 1, 53⟩, ⟨3, 1, 2, 3, 4, 0, 54⟩, ⟨3, 0, 1, 2, 3, 4, 55⟩,
  ⟨3, 4, 0, 1, 2, 3, 56⟩, ⟨3, 3, 4, 0, 1, 2, 57⟩, ⟨3, 2, 3, 4, 0, 1, 58⟩, ⟨3, 1, 2, 3, 4, 0, 59⟩,
  ⟨4, 0, 1, 2, 3, 4, 60⟩, ⟨4, 4, 0, 1, 2, 3, 61⟩, ⟨4, 3, 4, 0, 1, 2, 62⟩, ⟨4, 2, 3, 4, 0, 1, 63⟩,
  ⟨4, 1, 2, 3, 4, 0, 64⟩, ⟨4, 0, 1, 2, 3, 4, 65⟩, ⟨4, 4, 0, 1, 2, 3, 66⟩, ⟨4, 3, 4, 0, 1, 2, 67⟩,
  ⟨4, 2, 3, 4, 0, 1, 68⟩, ⟨4, 1, 2, 3, 4, 0, 69⟩, ⟨4, 0, 1, 2, 3, 4, 70⟩, ⟨4, 4, 0, 1, 2, 3, 71⟩,
  ⟨4, 3, 4, 0, 1, 2, 72⟩, ⟨4, 2, 3, 4, 0, 1, 73⟩, ⟨4, 1, 2, 3, 4, 0, 74⟩, ⟨4, 0, 1, 2, 3, 4, 75⟩,
  ⟨4, 4, 0, 1, 2, 3, 76⟩, ⟨4, 3, 4, 0, 1, 2, 77⟩, ⟨4, 2, 3, 4, 0, 1, 78⟩, ⟨4, 1, 2, 3, 4, 0, 79⟩]

/-- The function of `r0` to `r4`, lines 122–155. -/
def func (r : Nat) (w x y : Word) : Word :=
  match r with
  | 0 => (w &&& (x ^^^ y)) ^^^ y
  | 1 => (w &&& (x ^^^ y)) ^^^ y
  | 2 => w ^^^ x ^^^ y
  | 3 => ((w ||| x) &&& y) ||| (w &&& x)
  | _ => w ^^^ x ^^^ y

/-- The constant of `r0` to `r4`. -/
def konst (r : Nat) : Word :=
  match r with
  | 0 => 0x5A827999
  | 1 => 0x5A827999
  | 2 => 0x6ED9EBA1
  | 3 => 0x8F1BBCDC
  | _ => 0xCA62C1D6

/-- `r0` to `r4`, lines 122–155: the variables and the block after it. -/
def exec (s : List Word × List Word) (c : Call) : List Word × List Word :=
  let vars := s.1
  let w := at' vars c.w
  let b := if c.r = 0 then blk0 s.2 c.i else blk s.2 c.i
  let z := at' vars c.z + (func c.r w (at' vars c.x) (at' vars c.y) + b.1 + konst c.r +
    (at' vars c.v).rotateLeft 5)
  ((vars.set c.z z).set c.w (w.rotateLeft 30), b.2)

/-- The state: five words. -/
structure Vars where
  (a b c d e : Word)
  deriving DecidableEq, Repr

/-- `sha1_transform`, lines 161–257. -/
def transform (s : Vars) (buffer : List Byte) : Vars :=
  let r := calls.foldl exec ([s.a, s.b, s.c, s.d, s.e], (List.range 16).map (load buffer))
  ⟨s.a + at' r.1 0, s.b + at' r.1 1, s.c + at' r.1 2, s.d + at' r.1 3, s.e + at' r.1 4⟩

/-- `Sha1.init`, lines 33–45: the state. -/
def iv : Vars := ⟨0x67452301, 0xEFCDAB89, 0x98BADCFE, 0x10325476, 0xC3D2E1F0⟩

/-- The word `i` of the state. -/
def Vars.get (s : Vars) : Nat → Word
  | 0 => s.a
  | 1 => s.b
  | 2 => s.c
  | 3 => s.d
  | _ => s.e

/-- The loop of lines 89–92. -/
def digest (s : Vars) : List Byte :=
  (List.range 20).map fun i => (s.get (i / 4) >>> ((3 - i % 4) * 8)).truncate 8

/-! ## The stream

The compression function is a parameter. -/

/-- `Sha1`, lines 14–19. -/
structure Ctx (σ : Type) where
  state : σ
  count0 : Nat
  count1 : Nat
  buffer : List Byte

/-- `Sha1.init`. -/
def init {σ : Type} (iv : σ) : Ctx σ := ⟨iv, 0, 0, List.replicate 64 0⟩

/-- `self.buffer[j : n] = data`; `none` if it does not fit. -/
def copyTo (b : List Byte) (j : Nat) (data : List Byte) : Option (List Byte) :=
  if j + data.length ≤ 64 then some (b.take j ++ data ++ b.drop (j + data.length)) else none

/-- The loop of lines 64–67, with the addition of line 64 in 32 bits; `none` is a read behind the
data. -/
def blocks {σ : Type} (f : σ → List Byte → σ) (data : List Byte) (s : σ) (i : Nat) : Option (σ × Nat) :=
  if (i + 63) % 2 ^ 32 < data.length then
    if _h : i + 64 ≤ data.length then blocks f data (f s ((data.drop i).take 64)) (i + 64)
    else none
  else some (s, i)
termination_by data.length - i

/-- Lines 59–69: the state, the buffer, `i` and `j` after them. -/
def whole {σ : Type} (f : σ → List Byte → σ) (c : Ctx σ) (data : List Byte) (j : Nat) :
    Option (σ × List Byte × Nat × Nat) :=
  if (j + data.length) % 2 ^ 32 > 63 then do
    let b ← copyTo c.buffer j (data.take (64 - j))
    let r ← blocks f data (f c.state b) (64 - j)
    some (r.1, b, r.2, 0)
  else some (c.state, c.buffer, 0, j)

/-- Line 55: the counts after `len` bytes, but for what line 56 adds. -/
def carry (count0 count1 len : Nat) : Nat × Nat :=
  let n := (count0 + len * 8 % 2 ^ 32) % 2 ^ 32
  (n, if n < count0 then (count1 + 1) % 2 ^ 32 else count1)

/-- `Sha1.update`, lines 51–71.  Longer data break the contract of line 49. -/
def update {σ : Type} (f : σ → List Byte → σ) (c : Ctx σ) (data : List Byte) : Option (Ctx σ) :=
  if data.length > 0xFFFFFFFF then none
  else do
    let n := carry c.count0 c.count1 data.length
    let count1 := (n.2 + data.length / 2 ^ 29) % 2 ^ 32
    let r ← whole f c data (c.count0 / 8 % 64)
    let b ← copyTo r.2.1 r.2.2.2 (data.drop r.2.2.1)
    some ⟨r.1, n.1, count1, b⟩

/-- The loop of lines 82–85. -/
def padLoop {σ : Type} (f : σ → List Byte → σ) (c : Ctx σ) : Option (Ctx σ) :=
  if c.count0 &&& 504 ≠ 448 then do
    let c ← update f c [0]
    padLoop f c
  else some c
partial_fixpoint

/-- The loop of lines 77–80. -/
def finalCount {σ : Type} (c : Ctx σ) : List Byte :=
  (List.range 8).map fun i =>
    BitVec.ofNat 8 ((if i ≥ 4 then c.count0 else c.count1) / 2 ^ ((3 - i % 4) * 8))

/-- `Sha1.final`, lines 74–98: the state from which the digest is made. -/
def final {σ : Type} (f : σ → List Byte → σ) (c : Ctx σ) : Option σ := do
  let n := finalCount c
  let c ← update f c [0x80]
  let c ← padLoop f c
  let c ← update f c n
  some c.state

/-- Some `update`s. -/
def updates {σ : Type} (f : σ → List Byte → σ) : Ctx σ → List (List Byte) → Option (Ctx σ)
  | c, [] => some c
  | c, d :: ds => do
    let c ← update f c d
    updates f c ds

/-- The hash of data given in pieces. -/
def hashPieces {σ : Type} (f : σ → List Byte → σ) (iv : σ) (ds : List (List Byte)) : Option σ := do
  let c ← updates f (init iv) ds
  final f c

/-- `hash`, lines 25–31. -/
def hash (data : List Byte) : Option (List Byte) := (hashPieces transform iv [data]).map digest

end C3.Hash.Sha1
