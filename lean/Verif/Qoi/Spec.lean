import Verif.Qoi.Model

/-! # The QOI image format, version 1.0

After the specification of qoiformat.org. Only the record `Px` of the four bytes of a pixel is shared
with the model. A stream is a header, chunks, and an end marker. -/

set_option autoImplicit false

namespace C3.Qoi.Std

/-- The chunks. The members of `diff` and `luma` are stored with a bias of 2, and of 32 and 8; a run
of `n + 1` pixels is stored as `n`. -/
inductive Chunk where
  | rgb (r g b : BitVec 8)
  | rgba (r g b a : BitVec 8)
  | index (i : Nat)
  | diff (r g b : Nat)
  | luma (g rg bg : Nat)
  | run (n : Nat)
  deriving DecidableEq, Repr

/-- The ranges of the members. -/
def Chunk.Valid : Chunk → Prop
  | .rgb _ _ _ => True
  | .rgba _ _ _ _ => True
  | .index i => i < 64
  | .diff r g b => r < 4 ∧ g < 4 ∧ b < 4
  | .luma g rg bg => g < 64 ∧ rg < 16 ∧ bg < 16
  | .run n => n < 62

/-- How a chunk is stored. -/
def Chunk.bytes : Chunk → List (BitVec 8)
  | .rgb r g b => [254, r, g, b]
  | .rgba r g b a => [255, r, g, b, a]
  | .index i => [BitVec.ofNat 8 i]
  | .diff r g b => [BitVec.ofNat 8 (64 + 16 * r + 4 * g + b)]
  | .luma g rg bg => [BitVec.ofNat 8 (128 + g), BitVec.ofNat 8 (16 * rg + bg)]
  | .run n => [BitVec.ofNat 8 (192 + n)]

/-- How many pixels it is. -/
def Chunk.count : Chunk → Nat
  | .run n => n + 1
  | _ => 1

/-- The position of a pixel in the array of pixels seen. -/
def slot (p : Px) : Nat := (p.r.toNat * 3 + p.g.toNat * 5 + p.b.toNat * 7 + p.a.toNat * 11) % 64

/-- The array of the pixels seen, all zero at the start, and the previous pixel. -/
structure State where
  seen : Nat → Px
  prev : Px

def State.start : State := ⟨fun _ => ⟨0, 0, 0, 0⟩, ⟨0, 0, 0, 255⟩⟩

/-- The pixel of a chunk. -/
def Chunk.pixel (s : State) : Chunk → Px
  | .rgb r g b => ⟨r, g, b, s.prev.a⟩
  | .rgba r g b a => ⟨r, g, b, a⟩
  | .index i => s.seen i
  | .diff r g b => ⟨s.prev.r + BitVec.ofNat 8 r - 2, s.prev.g + BitVec.ofNat 8 g - 2,
      s.prev.b + BitVec.ofNat 8 b - 2, s.prev.a⟩
  | .luma g rg bg =>
    let dg := BitVec.ofNat 8 g - 32
    ⟨s.prev.r + dg + (BitVec.ofNat 8 rg - 8), s.prev.g + dg, s.prev.b + dg + (BitVec.ofNat 8 bg - 8),
      s.prev.a⟩
  | .run _ => s.prev

/-- Every pixel seen is put in the array. -/
def State.next (s : State) (p : Px) : State := ⟨fun i => if i = slot p then p else s.seen i, p⟩

/-- The pixels of a sequence of chunks. -/
def pixels (s : State) : List Chunk → List Px
  | [] => []
  | c :: l => List.replicate c.count (c.pixel s) ++ pixels (s.next (c.pixel s)) l

/-- How many pixels the chunks are. -/
def total (cs : List Chunk) : Nat := (cs.map Chunk.count).sum

/-- Whenever a chunk of the sequence refers to the array, the slot holds a pixel of that slot: it has
been filled, or it is slot 0 and the pixel is the zero one. -/
def Regular (s : State) : List Chunk → Prop
  | [] => True
  | c :: l => (∀ i, c = .index i → slot (s.seen i) = i) ∧ Regular (s.next (c.pixel s)) l

/-- The bytes of a pixel in an image of 3 or 4 channels. -/
def pixelBytes (channels : Nat) (p : Px) : List (BitVec 8) :=
  if channels = 4 then [p.r, p.g, p.b, p.a] else [p.r, p.g, p.b]

/-- The bytes of a number, the highest first. -/
def be (n : Nat) : List (BitVec 8) :=
  [BitVec.ofNat 8 (n / 2 ^ 24), BitVec.ofNat 8 (n / 2 ^ 16), BitVec.ofNat 8 (n / 2 ^ 8), BitVec.ofNat 8 n]

/-- A stream: magic "qoif", width, height, channels, colorspace; the chunks; the end marker. -/
def stream (width height channels colorspace : Nat) (cs : List Chunk) : List (BitVec 8) :=
  [0x71, 0x6F, 0x69, 0x66] ++ be width ++ be height ++
    [BitVec.ofNat 8 channels, BitVec.ofNat 8 colorspace] ++ cs.flatMap Chunk.bytes ++
    [0, 0, 0, 0, 0, 0, 0, 1]

end C3.Qoi.Std
