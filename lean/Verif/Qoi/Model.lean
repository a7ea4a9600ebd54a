/-! # `lib/std/compression/qoi.c3` on a little endian machine

Memory is not modelled: `output` is the list of the bytes written, `data` the list of the bytes
behind `pos`. An index or a slice out of bounds, which panics in a safe build, is `Stop.panic`. -/

set_option autoImplicit false

namespace C3.Qoi

abbrev Byte := BitVec 8

/-- How a call ends without a result: the faults of line 44 and a panic. -/
inductive Stop where
  | invalidParameters
  | invalidData
  | tooManyPixels
  | panic
  deriving DecidableEq, Repr

/-- `PIXELS_MAX`, line 3. -/
def pixelsMax : Nat := 400000000

/-- `QOIChannels`, lines 22–27. -/
inductive Channels where
  | auto
  | rgb
  | rgba
  deriving DecidableEq, Repr

/-- Its `id`. -/
def Channels.id : Channels → Nat
  | .auto => 0
  | .rgb => 3
  | .rgba => 4

/-- `QOIColorspace`, lines 10–14. -/
inductive Colorspace where
  | srgb
  | linear
  deriving DecidableEq, Repr

def Colorspace.id : Colorspace → Nat
  | .srgb => 0
  | .linear => 1

/-- `QOIDesc`, lines 33–39. -/
structure Desc where
  width : BitVec 32
  height : BitVec 32
  channels : Channels
  colorspace : Colorspace
  deriving DecidableEq, Repr

/-- `Pixel`, line 419. -/
structure Px where
  r : Byte
  g : Byte
  b : Byte
  a : Byte
  deriving DecidableEq, Repr

/-- `Pixel.hash`, lines 420–423. The sum is an `int`. -/
def Px.hash (p : Px) : Nat := (p.r.toNat * 3 + p.g.toNat * 5 + p.b.toNat * 7 + p.a.toNat * 11) % 64

/-- The pixel both loops start from, lines 159, 160 and 312. -/
def Px.start : Px := ⟨0, 0, 0, 255⟩

/-- `palette`, an array of 64 pixels, all zero at the start. The indices are below 64 (`hash`, or
six bits). -/
abbrev Palette := Nat → Px

def Palette.start : Palette := fun _ => ⟨0, 0, 0, 0⟩

/-- `palette[p.hash()] = p`. -/
def Palette.put (q : Palette) (p : Px) : Palette := fun i => if i = p.hash then p else q i

/-! ## Chunks, lines 425–463: the bytes a bit struct is stored as -/

def opIndex (index : Byte) : List Byte := [index &&& 0x3F]

def opDiff (r g b : Byte) : List Byte :=
  [(1 <<< 6) ||| ((r &&& 3) <<< 4) ||| ((g &&& 3) <<< 2) ||| (b &&& 3)]

/-- A `ushort`: the low byte is the first. -/
def opLuma (g rg bg : Byte) : List Byte :=
  [(2 <<< 6) ||| (g &&& 0x3F), ((rg &&& 0xF) <<< 4) ||| (bg &&& 0xF)]

def opRun (run : Byte) : List Byte := [(3 <<< 6) ||| (run &&& 0x3F)]

def opRGB (p : Px) : List Byte := [0xFE, p.r, p.g, p.b]

def opRGBA (p : Px) : List Byte := [0xFF, p.r, p.g, p.b, p.a]

/-! ## `encode` -/

/-- The state of the loop of `encode`. -/
structure Enc where
  out : List Byte
  pal : Palette
  p : Px
  run : Byte

/-- `*@extract(...) = ...` into `output`, which has `max` bytes. -/
def emit (max : Nat) (s : Enc) (bytes : List Byte) : Except Stop Enc :=
  if s.out.length + bytes.length ≤ max then .ok { s with out := s.out ++ bytes } else .error .panic

/-- `diff.r > -3 && diff.r < 2`. -/
def small (d : Byte) : Bool := d.toInt > -3 && d.toInt < 2

/-- `luma.r >= -8 && luma.r <= 7`. -/
def near (d : Byte) : Bool := d.toInt ≥ -8 && d.toInt ≤ 7

/-- `luma.g >= -32 && luma.g <= 31`. -/
def nearGreen (d : Byte) : Bool := d.toInt ≥ -32 && d.toInt ≤ 31

/-- The cases from line 203 on: a pixel that is not in the palette. `(char)diff.r + 2` is cut to
the bits of its member. -/
def newPixel (prev p : Px) : List Byte :=
  if prev.a = p.a then
    let dr := p.r - prev.r
    let dg := p.g - prev.g
    let db := p.b - prev.b
    if small dr && small dg && small db then opDiff (dr + 2) (dg + 2) (db + 2)
    else if near (dr - dg) && nearGreen dg && near (db - dg) then
      opLuma (dg + 32) (dr - dg + 8) (db - dg + 8)
    else opRGB p
  else opRGBA p

/-- Lines 187–191. -/
def endRun (max : Nat) (s : Enc) : Except Stop Enc :=
  if s.run.toNat > 0 then (emit max s (opRun (s.run - 1))).map fun s => { s with run := 0 }
  else .ok s

/-- The body of the loop from line 176 on; `p` is the current pixel, `last` is `loc == loc_end`. -/
def encPixel (max : Nat) (last : Bool) (s : Enc) (p : Px) : Except Stop Enc :=
  if s.p = p then
    let s := { s with p := p, run := s.run + 1 }
    if s.run = 62 ∨ last = true then
      (emit max s (opRun (s.run - 1))).map fun s => { s with run := 0 }
    else .ok s
  else do
    let prev := s.p
    let s ← endRun max s
    let s := { s with p := p }
    if s.pal p.hash = p then emit max s (opIndex (BitVec.ofNat 8 p.hash))
    else do
      let s ← emit max s (newPixel prev p)
      .ok { s with pal := s.pal.put p }

/-- The loop of `encode`, lines 166–248, over the bytes of `input` from `loc` on. -/
def encLoop (max : Nat) (ch : Channels) (s : Enc) : List Byte → Except Stop Enc
  | [] => .ok s
  | r :: g :: b :: l =>
    match ch, l with
    | .rgba, a :: l => do
      let s ← encPixel max l.isEmpty s ⟨r, g, b, a⟩
      encLoop max ch s l
    | .rgba, [] => .error .panic
    | _, l => do
      let s ← encPixel max l.isEmpty s ⟨r, g, b, s.p.a⟩
      encLoop max ch s l
  | _ => .error .panic

/-- `bswap(x)` stored: the bytes of a word, the highest first. -/
def be32 (x : BitVec 32) : List Byte :=
  [(x >>> 24).truncate 8, (x >>> 16).truncate 8, (x >>> 8).truncate 8, x.truncate 8]

/-- The header, lines 145–151; `'qoif'` is `0x716F6966`. -/
def header (d : Desc) : List Byte :=
  be32 0x716F6966 ++ be32 d.width ++ be32 d.height ++
    [BitVec.ofNat 8 d.channels.id, BitVec.ofNat 8 d.colorspace.id]

/-- `END_OF_STREAM`, line 403. -/
def endOfStream : List Byte := [0, 0, 0, 0, 0, 0, 0, 1]

/-- `encode`, lines 126–255. -/
def encode (input : List Byte) (d : Desc) : Except Stop (List Byte) :=
  if d.width = 0 ∨ d.height = 0 then .error .invalidParameters
  else if d.channels = .auto then .error .invalidParameters
  else
    let pixels := d.width * d.height
    if pixels.toNat > pixelsMax then .error .tooManyPixels
    else
      let imageSize := pixels * BitVec.ofNat 32 d.channels.id
      if imageSize.toNat ≠ input.length then .error .invalidData
      else do
        let max := (14 + pixels + imageSize + 8).toNat
        let s ← encLoop max d.channels ⟨header d, Palette.start, Px.start, 0⟩ input
        let s ← emit max s endOfStream
        .ok s.out

/-! ## `decode` -/

/-- The state of the loop of `decode`: `rest` is `data[pos..]`. -/
structure Dec where
  rest : List Byte
  run : Byte
  p : Px
  pal : Palette

/-- Line 350 and the like: `p` becomes the pixel and is put in the palette. -/
def Dec.put (s : Dec) (rest : List Byte) (p : Px) : Dec :=
  { s with rest := rest, p := p, pal := s.pal.put p }

/-- The body of the loop of `decode`, lines 323–364. -/
def decStep (s : Dec) : Except Stop Dec :=
  match s.rest with
  | [] => .error .panic
  | tag :: l =>
    if s.run.toNat > 0 then .ok { s with run := s.run - 1 }
    else if tag = 0xFE then
      match l with
      | r :: g :: b :: l => .ok (s.put l ⟨r, g, b, s.p.a⟩)
      | _ => .error .panic
    else if tag = 0xFF then
      match l with
      | r :: g :: b :: a :: l => .ok (s.put l ⟨r, g, b, a⟩)
      | _ => .error .panic
    else if tag >>> 6 = 0 then .ok { s with rest := l, p := s.pal (tag &&& 0x3F).toNat }
    else if tag >>> 6 = 1 then
      .ok (s.put l ⟨s.p.r + (((tag >>> 4) &&& 3) - 2), s.p.g + (((tag >>> 2) &&& 3) - 2),
        s.p.b + ((tag &&& 3) - 2), s.p.a⟩)
    else if tag >>> 6 = 2 then
      match l with
      | t :: l =>
        let dg := (tag &&& 0x3F) - 32
        .ok (s.put l ⟨s.p.r + ((t >>> 4) - 8 + dg), s.p.g + dg, s.p.b + ((t &&& 0xF) - 8 + dg), s.p.a⟩)
      | [] => .error .panic
    else .ok { s with rest := l, run := tag &&& 0x3F }

/-- Line 367: what a pixel is in the image. -/
def draw (ch : Channels) (p : Px) : List Byte :=
  if ch = .rgba then [p.r, p.g, p.b, p.a] else [p.r, p.g, p.b]

/-- The loop of `decode`, `n` rounds. -/
def decLoop (ch : Channels) : Nat → Dec → Except Stop (List Byte)
  | 0, _ => .ok []
  | n + 1, s => do
    let s ← decStep s
    let l ← decLoop ch n s
    .ok (draw ch s.p ++ l)

/-- `@enumcast(QOIChannels, raw)`, lines 410–417. -/
def channelsOf (raw : Byte) : Except Stop Channels :=
  if raw = 0 then .ok .auto else if raw = 3 then .ok .rgb else if raw = 4 then .ok .rgba
  else .error .invalidData

def colorspaceOf (raw : Byte) : Except Stop Colorspace :=
  if raw = 0 then .ok .srgb else if raw = 1 then .ok .linear else .error .invalidData

/-- `bswap` of a word of the header. -/
def word (a b c d : Byte) : BitVec 32 :=
  (a.zeroExtend 32 <<< 24) ||| (b.zeroExtend 32 <<< 16) ||| (c.zeroExtend 32 <<< 8) ||| d.zeroExtend 32

/-- `decode`, lines 281–371: the descriptor and the image. -/
def decode (data : List Byte) (channels : Channels) : Except Stop (Desc × List Byte) :=
  if data.length < 14 + 8 then .error .invalidData
  else
    match data with
    | m0 :: m1 :: m2 :: m3 :: w0 :: w1 :: w2 :: w3 :: h0 :: h1 :: h2 :: h3 :: c :: cs :: rest =>
      if word m0 m1 m2 m3 ≠ 0x716F6966 then .error .invalidData
      else do
        let ch ← channelsOf c
        let co ← colorspaceOf cs
        let d : Desc := ⟨word w0 w1 w2 w3, word h0 h1 h2 h3, ch, co⟩
        if d.channels = .auto then .error .invalidData
        else if d.width = 0 ∨ d.height = 0 then .error .invalidData
        else
          let pixels := d.width.toNat * d.height.toNat
          if pixels > pixelsMax then .error .tooManyPixels
          else do
            let channels := if channels = .auto then d.channels else channels
            let image ← decLoop channels pixels ⟨rest, 0, Px.start, Palette.start⟩
            .ok (d, image)
    | _ => .error .panic

end C3.Qoi
