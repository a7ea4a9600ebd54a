import Verif.Qoi.Lemmas

/-! # C112–C116: the QOI images of the standard library -/

set_option autoImplicit false

namespace C3.Qoi
open Std

deriving instance DecidableEq for Except

/-- What `encode` asks of an image: it has pixels, no more than `PIXELS_MAX`, and says which
channels it has. -/
def Desc.Good (d : Desc) : Prop :=
  0 < d.width.toNat * d.height.toNat ∧ d.width.toNat * d.height.toNat ≤ pixelsMax ∧ d.channels ≠ .auto

theorem Good.parts {d : Desc} (h : d.Good) : d.width ≠ 0 ∧ d.height ≠ 0 ∧ d.channels ≠ .auto ∧
    (d.width * d.height).toNat = d.width.toNat * d.height.toNat := by
  obtain ⟨h1, h2, h3⟩ := h
  refine ⟨?_, ?_, h3, ?_⟩
  · intro e; rw [e] at h1; simp at h1
  · intro e; rw [e] at h1; simp at h1
  · have : d.width.toNat * d.height.toNat ≤ 400000000 := h2
    rw [BitVec.toNat_mul, Nat.mod_eq_of_lt (by omega)]

/-! ## C112: `encode` writes a QOI stream of the image -/

/-- The bytes of the image are given back by the format: the stream is a header with the
descriptor, valid chunks that stand for exactly the pixels of the image, and the end marker. With
three channels every pixel has alpha 255. The stream is never longer than the buffer of `encode`. -/
theorem C112_encode (input : List Byte) (d : Desc) (hd : d.Good)
    (hlen : input.length = d.width.toNat * d.height.toNat * d.channels.id) :
    ∃ cs : List Chunk,
      encode input d = .ok (stream d.width.toNat d.height.toNat d.channels.id d.colorspace.id cs) ∧
      (∀ c ∈ cs, c.Valid) ∧ total cs = d.width.toNat * d.height.toNat ∧
      (pixels State.start cs).flatMap (pixelBytes d.channels.id) = input ∧
      (d.channels = .rgb → ∀ p ∈ pixels State.start cs, p.a = 255) ∧
      (stream d.width.toNat d.height.toNat d.channels.id d.colorspace.id cs).length ≤
        22 + (d.channels.id + 1) * (d.width.toNat * d.height.toNat) := by
  obtain ⟨h1, h2, h3, h4⟩ := Good.parts hd
  obtain ⟨l, l1, l2, l3⟩ := split d.channels h3 _ input hlen
  obtain ⟨cs, c1, c2, c3, c4, _, c6⟩ := encode_core l d h1 h2 h3 _ h4 hd.2.1 l1 l3
  refine ⟨cs, by rw [l2]; exact c1, c3, c4, ?_, ?_, c2⟩
  · rw [c6, l2, draw_eq]
  · rw [c6]; exact l3

/-- Five pixels: a run of black, a small difference, a larger one, a black pixel again (not in the
palette), and a pixel of the palette. -/
example : encode [0, 0, 0, 1, 1, 255, 9, 10, 4, 0, 0, 0, 1, 1, 255] ⟨5, 1, .rgb, .srgb⟩ =
    .ok (stream 5 1 3 0 [.run 0, .diff 3 3 1, .luma 41 7 4, .luma 22 9 14, .index 54]) := by
  decide +kernel

/-- What is no image is refused, with the fault the documentation names. -/
theorem C112_refuses (input : List Byte) (d : Desc) (h : d.width.toNat * d.height.toNat ≤ pixelsMax) :
    ((d.width.toNat * d.height.toNat = 0 ∨ d.channels = .auto) →
      encode input d = .error .invalidParameters) ∧
    (d.Good → input.length ≠ d.width.toNat * d.height.toNat * d.channels.id →
      encode input d = .error .invalidData) := by
  constructor
  · intro h0
    by_cases hz : d.width = 0 ∨ d.height = 0
    · rw [encode, if_pos hz]
    · rw [encode, if_neg hz]
      rcases h0 with h0 | h0
      · exfalso
        rcases Nat.mul_eq_zero.1 h0 with h0 | h0
        · exact hz (.inl (BitVec.eq_of_toNat_eq (by rw [h0]; rfl)))
        · exact hz (.inr (BitVec.eq_of_toNat_eq (by rw [h0]; rfl)))
      · rw [if_pos h0]
  · intro hd hl
    obtain ⟨h1, h2, h3, h4⟩ := Good.parts hd
    have hM : d.width.toNat * d.height.toNat ≤ 400000000 := h
    have hid : d.channels.id ≤ 4 := by cases d.channels <;> decide
    have hn4 := Nat.mul_le_mul_left (d.width.toNat * d.height.toNat) hid
    rw [encode, if_neg (fun h => h.elim h1 h2), if_neg h3]
    simp only
    rw [h4, if_neg (by omega), if_pos]
    rw [BitVec.toNat_mul, h4, BitVec.toNat_ofNat, Nat.mod_eq_of_lt (a := d.channels.id) (by omega),
      Nat.mod_eq_of_lt (by omega)]
    exact fun e => hl e.symm

example : encode [1, 2] ⟨1, 1, .rgb, .srgb⟩ = .error .invalidData := by decide +kernel

/-! ## C113: decoding what was encoded -/

/-- The descriptor and the image come back, and so does the image with the other number of
channels: alpha is dropped, or is 255. -/
theorem C113_round_trip (l : List Px) (d : Desc) (hd : d.Good)
    (hlen : l.length = d.width.toNat * d.height.toNat) :
    ∃ out, encode (l.flatMap (pixelBytes d.channels.id)) d = .ok out ∧
      decode out .auto = .ok (d, l.flatMap (pixelBytes d.channels.id)) ∧
      decode out .rgb = .ok (d, l.flatMap (pixelBytes 3)) ∧
      decode out .rgba = .ok (d, (l.map fun p => if d.channels = .rgb then { p with a := 255 } else p).flatMap
        (pixelBytes 4)) := by
  obtain ⟨h1, h2, h3, h4⟩ := Good.parts hd
  have hch : d.channels = .rgb ∨ d.channels = .rgba := by
    cases hc : d.channels <;> simp_all
  have main : ∀ m : List Px, m.length = d.width.toNat * d.height.toNat →
      (d.channels = .rgb → ∀ p ∈ m, p.a = 255) →
      ∃ out, encode (m.flatMap (draw d.channels)) d = .ok out ∧
        ∀ ch, decode out ch = .ok (d, m.flatMap (draw (if ch = .auto then d.channels else ch))) := by
    intro m m1 m3
    obtain ⟨cs, c1, c2, c3, c4, c5, _⟩ := encode_core m d h1 h2 h3 _ h4 hd.2.1 m1 m3
    refine ⟨_, c1, fun ch => ?_⟩
    have hE : endOfStream ≠ [] := by decide
    have hP : ¬ d.width.toNat * d.height.toNat > pixelsMax := by have := hd.2.1; omega
    rw [decode_stream d cs ch h1 h2 h3, if_neg hP, ← c4]
    have := decLoop_chunks (if ch = .auto then d.channels else ch) cs c3 endOfStream hE State.start
    rw [c5] at this
    have this' : decLoop (if ch = .auto then d.channels else ch) (total cs)
      ⟨cs.flatMap Chunk.bytes ++ endOfStream, 0, Px.start, Palette.start⟩ = _ := this
    rw [this']; rfl
  rcases hch with hch | hch
  · obtain ⟨out, o1, o2⟩ := main (l.map fun p => { p with a := 255 }) (by rw [List.length_map, hlen])
      (fun _ p hp => by
        obtain ⟨q, _, e⟩ := List.mem_map.1 hp
        rw [← e])
    have e3 : (l.map fun p => { p with a := 255 }).flatMap (draw .rgb) = l.flatMap (pixelBytes 3) := by
      rw [List.flatMap_map]; rfl
    refine ⟨out, ?_, ?_, ?_, ?_⟩
    · rw [hch, e3] at o1; rw [hch]; exact o1
    · rw [o2 .auto, if_pos rfl, hch, e3]; rfl
    · rw [o2 .rgb, if_neg (by decide), e3]
    · rw [o2 .rgba, if_neg (by decide), draw_eq, hch]; rfl
  · obtain ⟨out, o1, o2⟩ := main l hlen (fun e => by rw [hch] at e; cases e)
    refine ⟨out, ?_, ?_, ?_, ?_⟩
    · rw [← draw_eq]; exact o1
    · rw [o2 .auto, if_pos rfl, draw_eq]
    · rw [o2 .rgb, if_neg (by decide), draw_eq]; rfl
    · have e : (l.map fun p => if d.channels = .rgb then { p with a := 255 } else p) = l := by
        simp [hch]
      rw [o2 .rgba, if_neg (by decide), draw_eq, e]; rfl

example : ∃ out, encode [1, 2, 3, 4, 1, 2, 3, 4, 0, 0, 0, 0] ⟨3, 1, .rgba, .linear⟩ = .ok out ∧
    decode out .auto = .ok (⟨3, 1, .rgba, .linear⟩, [1, 2, 3, 4, 1, 2, 3, 4, 0, 0, 0, 0]) ∧
    decode out .rgb = .ok (⟨3, 1, .rgba, .linear⟩, [1, 2, 3, 1, 2, 3, 0, 0, 0]) :=
  ⟨header ⟨3, 1, .rgba, .linear⟩ ++ [0xFF, 1, 2, 3, 4, 0xC0, 0] ++ endOfStream, by decide +kernel,
    by decide +kernel, by decide +kernel⟩

/-! ## C114: `decode` and the format -/

/-- Every stream is decoded to the pixels the format gives it. -/
def C114_full : Prop :=
  ∀ (d : Desc) (cs : List Chunk), d.Good → (∀ c ∈ cs, c.Valid) →
    total cs = d.width.toNat * d.height.toNat →
    decode (stream d.width.toNat d.height.toNat d.channels.id d.colorspace.id cs) .auto =
      .ok (d, (pixels State.start cs).flatMap (pixelBytes d.channels.id))

/-- Not so: a stream may start with a run of the first "previous pixel", black. The format has this pixel
then in the array; `decode` has not, and a later reference to it gives a transparent pixel. -/
theorem C114_fails : ¬ C114_full := by
  intro h
  have h1 := h ⟨3, 1, .rgba, .srgb⟩ [.run 0, .rgb 9 9 9, .index 53] (by unfold Desc.Good; decide +kernel)
    (by
      intro c hc
      simp only [List.mem_cons, List.not_mem_nil, or_false] at hc
      rcases hc with rfl | rfl | rfl <;> simp [Chunk.Valid]) (by decide)
  exact absurd h1 (by decide +kernel)

/-- It is so when the stream does not start with a run and its references are to slots that were
filled. -/
theorem C114_partial (d : Desc) (cs : List Chunk) (hd : d.Good) (hv : ∀ c ∈ cs, c.Valid)
    (ht : total cs = d.width.toNat * d.height.toNat) (hr : ∀ n, cs.head? ≠ some (.run n))
    (hg : Regular State.start cs) :
    decode (stream d.width.toNat d.height.toNat d.channels.id d.colorspace.id cs) .auto =
      .ok (d, (pixels State.start cs).flatMap (pixelBytes d.channels.id)) := by
  obtain ⟨h1, h2, h3, _⟩ := Good.parts hd
  have hP : ¬ d.width.toNat * d.height.toNat > pixelsMax := by have := hd.2.1; omega
  rw [decode_stream d cs .auto h1 h2 h3, if_neg hP, ← ht, if_pos rfl]
  have := decLoop_chunks d.channels cs hv endOfStream (by decide) State.start
  have this' : decLoop d.channels (total cs)
    ⟨cs.flatMap Chunk.bytes ++ endOfStream, 0, Px.start, Palette.start⟩ = _ := this
  rw [this', regular_start cs hr hg, draw_eq]; rfl

example : decode (stream 4 1 3 0 [.rgb 9 9 9, .run 0, .diff 0 2 3, .index (slot ⟨9, 9, 9, 255⟩)]) .auto =
    .ok (⟨4, 1, .rgb, .srgb⟩, [9, 9, 9, 9, 9, 9, 7, 9, 10, 9, 9, 9]) := by decide +kernel

/-! ## C115: `decode` on any data -/

/-- `decode` gives an image or a fault, whatever the data. -/
def C115_full : Prop := ∀ data ch, decode data ch ≠ .error .panic

/-- It reads behind the data whenever the header names more pixels than there are zero bytes
behind it: a file that was cut off, or a header that lies. -/
theorem C115_panics (d : Desc) (hd : d.Good) (m : Nat) (hm : 8 ≤ m)
    (h : m < d.width.toNat * d.height.toNat) (ch : Channels) :
    decode (header d ++ List.replicate m 0) ch = .error .panic := by
  obtain ⟨h1, h2, h3, _⟩ := Good.parts hd
  have hP : ¬ d.width.toNat * d.height.toNat > pixelsMax := by have := hd.2.1; omega
  have hcc : channelsOf (BitVec.ofNat 8 d.channels.id) = .ok d.channels := by
    cases hc : d.channels <;> first | rfl | exact absurd hc h3
  have hco : colorspaceOf (BitVec.ofNat 8 d.colorspace.id) = .ok d.colorspace := by
    cases d.colorspace <;> rfl
  have hw : word ((0x716F6966 : BitVec 32) >>> 24 |>.truncate 8) ((0x716F6966 : BitVec 32) >>> 16 |>.truncate 8)
      ((0x716F6966 : BitVec 32) >>> 8 |>.truncate 8) ((0x716F6966 : BitVec 32).truncate 8) = 0x716F6966 :=
    word_be32 _
  simp only [header, be32, List.cons_append, List.nil_append]
  rw [decode, if_neg (by simp; omega)]
  rw [if_neg (fun h => h hw), word_be32, word_be32, hcc, hco]
  show (if d.channels = .auto then _ else _) = _
  rw [if_neg h3, if_neg (fun h => h.elim h1 h2)]
  simp only
  rw [if_neg hP, decLoop_zeros _ m _ _ _ h]
  rfl

theorem C115_fails : ¬ C115_full := fun h =>
  h _ .auto (C115_panics ⟨3, 3, .rgb, .srgb⟩ (by unfold Desc.Good; decide +kernel) 8 (by omega) (by decide) .auto)

/-- With five bytes for every pixel of the header there is no panic. -/
theorem C115_partial (d : Desc) (hd : d.Good) (rest : List Byte) (h8 : 8 ≤ rest.length)
    (h : 5 * (d.width.toNat * d.height.toNat) ≤ rest.length) (ch : Channels) :
    ∃ image, decode (header d ++ rest) ch = .ok (d, image) := by
  obtain ⟨h1, h2, h3, _⟩ := Good.parts hd
  have hP : ¬ d.width.toNat * d.height.toNat > pixelsMax := by have := hd.2.1; omega
  have hcc : channelsOf (BitVec.ofNat 8 d.channels.id) = .ok d.channels := by
    cases hc : d.channels <;> first | rfl | exact absurd hc h3
  have hco : colorspaceOf (BitVec.ofNat 8 d.colorspace.id) = .ok d.colorspace := by
    cases d.colorspace <;> rfl
  have hw : word ((0x716F6966 : BitVec 32) >>> 24 |>.truncate 8) ((0x716F6966 : BitVec 32) >>> 16 |>.truncate 8)
      ((0x716F6966 : BitVec 32) >>> 8 |>.truncate 8) ((0x716F6966 : BitVec 32).truncate 8) = 0x716F6966 :=
    word_be32 _
  obtain ⟨l, hl⟩ := decLoop_enough (if ch = .auto then d.channels else ch) (d.width.toNat * d.height.toNat)
    ⟨rest, 0, Px.start, Palette.start⟩ h
  refine ⟨l, ?_⟩
  simp only [header, be32, List.cons_append, List.nil_append]
  rw [decode, if_neg (by simp; omega)]
  rw [if_neg (fun h => h hw), word_be32, word_be32, hcc, hco]
  show (if d.channels = .auto then _ else _) = _
  rw [if_neg h3, if_neg (fun h => h.elim h1 h2)]
  simp only
  rw [if_neg hP, hl]
  rfl

example : decode (header ⟨1, 1, .rgb, .srgb⟩ ++ [0xFE, 1, 2, 3, 7, 7, 7, 7]) .auto =
    .ok (⟨1, 1, .rgb, .srgb⟩, [1, 2, 3]) := by decide +kernel

/-! ## C116: images that are too large -/

/-- `encode` refuses an image of more than `PIXELS_MAX` pixels. -/
def C116_full : Prop :=
  ∀ (input : List Byte) (d : Desc), d.channels ≠ .auto → d.width.toNat * d.height.toNat > pixelsMax →
    encode input d = .error .tooManyPixels

/-- It does exactly when the product of 32 bits is too large as well. -/
theorem C116_partial (input : List Byte) (d : Desc) (hc : d.channels ≠ .auto)
    (h : d.width.toNat * d.height.toNat > pixelsMax) :
    encode input d = .error .tooManyPixels ↔
      d.width.toNat * d.height.toNat % 2 ^ 32 > pixelsMax := by
  have hw : d.width ≠ 0 := by intro e; rw [e] at h; simp at h
  have hh : d.height ≠ 0 := by intro e; rw [e] at h; simp at h
  have hm : (d.width * d.height).toNat = d.width.toNat * d.height.toNat % 2 ^ 32 := BitVec.toNat_mul ..
  constructor
  · intro he
    by_cases hp : d.width.toNat * d.height.toNat % 2 ^ 32 > pixelsMax
    · exact hp
    exfalso
    rw [encode, if_neg (fun h => h.elim hw hh), if_neg hc] at he
    simp only at he
    rw [hm, if_neg hp] at he
    by_cases hs : (d.width * d.height * BitVec.ofNat 32 d.channels.id).toNat ≠ input.length
    · rw [if_pos hs] at he; cases he
    · have hid : d.channels.id ≤ 4 := by cases d.channels <;> decide
      have hM : d.width.toNat * d.height.toNat % 2 ^ 32 ≤ 400000000 := Nat.le_of_not_gt hp
      have hn4 := Nat.mul_le_mul_left (d.width.toNat * d.height.toNat % 2 ^ 32) hid
      have hsz : (d.width * d.height * BitVec.ofNat 32 d.channels.id).toNat =
          d.width.toNat * d.height.toNat % 2 ^ 32 * d.channels.id := by
        rw [BitVec.toNat_mul, hm, BitVec.toNat_ofNat, Nat.mod_eq_of_lt (a := d.channels.id) (by omega),
          Nat.mod_eq_of_lt (by omega)]
      have hl : input.length = d.width.toNat * d.height.toNat % 2 ^ 32 * d.channels.id := by
        rw [← hsz]; exact (Classical.not_not.1 hs).symm
      obtain ⟨l, l1, l2, l3⟩ := split d.channels hc _ input hl
      obtain ⟨cs, c1, _⟩ := encode_core l d hw hh hc _ hm (Nat.le_of_not_gt hp) l1 l3
      rw [← l2, encode, if_neg (fun h => h.elim hw hh), if_neg hc] at c1
      simp only at c1
      rw [hm, if_neg hp, if_neg hs] at c1
      rw [if_neg hs, c1] at he
      cases he
  · intro hp
    rw [encode, if_neg (fun h => h.elim hw hh), if_neg hc]
    simp only
    rw [hm, if_pos hp]

/-- Otherwise it takes the bytes of the product of 32 bits for the image, and writes a stream that
no decoder reads: `decode` answers with `TOO_MANY_PIXELS`. -/
theorem C116_unreadable (input : List Byte) (d : Desc) (hc : d.channels ≠ .auto)
    (h : d.width.toNat * d.height.toNat > pixelsMax)
    (hp : d.width.toNat * d.height.toNat % 2 ^ 32 ≤ pixelsMax)
    (hl : input.length = d.width.toNat * d.height.toNat % 2 ^ 32 * d.channels.id) :
    ∃ out, encode input d = .ok out ∧ ∀ ch, decode out ch = .error .tooManyPixels := by
  have hw : d.width ≠ 0 := by intro e; rw [e] at h; simp at h
  have hh : d.height ≠ 0 := by intro e; rw [e] at h; simp at h
  have hm : (d.width * d.height).toNat = d.width.toNat * d.height.toNat % 2 ^ 32 := BitVec.toNat_mul ..
  obtain ⟨l, l1, l2, l3⟩ := split d.channels hc _ input hl
  obtain ⟨cs, c1, _⟩ := encode_core l d hw hh hc _ hm hp l1 l3
  refine ⟨_, by rw [l2]; exact c1, fun ch => ?_⟩
  rw [decode_stream d cs ch hw hh hc, if_pos h]

/-- An image of 65536 by 65536 pixels, of which there are none. -/
example : ∃ out, encode [] ⟨65536, 65536, .rgb, .srgb⟩ = .ok out ∧ decode out .auto = .error .tooManyPixels := by
  obtain ⟨out, h1, h2⟩ := C116_unreadable [] ⟨65536, 65536, .rgb, .srgb⟩ (by decide) (by decide +kernel)
    (by decide +kernel) (by decide +kernel)
  exact ⟨out, h1, h2 _⟩

theorem C116_fails : ¬ C116_full := by
  intro h
  have h1 := h [] ⟨65536, 65536, .rgb, .srgb⟩ (by decide) (by decide +kernel)
  rw [C116_partial _ _ (by decide) (by decide +kernel)] at h1
  exact absurd h1 (by decide +kernel)

end C3.Qoi
