import Verif.Base32.LemmasTop

/-!
# Property C32: `std::encoding::base32`

`some` says that no access leaves a buffer.  `dst` is any buffer that satisfies the contract of the
function; the statements give its contents afterwards, so they also say that nothing behind the
result is touched.

`decode_buffer` does not deliver what its contract says; see `C32_large_buffer` (a valid text is
rejected if the buffer is larger than needed), `C32_out_of_bounds` and `C32_garbage`.  With the
buffer `decode` allocates the round trip holds (`C32_api`).
-/

set_option autoImplicit false

namespace C3.Base32
open C3.Codec

attribute [local irreducible] STANDARD HEX

/-- C32: the built-in alphabets are valid; neither `=` nor NUL is one of their symbols. -/
theorem C32_alphabets : STANDARD.Valid ∧ HEX.Valid ∧
    (STANDARD.PadOk DEFAULT_PAD ∧ STANDARD.PadOk NO_PAD) ∧ HEX.PadOk DEFAULT_PAD ∧ HEX.PadOk NO_PAD := by
  have lift : ∀ al : Alphabet,
      (∀ n < 256, al.reverse[n]? = some 0xFF ∨ ∃ i < 32, al.encoding.getD i 0 = BitVec.ofNat 8 n) →
      ∀ x : Byte, al.reverse[x.toNat]? = some 0xFF ∨ ∃ i < 32, al.encoding.getD i 0 = x := by
    intro al h x
    have := h x.toNat x.isLt
    rwa [BitVec.ofNat_toNat, BitVec.setWidth_eq] at this
  have a1 : STANDARD.encoding.length = 32 := by decide +kernel
  have a2 : STANDARD.reverse.length = 256 := by decide +kernel
  have a3 : ∀ i < 32, STANDARD.reverse[(STANDARD.encoding.getD i 0).toNat]? = some (BitVec.ofNat 8 i) := by
    decide +kernel
  have a4 : ∀ n < 256, STANDARD.reverse[n]? = some 0xFF ∨
    ∃ i < 32, STANDARD.encoding.getD i 0 = BitVec.ofNat 8 n := by decide +kernel
  have a5 : ∀ i < 32, STANDARD.encoding.getD i 0 ≠ DEFAULT_PAD := by decide +kernel
  have a6 : ∀ i < 32, STANDARD.encoding.getD i 0 ≠ NO_PAD := by decide +kernel
  have b1 : HEX.encoding.length = 32 := by decide +kernel
  have b2 : HEX.reverse.length = 256 := by decide +kernel
  have b3 : ∀ i < 32, HEX.reverse[(HEX.encoding.getD i 0).toNat]? = some (BitVec.ofNat 8 i) := by
    decide +kernel
  have b4 : ∀ n < 256, HEX.reverse[n]? = some 0xFF ∨
    ∃ i < 32, HEX.encoding.getD i 0 = BitVec.ofNat 8 n := by decide +kernel
  have b5 : ∀ i < 32, HEX.encoding.getD i 0 ≠ DEFAULT_PAD := by decide +kernel
  have b6 : ∀ i < 32, HEX.encoding.getD i 0 ≠ NO_PAD := by decide +kernel
  exact ⟨⟨a1, a2, a3, lift _ a4⟩, ⟨b1, b2, b3, lift _ b4⟩, ⟨a5, a6⟩, b5, b6⟩

/-- C32: the encoder writes the RFC 4648 symbols of the source followed by the padding, in exactly
`encode_len` characters. -/
theorem C32_encode (al : Alphabet) (hal : al.Valid) (padding : Byte) (src dst : List Byte)
    (hdst : dst.length ≥ encode_len src.length padding) :
    ∃ ss, Encodes 5 src ss ∧
      encode_buffer src dst padding al =
        some (text al ss ++ pads padding ss.length ++ dst.drop (encode_len src.length padding),
          encode_len src.length padding) ∧
      (text al ss ++ pads padding ss.length).length = encode_len src.length padding := by
  refine ⟨syms src, syms_encodes src, ?_, output_length al padding src⟩
  rw [encode_spec al hal.len padding src dst hdst, output_length]; rfl

/-- C32: decoding a padded text of a complete symbol sequence gives the bytes the symbols contain.
Missing: with padding and an incomplete last group the buffer must have exactly the size
`decode_len` (see `C32_large_buffer`). -/
theorem C32_decode_partial (al : Alphabet) (hal : al.Valid) (padding : Byte) (hpad : al.PadOk padding)
    (ss : List Nat) (hss : Complete ss) (src : List Byte) (hsrc : src = text al ss ++ pads padding ss.length)
    (dst : List Byte) (hdst : dst.length ≥ decode_len src.length padding)
    (hexact : padding = 0 ∨ ss.length % 8 = 0 ∨ dst.length = decode_len src.length padding) :
    ∃ bs, Decodes 5 ss bs ∧
      decode_buffer src dst padding al = some (.ok (bs ++ dst.drop bs.length, bs.length)) := by
  subst hsrc
  rcases decode_complete hal padding hpad ss hss dst hdst with ⟨-, h1, h2, h3⟩ | ⟨-, h⟩
  · rcases hexact with h | h | h
    · exact absurd h h1
    · exact absurd h h2
    · omega
  · exact h

/-- C32, violated: every text with padding characters is rejected when the buffer is larger than
`decode_len`, which the contract allows. -/
theorem C32_large_buffer (al : Alphabet) (hal : al.Valid) (padding : Byte) (hpad : al.PadOk padding)
    (ss : List Nat) (hss : Complete ss) (src : List Byte) (hsrc : src = text al ss ++ pads padding ss.length)
    (dst : List Byte) (hdst : dst.length > decode_len src.length padding)
    (hp : padding ≠ 0) (hlast : ss.length % 8 ≠ 0) :
    decode_buffer src dst padding al = some (.error .INVALID_CHARACTER) := by
  subst hsrc
  rcases decode_complete hal padding hpad ss hss dst (by omega) with ⟨h, -, -, -⟩ | ⟨h, -⟩
  · exact h
  · rcases h with h | h | h
    · exact absurd h hp
    · exact absurd h hlast
    · omega

/-- C32: whatever is returned are the bytes of a prefix of the source that consists of symbols.  What
follows the prefix is nothing, or starts with the padding character, or is shorter than a group. -/
theorem C32_decode_sound (al : Alphabet) (hal : al.Valid) (padding : Byte) (src dst out : List Byte) (n : Nat)
    (hdst : dst.length ≥ decode_len src.length padding)
    (hok : decode_buffer src dst padding al = some (.ok (out, n))) :
    ∃ ss rest bs, Complete ss ∧ src = text al ss ++ rest ∧ Decodes 5 ss bs ∧
      out = bs ++ dst.drop bs.length ∧ n = bs.length ∧
      (rest = [] ∨ rest.head? = some padding ∨ (8 ∣ ss.length ∧ rest.length < 8)) := by
  rw [decode_buffer_eq] at hok
  refine loop_sound hal _ src dst out n ?_ hok
  by_cases hp : padding = 0
  · rw [hp, decode_len_eq] at hdst; omega
  · rw [decode_len_pad _ hp] at hdst; exact hdst

/-- C32: no access leaves a buffer, if there is no padding or the buffer consists of whole groups
(as the one of `decode` does). -/
theorem C32_safe_partial (al : Alphabet) (hal : al.Valid) (padding : Byte) (src dst : List Byte)
    (hdst : dst.length ≥ decode_len src.length padding) (h5 : padding = 0 ∨ 5 ∣ dst.length) :
    ∃ r, decode_buffer src dst padding al = some r := by
  rw [decode_buffer_eq]
  refine loop_total hal _ src dst (by omega) ?_
  by_cases hp : padding = 0
  · rw [if_pos hp]; rw [hp, decode_len_eq] at hdst; exact hdst
  · rw [if_neg hp]
    rcases h5 with h | h
    · exact absurd h hp
    · exact h

/-- C32, violated: a malformed text and a buffer of one byte, which is more than `decode_len`, make
`decode_buffer` write behind the buffer. -/
theorem C32_out_of_bounds :
    decode_len (ascii ['A', 'A', 'A', 'A', 'A', '=']).length DEFAULT_PAD ≤ ([0] : List Byte).length ∧
    decode_buffer (ascii ['A', 'A', 'A', 'A', 'A', '=']) [0] DEFAULT_PAD STANDARD = none := by
  decide +kernel

/-- C32, violated: characters outside of the alphabet are accepted after the padding, and in a last
group of less than eight characters. -/
theorem C32_garbage :
    decode (ascii ['I', 'E', '=', '!', '?', '=', '#', 'A']) [0, 0, 0, 0, 0] DEFAULT_PAD STANDARD =
      some (.ok [65]) ∧
    decode (ascii ['!', '?', '#']) [] DEFAULT_PAD STANDARD = some (.ok []) ∧
    decode (ascii ['!']) [] NO_PAD STANDARD = some (.ok []) := by decide +kernel

/-- C32: decoding an encoded byte string gives it back; without padding through any pair of large
enough buffers, with padding if the second one has the size `decode_len`, or there is no padding to
add. -/
theorem C32_roundtrip_partial (al : Alphabet) (hal : al.Valid) (padding : Byte) (hpad : al.PadOk padding)
    (src d1 d2 : List Byte) (h1 : d1.length ≥ encode_len src.length padding) :
    ∃ out n, encode_buffer src d1 padding al = some (out, n) ∧ (out.take n).length = n ∧
      (decode_len n padding ≤ d2.length →
        padding = 0 ∨ 5 ∣ src.length ∨ d2.length = decode_len n padding →
        decode_buffer (out.take n) d2 padding al = some (.ok (src ++ d2.drop src.length, src.length))) := by
  have e : (output al padding src ++ d1.drop (output al padding src).length).take
      (encode_len src.length padding) = text al (syms src) ++ pads padding (syms src).length :=
    List.take_left' (output_length al padding src)
  have hlen : (text al (syms src) ++ pads padding (syms src).length).length = encode_len src.length padding :=
    output_length al padding src
  refine ⟨_, _, encode_spec al hal.len padding src d1 h1, by rw [e, hlen], ?_⟩
  intro hd hx
  rw [e]
  have henc := syms_encodes src
  have hsl := syms_length src
  have hcomp : Complete (syms src) := ⟨henc.2.2.1, by omega⟩
  obtain ⟨bs, h2, h3⟩ := C32_decode_partial al hal padding hpad (syms src) hcomp _ rfl d2 (by
    rw [hlen]; exact hd) (by
    rw [hlen]
    rcases hx with h | h | h
    · exact Or.inl h
    · exact Or.inr (Or.inl (by omega))
    · exact Or.inr (Or.inr h))
  have : bs = src := h2.unique (henc.decodes (by omega))
  rw [this] at h3
  exact h3

/-- C32, as the API has it: with the allocating functions, for both alphabets and both usual
paddings, whatever the allocated memory held before. -/
theorem C32_api (al : Alphabet) (hal : al = STANDARD ∨ al = HEX) (padding : Byte)
    (hp : padding = NO_PAD ∨ padding = DEFAULT_PAD) (src f1 f2 : List Byte)
    (h1 : f1.length = encode_len src.length padding) :
    ∃ t, encode src f1 padding al = some t ∧
      (f2.length = decode_len t.length padding → decode t f2 padding al = some (.ok src)) := by
  obtain ⟨k1, k2, ⟨k3, k4⟩, k5, k6⟩ := C32_alphabets
  have hv : al.Valid := by rcases hal with rfl | rfl <;> assumption
  have hpo : al.PadOk padding := by
    rcases hp with rfl | rfl
    · rcases hal with rfl | rfl <;> assumption
    · rcases hal with rfl | rfl <;> assumption
  obtain ⟨out, n, e1, e2, e3⟩ := C32_roundtrip_partial al hv padding hpo src f1 f2 (by omega)
  refine ⟨out.take n, ?_, ?_⟩
  · unfold encode
    rw [if_neg (by omega), e1]; rfl
  · intro hf
    rw [e2] at hf
    unfold decode
    rw [e2, if_neg (by omega), e3 (by omega) (Or.inr (Or.inr hf))]
    simp [Except.map]

/-! ## Examples -/

example : encode (ascii ['l', 'i', 'g', 'h', 't', ' ', 'w']) (List.replicate 16 0) DEFAULT_PAD STANDARD =
    some (ascii ['N', 'R', 'U', 'W', 'O', '2', 'D', 'U', 'E', 'B', '3', 'Q', '=', '=', '=', '=']) := by
  decide +kernel

/-- The hypotheses of `C32_api` are met by a source of seven bytes. -/
example : ∃ t, encode (ascii "light w".toList) (List.replicate 16 0) DEFAULT_PAD STANDARD = some t ∧
    ((List.replicate 10 1).length = decode_len t.length DEFAULT_PAD →
      decode t (List.replicate 10 1) DEFAULT_PAD STANDARD = some (.ok (ascii "light w".toList))) :=
  C32_api STANDARD (Or.inl rfl) DEFAULT_PAD (Or.inr rfl) (ascii "light w".toList) (List.replicate 16 0)
    (List.replicate 10 1) (by decide)

/-- The same text in a buffer of eleven bytes (`C32_large_buffer`). -/
example : decode_buffer (text STANDARD [13, 17, 20, 22, 14, 26, 3, 20, 4, 1, 27, 16] ++ pads DEFAULT_PAD 12)
    (List.replicate 11 0) DEFAULT_PAD STANDARD = some (.error .INVALID_CHARACTER) :=
  C32_large_buffer STANDARD C32_alphabets.1 DEFAULT_PAD C32_alphabets.2.2.1.1
    [13, 17, 20, 22, 14, 26, 3, 20, 4, 1, 27, 16] (by unfold Complete; decide) _ rfl _
    (by rw [List.length_append, text_length]; decide) (by decide) (by decide)

/-- A buffer that is exactly large enough (`C32_decode_partial`). -/
example : ∃ bs, Decodes 5 [13, 17, 20, 22] bs ∧
    decode_buffer (text STANDARD [13, 17, 20, 22] ++ pads DEFAULT_PAD 4) (List.replicate 5 0) DEFAULT_PAD
      STANDARD = some (.ok (bs ++ (List.replicate 5 0).drop bs.length, bs.length)) :=
  C32_decode_partial STANDARD C32_alphabets.1 DEFAULT_PAD C32_alphabets.2.2.1.1
    [13, 17, 20, 22] (by unfold Complete; decide) _ rfl _
    (by rw [List.length_append, text_length]; decide)
    (Or.inr (Or.inr (by rw [List.length_append, text_length]; decide)))

end C3.Base32
