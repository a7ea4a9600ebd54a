import Verif.Base64.LemmasTop

/-!
# Property C31: `std::encoding::base64`

`some` says that no access leaves a buffer and no assertion fails.  `dst` is any buffer that
satisfies the contract of the function; the statements give its contents afterwards, so they also
say that nothing behind the result is touched.
-/

set_option autoImplicit false

namespace C3.Base64
open C3.Codec

attribute [local irreducible] STANDARD URL

/-- C31: the built-in alphabets are valid, and `=` is not one of their symbols. -/
theorem C31_alphabets : STANDARD.Valid ∧ URL.Valid ∧
    STANDARD.PadOk DEFAULT_PAD ∧ URL.PadOk DEFAULT_PAD := by
  have lift : ∀ al : Alphabet,
      (∀ n < 256, al.reverse[n]? = some 0xFF ∨ ∃ i < 64, al.encoding.getD i 0 = BitVec.ofNat 8 n) →
      ∀ x : Byte, al.reverse[x.toNat]? = some 0xFF ∨ ∃ i < 64, al.encoding.getD i 0 = x := by
    intro al h x
    have := h x.toNat x.isLt
    rwa [BitVec.ofNat_toNat, BitVec.setWidth_eq] at this
  have a1 : STANDARD.encoding.length = 64 := by decide +kernel
  have a2 : STANDARD.reverse.length = 256 := by decide +kernel
  have a3 : ∀ i < 64, STANDARD.reverse[(STANDARD.encoding.getD i 0).toNat]? = some (BitVec.ofNat 8 i) := by
    decide +kernel
  have a4 : ∀ n < 256, STANDARD.reverse[n]? = some 0xFF ∨
    ∃ i < 64, STANDARD.encoding.getD i 0 = BitVec.ofNat 8 n := by decide +kernel
  have a5 : ∀ i < 64, STANDARD.encoding.getD i 0 ≠ DEFAULT_PAD := by decide +kernel
  have b1 : URL.encoding.length = 64 := by decide +kernel
  have b2 : URL.reverse.length = 256 := by decide +kernel
  have b3 : ∀ i < 64, URL.reverse[(URL.encoding.getD i 0).toNat]? = some (BitVec.ofNat 8 i) := by
    decide +kernel
  have b4 : ∀ n < 256, URL.reverse[n]? = some 0xFF ∨
    ∃ i < 64, URL.encoding.getD i 0 = BitVec.ofNat 8 n := by decide +kernel
  have b5 : ∀ i < 64, URL.encoding.getD i 0 ≠ DEFAULT_PAD := by decide +kernel
  exact ⟨⟨a1, a2, a3, lift _ a4⟩, ⟨b1, b2, b3, lift _ b4⟩, a5, b5⟩

/-- C31: the encoder writes the RFC 4648 symbols of the source followed by the padding, in exactly
`encode_len` characters. -/
theorem C31_encode (al : Alphabet) (hal : al.Valid) (padding : Byte) (src dst : List Byte)
    (hdst : dst.length ≥ encode_len src.length padding) :
    ∃ ss, Encodes 6 src ss ∧
      encode_buffer src dst padding al =
        some (text al ss ++ pads padding ss.length ++ dst.drop (encode_len src.length padding),
          encode_len src.length padding) ∧
      (text al ss ++ pads padding ss.length).length = encode_len src.length padding := by
  refine ⟨syms src, syms_encodes src, ?_, output_length al padding src⟩
  rw [encode_spec al hal.len padding src dst hdst, output_length]; rfl

/-- C31: decoding succeeds exactly on the texts of complete symbol sequences with the right padding,
and yields the whole bytes the symbols contain; anything else is a fault. -/
theorem C31_decode (al : Alphabet) (hal : al.Valid) (padding : Byte) (hpad : padding ≠ 0 → al.PadOk padding)
    (src dst : List Byte)
    (hdst : ∀ n, decode_len src.length padding = .ok n → n ≤ dst.length) :
    (∃ ss bs, Complete ss ∧ src = text al ss ++ pads padding ss.length ∧ Decodes 6 ss bs ∧
      decode_buffer src dst padding al = some (.ok (bs ++ dst.drop bs.length, bs.length))) ∨
    ((¬ ∃ ss, Complete ss ∧ src = text al ss ++ pads padding ss.length) ∧
      ∃ f, decode_buffer src dst padding al = some (.error f)) := by
  by_cases h : ∃ ss, Complete ss ∧ src = text al ss ++ pads padding ss.length
  · left
    obtain ⟨ss, h1, rfl⟩ := h
    obtain ⟨bs, h2, h3⟩ := decode_ok hal padding hpad ss h1 dst hdst
    exact ⟨ss, bs, h1, rfl, h2, h3⟩
  · exact Or.inr ⟨h, decode_bad hal padding src dst hdst h⟩

/-- C31: decoding an encoded byte string gives it back, through any pair of large enough buffers. -/
theorem C31_roundtrip (al : Alphabet) (hal : al.Valid) (padding : Byte) (hpad : padding ≠ 0 → al.PadOk padding)
    (src d1 d2 : List Byte) (h1 : d1.length ≥ encode_len src.length padding) :
    ∃ out n, encode_buffer src d1 padding al = some (out, n) ∧
      ∀ m, decode_len (out.take n).length padding = .ok m → m ≤ d2.length →
        decode_buffer (out.take n) d2 padding al = some (.ok (src ++ d2.drop src.length, src.length)) := by
  refine ⟨_, _, encode_spec al hal.len padding src d1 h1, ?_⟩
  intro m hm hd
  have e : (output al padding src ++ d1.drop (output al padding src).length).take
      (encode_len src.length padding) = text al (syms src) ++ pads padding (syms src).length :=
    List.take_left' (output_length al padding src)
  rw [e] at hm ⊢
  have henc := syms_encodes src
  have hcomp : Complete (syms src) := ⟨henc.2.2.1, by
    rw [syms_length]
    omega⟩
  obtain ⟨bs, h2, h3⟩ := decode_ok hal padding hpad (syms src) hcomp d2 (by
    intro n hn; rw [hm, Except.ok.injEq] at hn; omega)
  have : bs = src := h2.unique (henc.decodes (by omega))
  rw [this] at h3
  exact h3

/-- C31, as the API has it: with the allocating functions, for both alphabets and both usual
paddings, whatever the allocated memory held before. -/
theorem C31_api (al : Alphabet) (hal : al = STANDARD ∨ al = URL) (padding : Byte)
    (hp : padding = NO_PAD ∨ padding = DEFAULT_PAD) (src f1 f2 : List Byte)
    (h1 : f1.length = encode_len src.length padding) :
    ∃ t, encode src f1 padding al = some t ∧
      ∃ n, decode_len t.length padding = .ok n ∧
        (f2.length = n → decode t f2 padding al = some (.ok src)) := by
  obtain ⟨k1, k2, k3, k4⟩ := C31_alphabets
  have hv : al.Valid := by rcases hal with rfl | rfl <;> assumption
  have hpo : padding ≠ 0 → al.PadOk padding := by
    intro hne
    rcases hp with rfl | rfl
    · exact absurd rfl hne
    · rcases hal with rfl | rfl <;> assumption
  obtain ⟨out, n, e1, e2⟩ := C31_roundtrip al hv padding hpo src f1 f2 (by omega)
  refine ⟨out.take n, ?_, ?_⟩
  · unfold encode
    rw [if_neg (by omega), e1]; rfl
  · have hlen : (out.take n).length = encode_len src.length padding := by
      have := encode_spec al hv.len padding src f1 (by omega)
      rw [e1, Option.some.injEq, Prod.mk.injEq] at this
      rw [this.1, this.2, List.take_left' (output_length al padding src), output_length]
    have hdl : ∃ m, decode_len (out.take n).length padding = .ok m := by
      rw [hlen]
      unfold decode_len encode_len
      by_cases h0 : padding = 0
      · rw [if_neg (not_not.2 h0), if_neg (not_not.2 h0), if_neg (by simp only []; omega)]; exact ⟨_, rfl⟩
      · rw [if_pos h0, if_pos h0, if_neg (by omega)]; exact ⟨_, rfl⟩
    obtain ⟨m, hm⟩ := hdl
    refine ⟨m, hm, fun hf => ?_⟩
    unfold decode
    rw [hm]
    simp only []
    rw [if_neg (by omega), e2 m hm (by omega)]
    simp [Except.map]

/-! ## Examples -/

/-- `encode "light w"` with padding. -/
example : ∃ t, encode (ascii "light w".toList) (List.replicate 12 0) DEFAULT_PAD STANDARD = some t ∧
    ∃ n, decode_len t.length DEFAULT_PAD = .ok n ∧
      ((List.replicate 9 1).length = n → decode t (List.replicate 9 1) DEFAULT_PAD STANDARD =
        some (.ok (ascii "light w".toList))) :=
  C31_api STANDARD (Or.inl rfl) DEFAULT_PAD (Or.inr rfl) (ascii "light w".toList) (List.replicate 12 0)
    (List.replicate 9 1) (by decide)

example : encode (ascii "light w".toList) (List.replicate 12 0) DEFAULT_PAD STANDARD =
    some (ascii "bGlnaHQgdw==".toList) := by decide +kernel

example : encode (ascii "light w".toList) (List.replicate 10 0) NO_PAD STANDARD =
    some (ascii "bGlnaHQgdw".toList) := by decide +kernel

/-- Wrong padding is rejected. -/
example : ∃ f, decode_buffer (ascii "bG=n".toList) (List.replicate 3 0) DEFAULT_PAD STANDARD = some (.error f) :=
  ⟨.INVALID_CHARACTER, by decide +kernel⟩

end C3.Base64
