import Verif.Hex.Lemmas

/-!
# Property C33: `std::encoding::hex`

`some` says that no access leaves a buffer.  The hypotheses on the lengths are the contracts of the
functions.
-/

set_option autoImplicit false

namespace C3.Hex
open C3.Codec

/-- C33: the encoder writes the two lower case digits of each byte, in `encode_len` characters. -/
theorem C33_encode (src dst : List Byte) (hdst : dst.length ≥ encode_len src.length) :
    ∃ ss, Encodes 4 src ss ∧ (ss.map lower).length = encode_len src.length ∧
      encode_bytes src dst =
        some (ss.map lower ++ dst.drop (encode_len src.length), encode_len src.length) := by
  refine ⟨syms src, syms_encodes src, ?_, encode_spec src dst hdst⟩
  rw [List.length_map, syms_length, encode_len, Nat.mul_comm]

/-- C33: decoding succeeds exactly if all characters are hexadecimal digits of either case, and gives
the bytes they denote; otherwise it returns the fault. -/
theorem C33_decode (src dst : List Byte) (heven : src.length % 2 = 0)
    (hdst : dst.length ≥ decode_len src.length) :
    (∃ ss bs, src.map digitVal = ss.map some ∧ Decodes 4 ss bs ∧
      decode_bytes src dst = some (.ok (bs ++ dst.drop bs.length, bs.length))) ∨
    ((∃ c ∈ src, digitVal c = none) ∧ decode_bytes src dst = some (.error .INVALID_CHARACTER)) := by
  unfold decode_len at hdst
  have := decLoop_spec (src.length / 2) src [] [] dst (by omega) rfl hdst
  simpa [decode_bytes] using this

/-- C33: decoding an encoded byte string gives it back, through any pair of large enough buffers. -/
theorem C33_roundtrip (src d1 d2 : List Byte) (h1 : d1.length ≥ encode_len src.length)
    (h2 : d2.length ≥ src.length) :
    ∃ out n, encode_bytes src d1 = some (out, n) ∧ (out.take n).length % 2 = 0 ∧
      decode_bytes (out.take n) d2 = some (.ok (src ++ d2.drop src.length, src.length)) := by
  refine ⟨_, _, encode_spec src d1 h1, ?_⟩
  have hlen : ((syms src).map lower).length = encode_len src.length := by
    rw [List.length_map, syms_length, encode_len, Nat.mul_comm]
  rw [List.take_left' hlen]
  have hev : ((syms src).map lower).length % 2 = 0 := by rw [hlen, encode_len]; omega
  refine ⟨hev, ?_⟩
  have hmap : ((syms src).map lower).map digitVal = (syms src).map some := by
    rw [List.map_map]
    apply List.map_congr_left
    intro s hs
    exact digitVal_lower ((syms_encodes src).2.2.1 s hs)
  rcases C33_decode ((syms src).map lower) d2 hev (by rw [hlen, encode_len, decode_len]; omega) with
    ⟨ss, bs, e1, e2, e3⟩ | ⟨⟨c, e1, e2⟩, -⟩
  · rw [hmap] at e1
    have : syms src = ss := (List.map_inj_right (fun a b h => by simpa using h)).1 e1
    subst this
    have : bs = src := e2.unique ((syms_encodes src).decodes (by omega))
    rw [this] at e3
    exact e3
  · have : digitVal c ∈ ((syms src).map lower).map digitVal := List.mem_map_of_mem e1
    rw [hmap, e2] at this
    simp at this

/-- C33, as the API has it: with the allocating functions, whatever the allocated memory held. -/
theorem C33_api (src f1 f2 : List Byte) (h1 : f1.length = encode_len src.length) :
    ∃ t, encode src f1 = some t ∧
      (f2.length = decode_len t.length → decode t f2 = some (.ok src)) := by
  have hlen : ((syms src).map lower).length = encode_len src.length := by
    rw [List.length_map, syms_length, encode_len, Nat.mul_comm]
  refine ⟨(syms src).map lower, ?_, ?_⟩
  · unfold encode
    rw [if_neg (by omega), encode_spec src f1 (by omega), Option.map_some, List.take_left' hlen]
  · intro hf
    obtain ⟨out, n, e1, -, e3⟩ := C33_roundtrip src f1 f2 (by omega) (by
      rw [hf, hlen, encode_len, decode_len]; omega)
    rw [encode_spec src f1 (by omega), Option.some.injEq, Prod.mk.injEq] at e1
    rw [← e1.1, ← e1.2, List.take_left' hlen] at e3
    unfold decode
    rw [if_neg (by omega), e3]
    simp [Except.map]

/-! ## Examples -/

example : encode [0x4f, 0xa0] [0, 0, 0, 0] = some (ascii ['4', 'f', 'a', '0']) := by decide +kernel

/-- Upper case digits. -/
example : decode (ascii ['4', 'F', 'A', '0']) [0, 0] = some (.ok [0x4f, 0xa0]) := by decide +kernel

example : decode (ascii ['4', 'g']) [0] = some (.error .INVALID_CHARACTER) := by decide +kernel

example : ∃ t, encode [1, 2, 255] (List.replicate 6 7) = some t ∧
    ((List.replicate 3 9).length = decode_len t.length → decode t (List.replicate 3 9) = some (.ok [1, 2, 255])) :=
  C33_api [1, 2, 255] (List.replicate 6 7) (List.replicate 3 9) (by decide)

end C3.Hex
