import Verif.Checksum.LemmasCrc
import Verif.Checksum.LemmasSum

/-! # What the checksums are and what they detect -/

set_option autoImplicit false

namespace C3.Checksum

open Polynomial

/-! ## C104: CRC-32 -/

/-- `crc32::hash` is the CRC-32 of IEEE 802.3: the bits of the message in the order of the
transmission (the lowest of a byte first) are the coefficients of a polynomial, its first 32 bits
are complemented, and the complement of the result is the remainder of it times `X^32` by the
generator. -/
theorem C104_remainder (data : List Byte) :
    poly (bitsUp (~~~ hash32 data)) =
      (X ^ 32 * poly (data.flatMap bitsUp) + X ^ (8 * data.length) * poly (List.replicate 32 true))
        %ₘ G32 := by
  have h := crc_fold G32 (fun s => poly (bitsUp s)) bitsUp bitsUp_length step32 step32_poly data (~~~0)
  have e : bitsUp (~~~(0 : BitVec 32)) = List.replicate 32 true := by decide
  simp only [e] at h
  rw [hash32, BitVec.not_not]
  apply mod_of_dvd G32_monic
  · rw [G32_degree]
    have := poly_degree (bitsUp (data.foldl step32 (~~~0)))
    rwa [bitsUp_length] at this
  · rw [add_comm (X ^ 32 * _)]; exact h

/-- The check value of the standard. -/
example : hash32 [0x31, 0x32, 0x33, 0x34, 0x35, 0x36, 0x37, 0x38, 0x39] = 0xCBF43926 := by
  decide +kernel

/-- A message in parts, byte by byte or continued from the checksum of what came before: all the
same. -/
theorem C104_stream (a b : List Byte) :
    final32 (update32 (update32 (init32 0) a) b) = hash32 (a ++ b) ∧
    final32 (update32 (init32 (hash32 a)) b) = hash32 (a ++ b) ∧
    ∀ c, update32 (update32 (init32 0) a) [c] = step32 (update32 (init32 0) a) c := by
  refine ⟨?_, ?_, fun c => rfl⟩
  · simp [final32, update32, init32, hash32, List.foldl_append]
  · simp [final32, update32, init32, hash32, List.foldl_append]

example : final32 (update32 (init32 (hash32 [0x31, 0x32])) [0x33]) = 0x884863D2 := by decide +kernel

theorem crc_equal {w : Nat} (G : (ZMod 2)[X]) (P : BitVec w → List Bool)
    (hP : ∀ s, (P s).length = w) (hinj : ∀ a b, P a = P b → a = b) (hG : G.degree = w)
    (hc : G.coeff 0 = 1)
    (M : BitVec 8 → List Bool) (hM : ∀ c, (M c).length = 8)
    (step : BitVec w → BitVec 8 → BitVec w)
    (h : ∀ s c, G ∣ poly (P (step s c)) - (X ^ 8 * poly (P s) + X ^ w * poly (M c)))
    (a b : List (BitVec 8)) (hl : a.length = b.length) (s : BitVec w) :
    a.foldl step s = b.foldl step s ↔ G ∣ poly (a.flatMap M) - poly (b.flatMap M) := by
  obtain ⟨q1, h1⟩ := crc_fold G (fun s => poly (P s)) M hM step h a s
  obtain ⟨q2, h2⟩ := crc_fold G (fun s => poly (P s)) M hM step h b s
  rw [hl] at h1
  have hcop : IsCoprime G ((X : (ZMod 2)[X]) ^ w) := by
    refine IsCoprime.pow_right ⟨1, -G.divX, ?_⟩
    have := G.divX_mul_X_add
    rw [hc] at this
    simp only [map_one] at this
    linear_combination -this
  constructor
  · intro e
    rw [e] at h1
    refine hcop.dvd_of_dvd_mul_left ⟨q2 - q1, ?_⟩
    linear_combination h2 - h1
  · rintro ⟨q, hq⟩
    have hd : G ∣ poly (List.zipWith xor (P (a.foldl step s)) (P (b.foldl step s))) := by
      rw [poly_xor _ _ (by rw [hP, hP])]
      refine ⟨q1 - q2 + X ^ w * q, ?_⟩
      have := two_zero (poly (P (b.foldl step s)))
      linear_combination h1 - h2 + X ^ w * hq + this
    have hz := small_multiple (n := 0) hc (e := poly (List.zipWith xor (P (a.foldl step s)) (P (b.foldl step s))))
      (by rw [hG]; simpa [hP] using poly_degree (List.zipWith xor (P (a.foldl step s)) (P (b.foldl step s))))
      (by simpa using hd)
    rw [poly_xor _ _ (by rw [hP, hP])] at hz
    apply hinj
    apply poly_inj _ _ (by rw [hP, hP])
    have := two_zero (poly (P (b.foldl step s)))
    linear_combination hz - this

theorem burst_gen {w : Nat} (G : (ZMod 2)[X]) (hG : G.degree = w)
    (hc : G.coeff 0 = 1) (M : BitVec 8 → List Bool) (hM : ∀ c, (M c).length = 8)
    (hinj : ∀ a b, M a = M b → a = b)
    (p a b t : List (BitVec 8)) (hl : a.length = b.length) (hw : 8 * a.length ≤ w)
    (h : G ∣ poly ((p ++ a ++ t).flatMap M) - poly ((p ++ b ++ t).flatMap M)) : a = b := by
  simp only [List.flatMap_append, poly_append, flat_length hM] at h
  have hlen : (a.flatMap M).length = (b.flatMap M).length := by rw [flat_length hM, flat_length hM, hl]
  have h2 : G ∣ X ^ (8 * t.length) * poly (List.zipWith xor (a.flatMap M) (b.flatMap M)) := by
    rw [poly_xor _ _ hlen]
    obtain ⟨q, hq⟩ := h
    refine ⟨q, ?_⟩
    rw [hl] at hq
    have := two_zero (X ^ (8 * t.length) * poly (b.flatMap M))
    linear_combination hq + this
  have hz := small_multiple hc (by
    rw [hG]
    refine lt_of_lt_of_le (poly_degree _) ?_
    rw [List.length_zipWith, ← hlen, Nat.min_self, flat_length hM]
    exact_mod_cast hw) h2
  rw [poly_xor _ _ hlen] at hz
  apply flat_inj hM hinj a b hl
  apply poly_inj _ _ hlen
  have := two_zero (poly (b.flatMap M))
  linear_combination hz - this

/-- Two messages of the same length have the same checksum exactly when their difference is a
multiple of the generator. -/
theorem C104_equal (a b : List Byte) (hl : a.length = b.length) :
    hash32 a = hash32 b ↔ G32 ∣ poly (a.flatMap bitsUp) - poly (b.flatMap bitsUp) := by
  rw [← crc_equal G32 bitsUp bitsUp_length bitsUp_inj G32_degree G32_zero bitsUp bitsUp_length
    step32 step32_poly a b hl (~~~0), hash32, hash32]
  constructor
  · intro h; simpa using congrArg (~~~ ·) h
  · intro h; rw [h]

/-- A change of at most four bytes in a row is always detected. -/
theorem C104_burst (p a b t : List Byte) (hl : a.length = b.length) (h4 : a.length ≤ 4)
    (h : hash32 (p ++ a ++ t) = hash32 (p ++ b ++ t)) : a = b := by
  refine burst_gen (w := 32) G32 G32_degree G32_zero bitsUp bitsUp_length bitsUp_inj p a b t hl
    (by omega) ?_
  exact (C104_equal _ _ (by simp [hl])).1 h

example : hash32 ([1, 2] ++ [3, 4, 5, 6] ++ [7]) ≠ hash32 ([1, 2] ++ [9, 9, 9, 9] ++ [7]) :=
  fun h => absurd (C104_burst [1, 2] [3, 4, 5, 6] [9, 9, 9, 9] [7] rfl (by decide) h) (by decide)

/-! ## C105: CRC-64 -/

/-- `crc64::hash` is the CRC-64 of ECMA-182: the remainder of the message times `X^64`, the highest
bit of a byte first. -/
theorem C105_remainder (data : List Byte) :
    poly (bitsDown (hash64 data)) = (X ^ 64 * poly (data.flatMap bitsDown)) %ₘ G64 := by
  have h := crc_fold (w := 64) G64 (fun s => poly (bitsDown s)) bitsDown bitsDown_length step64
    step64_poly data (0 : BitVec 64)
  have e : poly (bitsDown (0 : BitVec 64)) = 0 := poly_false 64
  rw [e, mul_zero, zero_add] at h
  rw [hash64]
  apply mod_of_dvd G64_monic
  · rw [G64_degree]
    have := poly_degree (bitsDown (data.foldl step64 0))
    rwa [bitsDown_length] at this
  · set_option maxRecDepth 4000 in exact h

/-- The check value of the standard. -/
example : hash64 [0x31, 0x32, 0x33, 0x34, 0x35, 0x36, 0x37, 0x38, 0x39] = 0x6C40DF5F0B497347 := by
  decide +kernel

theorem C105_stream (a b : List Byte) :
    update64 (update64 (init64 0) a) b = hash64 (a ++ b) ∧
    ∀ c, update64 (update64 (init64 0) a) [c] = step64 (update64 (init64 0) a) c := by
  refine ⟨?_, fun c => rfl⟩
  simp [update64, init64, hash64, List.foldl_append]

theorem C105_equal (a b : List Byte) (hl : a.length = b.length) :
    hash64 a = hash64 b ↔ G64 ∣ poly (a.flatMap bitsDown) - poly (b.flatMap bitsDown) :=
  crc_equal G64 bitsDown bitsDown_length bitsDown_inj G64_degree G64_zero bitsDown bitsDown_length
    step64 step64_poly a b hl 0

/-- A change of at most eight bytes in a row is always detected. -/
theorem C105_burst (p a b t : List Byte) (hl : a.length = b.length) (h8 : a.length ≤ 8)
    (h : hash64 (p ++ a ++ t) = hash64 (p ++ b ++ t)) : a = b := by
  refine burst_gen (w := 64) G64 G64_degree G64_zero bitsDown bitsDown_length bitsDown_inj p a b t hl
    (by omega) ?_
  exact (C105_equal _ _ (by simp [hl])).1 h

example : hash64 ([] ++ [3, 4, 5, 6, 7, 8, 9, 10] ++ [7]) ≠ hash64 ([] ++ [0, 0, 0, 0, 0, 0, 0, 0] ++ [7]) :=
  fun h => absurd (C105_burst [] [3, 4, 5, 6, 7, 8, 9, 10] [0, 0, 0, 0, 0, 0, 0, 0] [7] rfl (by decide) h) (by decide)

/-! ## C106: Adler-32 -/

/-- `adler32::hash` is the checksum of RFC 1950: the low half is one more than the sum of the bytes
modulo 65521, the high half is the sum modulo 65521 of the values of the low half behind every
byte. No sum overflows whatever the length. -/
theorem C106_adler (data : List Byte) :
    (hashAdler data).toNat =
      ((data.length + byteMoment data) % 65521) * 65536 + (1 + byteSum data) % 65521 := by
  obtain ⟨h1, h2⟩ := adler_fold data (1, 0) (by decide) (by decide)
  have e1 : (1 : BitVec 32).toNat = 1 := rfl
  have e0 : (0 : BitVec 32).toNat = 0 := rfl
  simp only [e1, e0, Nat.mul_one, Nat.zero_add] at h1 h2
  show (((data.foldl stepAdler (1, 0)).2 <<< 16) ||| (data.foldl stepAdler (1, 0)).1).toNat = _
  rw [adler_word _ _ (by rw [h1]; exact Nat.mod_lt _ (by decide))
    (by rw [h2]; exact Nat.mod_lt _ (by decide)), h1, h2]

/-- "Wikipedia". -/
example : hashAdler [0x57, 0x69, 0x6B, 0x69, 0x70, 0x65, 0x64, 0x69, 0x61] = 0x11E60398 := by
  decide +kernel

theorem C106_stream (a b : List Byte) :
    finalAdler (updateAdler (updateAdler initAdler a) b) = hashAdler (a ++ b) ∧
    ∀ c, updateAdler (updateAdler initAdler a) [c] = stepAdler (updateAdler initAdler a) c := by
  refine ⟨?_, fun c => rfl⟩
  simp [finalAdler, updateAdler, initAdler, hashAdler, List.foldl_append]

/-- A change of one byte is always detected. -/
theorem C106_single (p t : List Byte) (x y : Byte)
    (h : hashAdler (p ++ [x] ++ t) = hashAdler (p ++ [y] ++ t)) : x = y := by
  have h2 := congrArg (fun v => v.toNat % 65536) h
  simp only [C106_adler] at h2
  have m1 := Nat.mod_lt (1 + byteSum (p ++ [x] ++ t)) (y := 65521) (by decide)
  have m2 := Nat.mod_lt (1 + byteSum (p ++ [y] ++ t)) (y := 65521) (by decide)
  have h3 : (1 + byteSum (p ++ [x] ++ t)) % 65521 = (1 + byteSum (p ++ [y] ++ t)) % 65521 := by omega
  have ex : byteSum [x] = x.toNat := by simp [byteSum]
  have ey : byteSum [y] = y.toNat := by simp [byteSum]
  rw [byteSum_append, byteSum_append, byteSum_append, byteSum_append, ex, ey] at h3
  have hx := x.isLt
  have hy := y.isLt
  exact BitVec.eq_of_toNat_eq (by omega)

example : hashAdler ([1] ++ [2] ++ [3]) ≠ hashAdler ([1] ++ [9] ++ [3]) :=
  fun h => absurd (C106_single [1] [3] 2 9 h) (by decide)

/-! ## C107: FNV-1a -/

/-- The FNV-1a of a sequence of numbers, with the offset basis and the prime of its width. -/
def fnv1a (bits basis prime : Nat) (data : List Nat) : Nat :=
  data.foldl (fun h x => ((h ^^^ x) * prime) % 2 ^ bits) basis

theorem stepFnv32_toNat (h : BitVec 32) (x : Byte) : (stepFnv32 h x).toNat =
    ((h.toNat ^^^ x.toNat) * (2 ^ 24 + 2 ^ 8 + 0x93)) % 2 ^ 32 := by
  have e : (0x01000193 : BitVec 32).toNat = 2 ^ 24 + 2 ^ 8 + 0x93 := by decide
  rw [stepFnv32, BitVec.toNat_mul, BitVec.toNat_xor, BitVec.toNat_setWidth, e,
    Nat.mod_eq_of_lt (a := x.toNat) (by have := x.isLt; omega)]

theorem stepFnv64_toNat (h : BitVec 64) (x : Byte) : (stepFnv64 h x).toNat =
    ((h.toNat ^^^ x.toNat) * (2 ^ 40 + 2 ^ 8 + 0xb3)) % 2 ^ 64 := by
  have e : (0x00000100000001b3 : BitVec 64).toNat = 2 ^ 40 + 2 ^ 8 + 0xb3 := by decide
  rw [stepFnv64, BitVec.toNat_mul, BitVec.toNat_xor, BitVec.toNat_setWidth, e,
    Nat.mod_eq_of_lt (a := x.toNat) (by have := x.isLt; omega)]

/-- `fnv32a::hash` and `fnv64a::hash` are FNV-1a with the constants of its definition. -/
theorem C107_fnv (data : List Byte) :
    (hashFnv32 data).toNat =
      fnv1a 32 2166136261 (2 ^ 24 + 2 ^ 8 + 0x93) (data.map BitVec.toNat) ∧
    (hashFnv64 data).toNat =
      fnv1a 64 14695981039346656037 (2 ^ 40 + 2 ^ 8 + 0xb3) (data.map BitVec.toNat) := by
  have g32 : ∀ (l : List Byte) (h : BitVec 32), (l.foldl stepFnv32 h).toNat =
      fnv1a 32 h.toNat (2 ^ 24 + 2 ^ 8 + 0x93) (l.map BitVec.toNat) := by
    intro l
    induction l with
    | nil => intro h; rfl
    | cons x l ih =>
      intro h
      rw [List.foldl_cons, ih]
      simp only [fnv1a, List.map_cons, List.foldl_cons]
      rw [stepFnv32_toNat]
  have g64 : ∀ (l : List Byte) (h : BitVec 64), (l.foldl stepFnv64 h).toNat =
      fnv1a 64 h.toNat (2 ^ 40 + 2 ^ 8 + 0xb3) (l.map BitVec.toNat) := by
    intro l
    induction l with
    | nil => intro h; rfl
    | cons x l ih =>
      intro h
      rw [List.foldl_cons, ih]
      simp only [fnv1a, List.map_cons, List.foldl_cons]
      rw [stepFnv64_toNat]
  have e1 : (0x811c9dc5 : BitVec 32).toNat = 2166136261 := by decide
  have e2 : (0xcbf29ce484222325 : BitVec 64).toNat = 14695981039346656037 := by decide
  rw [hashFnv32, hashFnv64, g32, g64, e1, e2]
  exact ⟨rfl, rfl⟩

/-- "a". -/
example : hashFnv32 [0x61] = 0xE40C292C ∧ hashFnv64 [0x61] = 0xAF63DC4C8601EC8C := by decide +kernel

/-- A change of one byte is always detected. -/
theorem C107_single (p t : List Byte) (x y : Byte)
    (h : hashFnv32 (p ++ [x] ++ t) = hashFnv32 (p ++ [y] ++ t) ∨
      hashFnv64 (p ++ [x] ++ t) = hashFnv64 (p ++ [y] ++ t)) : x = y := by
  rcases h with h | h
  · simp only [hashFnv32, List.foldl_append, List.foldl_cons, List.foldl_nil] at h
    exact stepFnv32_byte _ _ _ (fold_inj _ stepFnv32_state t _ _ h)
  · simp only [hashFnv64, List.foldl_append, List.foldl_cons, List.foldl_nil] at h
    exact stepFnv64_byte _ _ _ (fold_inj _ stepFnv64_state t _ _ h)

example : hashFnv32 ([1] ++ [2] ++ [3]) ≠ hashFnv32 ([1] ++ [9] ++ [3]) :=
  fun h => absurd (C107_single [1] [3] 2 9 (Or.inl h)) (by decide)

/-- `Fnv32a.update` of a message in parts, from `Fnv32a.init`, is the hash of the whole. -/
theorem C107_stream (a b : List Byte) :
    b.foldl stepFnv32 (a.foldl stepFnv32 0x811c9dc5) = hashFnv32 (a ++ b) ∧
    b.foldl stepFnv64 (a.foldl stepFnv64 0xcbf29ce484222325) = hashFnv64 (a ++ b) := by
  simp [hashFnv32, hashFnv64, List.foldl_append]

end C3.Checksum
