import Verif.Bigint.LemmasShift
import Mathlib.Tactic.Ring
import Mathlib.Tactic.Linarith

/-! Helper lemmas: multiplication and comparison. -/

namespace C3.Bigint

theorem LO32_toNat (x : BitVec 64) : (LO32 x).toNat = x.toNat % 2 ^ 32 := by
  unfold LO32
  rw [BitVec.toNat_and]
  exact Nat.and_two_pow_sub_one_eq_mod x.toNat 32

theorem HI32_toNat (x : BitVec 64) : (HI32 x).toNat = x.toNat / 2 ^ 32 := by
  unfold HI32
  rw [BitVec.toNat_ushiftRight, Nat.shiftRight_eq_div_pow]

theorem mul_bound {a b : Nat} (ha : a < 2 ^ 32) (hb : b < 2 ^ 32) :
    a * b ≤ (2 ^ 32 - 1) * (2 ^ 32 - 1) :=
  Nat.mul_le_mul (by omega) (by omega)

theorem u_mult64 (u v : BitVec 64) : (int64_mult u v).u = u.toNat * v.toNat := by
  have hu := u.isLt
  have hv := v.isLt
  unfold int64_mult Int128.u
  simp only [BitVec.toNat_add, BitVec.toNat_mul, LO32_toNat, HI32_toNat, BitVec.toNat_ushiftRight,
    BitVec.toNat_shiftLeft, Nat.shiftRight_eq_div_pow, Nat.shiftLeft_eq]
  obtain ⟨u0, u1, hu0, hu1, hueq⟩ : ∃ u0 u1, u0 < 2 ^ 32 ∧ u1 < 2 ^ 32 ∧ u.toNat = u1 * 2 ^ 32 + u0 :=
    ⟨u.toNat % 2 ^ 32, u.toNat / 2 ^ 32, by omega, by omega, by omega⟩
  obtain ⟨v0, v1, hv0, hv1, hveq⟩ : ∃ v0 v1, v0 < 2 ^ 32 ∧ v1 < 2 ^ 32 ∧ v.toNat = v1 * 2 ^ 32 + v0 :=
    ⟨v.toNat % 2 ^ 32, v.toNat / 2 ^ 32, by omega, by omega, by omega⟩
  have e1 : u.toNat % 2 ^ 32 = u0 := by omega
  have e2 : v.toNat % 2 ^ 32 = v0 := by omega
  have e3 : u.toNat / 2 ^ 32 = u1 := by omega
  have e4 : v.toNat / 2 ^ 32 = v1 := by omega
  rw [e1, e2, e3, e4, hueq, hveq]
  have b00 := mul_bound hu0 hv0
  have b01 := mul_bound hu0 hv1
  have b10 := mul_bound hu1 hv0
  have b11 := mul_bound hu1 hv1
  have ex : (u1 * 2 ^ 32 + u0) * (v1 * 2 ^ 32 + v0) =
    (u1 * v1) * 2 ^ 64 + (u1 * v0) * 2 ^ 32 + (u0 * v1) * 2 ^ 32 + u0 * v0 := by ring
  rw [ex]
  clear ex e1 e2 e3 e4 hueq hveq hu hv
  generalize u0 * v0 = p00 at *
  generalize u0 * v1 = p01 at *
  generalize u1 * v0 = p10 at *
  generalize u1 * v1 = p11 at *
  omega

theorem u_mult (a b : Int128) : (i128_mult a b).u = a.u * b.u % 2 ^ 128 := by
  have h := u_mult64 a.low b.low
  unfold i128_mult
  generalize int64_mult a.low b.low = m at *
  have h1 := m.low.isLt
  have h2 := m.high.isLt
  unfold Int128.u at h ⊢
  simp only [BitVec.toNat_add, BitVec.toNat_mul]
  generalize m.high.toNat = mh at *
  generalize m.low.toNat = ml at *
  generalize a.high.toNat = ah at *
  generalize a.low.toNat = al at *
  generalize b.high.toNat = bh at *
  generalize b.low.toNat = bl at *
  have ex : (ah * 2 ^ 64 + al) * (bh * 2 ^ 64 + bl)
    = (ah * bh) * 2 ^ 128 + (ah * bl) * 2 ^ 64 +
      (al * bh) * 2 ^ 64 + al * bl := by ring
  rw [ex, ← h]; clear ex h
  obtain ⟨p, hp⟩ : ∃ p, ah * bh = p := ⟨_, rfl⟩
  obtain ⟨q, hq⟩ : ∃ p, ah * bl = p := ⟨_, rfl⟩
  obtain ⟨r, hr⟩ : ∃ p, al * bh = p := ⟨_, rfl⟩
  rw [hp, hq, hr]; clear hp hq hr
  omega

theorem u_mult64' (a : Int128) (b : BitVec 64) :
    (i128_mult64 a b).u = a.u * b.toNat % 2 ^ 128 := by
  have h := u_mult64 a.low b
  unfold i128_mult64
  generalize int64_mult a.low b = m at *
  have h1 := m.low.isLt
  have h2 := m.high.isLt
  unfold Int128.u at h ⊢
  simp only [BitVec.toNat_add, BitVec.toNat_mul]
  generalize m.high.toNat = mh at *
  generalize m.low.toNat = ml at *
  generalize a.high.toNat = ah at *
  generalize a.low.toNat = al at *
  generalize b.toNat = bl at *
  have ex : (ah * 2 ^ 64 + al) * bl
    = (ah * bl) * 2 ^ 64 + al * bl := by ring
  rw [ex, ← h]; clear ex h
  obtain ⟨q, hq⟩ : ∃ p, ah * bl = p := ⟨_, rfl⟩
  rw [hq]; clear hq
  omega

theorem ucomp_spec (a b : Int128) : i128_ucomp a b = cmpInt a.u b.u := by
  have := a.high.isLt; have := a.low.isLt
  have := b.high.isLt; have := b.low.isLt
  unfold i128_ucomp cmpInt Int128.u
  simp only [GT.gt, BitVec.lt_def, ← BitVec.toNat_inj]
  split_ifs <;> first | rfl | omega

theorem topbit (x : BitVec 64) : (x &&& 0x8000000000000000#64 = 0#64) ↔ x.toNat < 2 ^ 63 := by
  rw [← BitVec.toNat_inj, BitVec.toNat_and]
  have h : x.toNat &&& (0x8000000000000000#64).toNat = (x.toNat.testBit 63).toNat * 2 ^ 63 :=
    Nat.and_two_pow x.toNat 63
  rw [h]
  have hx := x.isLt
  by_cases h2 : x.toNat < 2 ^ 63
  · rw [Nat.testBit_lt_two_pow h2]; simp; omega
  · have : x.toNat.testBit 63 = true := by
      rw [Nat.testBit_eq_decide_div_mod_eq]
      have : x.toNat / 2 ^ 63 % 2 = 1 := by omega
      rw [this]; rfl
    rw [this]; simp; omega

theorem isneg_high (x : Int128) : ISNEG x.high = decide (x.s < 0) := by
  have := x.high.isLt; have := x.low.isLt
  rw [isneg_iff]
  unfold Int128.s Int128.u
  rw [decide_eq_decide]
  split_ifs <;> omega

theorem high_lt (x : Int128) : x.high.toNat < 2 ^ 63 ↔ 0 ≤ x.s := by
  have := x.high.isLt; have := x.low.isLt
  unfold Int128.s Int128.u
  split_ifs <;> omega

theorem scomp_spec (a b : Int128) : i128_scomp a b = cmpInt a.s b.s := by
  have := a.high.isLt; have := a.low.isLt
  have := b.high.isLt; have := b.low.isLt
  unfold i128_scomp
  have ha : ((a.high &&& 0x8000000000000000#64) != 0) = decide (2 ^ 63 ≤ a.high.toNat) := by
    rw [Bool.eq_iff_iff]; have := topbit a.high; simp at this ⊢; rw [this]; omega
  have hb : ((b.high &&& 0x8000000000000000#64) != 0) = decide (2 ^ 63 ≤ b.high.toNat) := by
    rw [Bool.eq_iff_iff]; have := topbit b.high; simp at this ⊢; rw [this]; omega
  simp only [ha, hb]
  unfold cmpInt Int128.s Int128.u
  simp only [GT.gt, BitVec.lt_def, ← BitVec.toNat_inj]
  by_cases h1 : 2 ^ 63 ≤ a.high.toNat <;> by_cases h2 : 2 ^ 63 ≤ b.high.toNat <;>
    simp only [h1, h2, decide_true, decide_false] <;> simp <;>
    split_ifs <;> first | rfl | omega

theorem from_signed_s (x : BitVec 64) : (i128_from_signed x).s = x.toInt := by
  unfold i128_from_signed
  have hx := x.isLt
  rw [BitVec.toInt_eq_toNat_cond]
  have : x.slt 0 = decide (2 ^ 63 ≤ x.toNat) := by
    exact (BitVec.slt_zero_eq_msb).trans (BitVec.msb_eq_decide x)
  rw [this]
  unfold Int128.s Int128.u UINT64_MAX
  by_cases h : 2 ^ 63 ≤ x.toNat
  · have e : (BitVec.allOnes 64).toNat = 2 ^ 64 - 1 := by decide
    simp only [h, decide_true, ↓reduceIte, e]
    split_ifs <;> omega
  · have e : (0 : BitVec 64).toNat = 0 := by decide
    simp only [h, decide_false, e, Bool.false_eq_true, ↓reduceIte]
    split_ifs <;> omega

theorem is_zero_spec (a : Int128) : i128_is_zero a = decide (a.u = 0) := by
  unfold i128_is_zero Int128.u
  rw [decide_eq_decide, ← BitVec.toNat_inj, ← BitVec.toNat_inj]
  simp

theorem s_range (a : Int128) : -2 ^ 127 ≤ a.s ∧ a.s < 2 ^ 127 := by
  have := a.u_lt
  unfold Int128.s; split <;> omega

theorem s_dvd (a : Int128) : ((2 : Int) ^ 128) ∣ a.s - a.u := by
  unfold Int128.s; split <;> omega

theorem s_neg_eq (a : Int128) (h : a.s ≠ -2 ^ 127) : (i128_neg a).s = - a.s := by
  have := a.u_lt
  unfold Int128.s at *
  rw [u_neg]
  split_ifs at h ⊢ <;> omega

end C3.Bigint
