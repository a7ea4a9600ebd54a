import Verif.Checksum.Model
import Verif.Checksum.LemmasPoly

/-! # The tables are remainders -/

set_option autoImplicit false

namespace C3.Checksum

open Polynomial

/-! ## CRC-32 -/

/-- One bit of the division, reflected. -/
def up1 (u : BitVec 32) : BitVec 32 := (u >>> 1) ^^^ (if u.getLsbD 0 then 0xEDB88320 else 0)

def up8 (u : BitVec 32) : BitVec 32 := up1 (up1 (up1 (up1 (up1 (up1 (up1 (up1 u)))))))

theorem G32_eq : G32 = X ^ 32 + poly (bitsUp (0xEDB88320 : BitVec 32)) := by
  have : bitsUp (0xEDB88320 : BitVec 32) = [false, false, false, false, false, true, false, false,
    true, true, false, false, false, false, false, true, false, false, false, true, true, true,
    false, true, true, false, true, true, false, true, true, true] := by decide
  rw [this, G32]
  simp [poly]
  ring

theorem G64_eq : G64 = X ^ 64 + poly (bitsDown (0x42f0e1eba9ea3693 : BitVec 64)) := by
  have : bitsDown (0x42f0e1eba9ea3693 : BitVec 64) = [
    false, true, false, false, false, false, true, false,
    true, true, true, true, false, false, false, false,
    true, true, true, false, false, false, false, true,
    true, true, true, false, true, false, true, true,
    true, false, true, false, true, false, false, true,
    true, true, true, false, true, false, true, false,
    false, false, true, true, false, true, true, false,
    true, false, false, true, false, false, true, true] := by decide
  rw [this, G64]
  simp [poly]
  ring

theorem degree_gen {p : (ZMod 2)[X]} {n : Nat} (h : p.degree < n) :
    (X ^ n + p).Monic ∧ (X ^ n + p).degree = (n : WithBot ℕ) := by
  refine ⟨monic_X_pow_add h, ?_⟩
  rw [degree_add_eq_left_of_degree_lt (by rw [degree_X_pow]; exact h), degree_X_pow]

theorem gen32_lt : (poly (bitsUp (0xEDB88320 : BitVec 32))).degree < ((32 : ℕ) : WithBot ℕ) := by
  have := poly_degree (bitsUp (0xEDB88320 : BitVec 32))
  rwa [bitsUp_length] at this

theorem gen64_lt :
    (poly (bitsDown (0x42f0e1eba9ea3693 : BitVec 64))).degree < ((64 : ℕ) : WithBot ℕ) := by
  have := poly_degree (bitsDown (0x42f0e1eba9ea3693 : BitVec 64))
  rwa [bitsDown_length] at this

theorem G32_monic : G32.Monic := by
  rw [G32_eq]; exact (degree_gen gen32_lt).1

theorem G32_degree : G32.degree = ((32 : ℕ) : WithBot ℕ) := by
  rw [G32_eq]; exact (degree_gen gen32_lt).2

theorem G64_monic : G64.Monic := by
  rw [G64_eq]; exact (degree_gen gen64_lt).1

theorem G64_degree : G64.degree = ((64 : ℕ) : WithBot ℕ) := by
  rw [G64_eq]; exact (degree_gen gen64_lt).2

theorem G32_zero : G32.coeff 0 = 1 := by simp [G32, coeff_X, coeff_one, coeff_X_pow]
theorem G64_zero : G64.coeff 0 = 1 := by simp [G64, coeff_X, coeff_one, coeff_X_pow]

theorem up1_poly (u : BitVec 32) : G32 ∣ poly (bitsUp (up1 u)) - X * poly (bitsUp u) := by
  have hs : bitsUp u = (bitsUp u)[0]'(by simp [bitsUp]) :: (bitsUp u).drop 1 := by
    exact (List.cons_getElem_drop_succ (l := bitsUp u) (n := 0) (h := by simp [bitsUp])).symm
  have h1 : poly (bitsUp (u >>> 1)) = X * poly ((bitsUp u).drop 1) := by
    rw [bitsUp_shift (by omega), poly_pad, pow_one]
  have h0 : poly (bitsUp u) = (if u.getLsbD 0 then X ^ 31 else 0) + poly ((bitsUp u).drop 1) := by
    conv => lhs; rw [hs]
    rw [poly, bitsUp_get]
    simp [bitsUp_length]
  have hz : poly (bitsUp (0 : BitVec 32)) = 0 := poly_false 32
  rw [up1, up_xor, h1, h0, G32_eq]
  split
  · refine ⟨1, ?_⟩
    have := two_zero (X ^ 32)
    linear_combination -this
  · rw [hz]; exact ⟨0, by ring⟩

theorem up8_poly (u : BitVec 32) : G32 ∣ poly (bitsUp (up8 u)) - X ^ 8 * poly (bitsUp u) := by
  unfold up8
  obtain ⟨q1, h1⟩ := up1_poly u
  generalize up1 u = u1 at *
  obtain ⟨q2, h2⟩ := up1_poly u1
  generalize up1 u1 = u2 at *
  obtain ⟨q3, h3⟩ := up1_poly u2
  generalize up1 u2 = u3 at *
  obtain ⟨q4, h4⟩ := up1_poly u3
  generalize up1 u3 = u4 at *
  obtain ⟨q5, h5⟩ := up1_poly u4
  generalize up1 u4 = u5 at *
  obtain ⟨q6, h6⟩ := up1_poly u5
  generalize up1 u5 = u6 at *
  obtain ⟨q7, h7⟩ := up1_poly u6
  generalize up1 u6 = u7 at *
  obtain ⟨q8, h8⟩ := up1_poly u7
  generalize up1 u7 = u8 at *
  refine ⟨q8 + X * q7 + X^2 * q6 + X^3 * q5 + X^4 * q4 + X^5 * q3 + X^6 * q2 + X^7 * q1, ?_⟩
  linear_combination h8 + X * h7 + X^2 * h6 + X^3 * h5 + X^4 * h4 + X^5 * h3 + X^6 * h2 + X^7 * h1

theorem table32_eq : ∀ k : Fin 256, table32.getD k.val 0 = up8 (BitVec.ofNat 32 k.val) := by
  decide +kernel

theorem step32_eq (s : BitVec 32) (x : Byte) :
    step32 s x = (s >>> 8) ^^^ up8 ((s ^^^ x.zeroExtend 32) &&& 0xFF) := by
  have hk : ((s ^^^ x.zeroExtend 32) &&& 0xFF).toNat < 256 := by
    rw [BitVec.toNat_and]
    exact Nat.lt_of_le_of_lt Nat.and_le_right (by decide)
  have := table32_eq ⟨_, hk⟩
  simp only at this
  rw [step32, this, BitVec.ofNat_toNat, BitVec.setWidth_eq]

theorem low_up (s : BitVec 32) (x : Byte) :
    bitsUp ((s ^^^ x.zeroExtend 32) &&& 0xFF) =
      List.zipWith xor ((bitsUp s).take 8) (bitsUp x) ++ List.replicate 24 false := by
  apply List.ext_getElem
  · simp [bitsUp]
  · intro i h1 h2
    have h1' : i < 32 := by simpa [bitsUp] using h1
    rw [bitsUp_get, BitVec.getLsbD_and, BitVec.getLsbD_xor]
    have hff : (0xFF : BitVec 32).getLsbD i = decide (i < 8) := by
      have : ∀ i : Fin 32, (0xFF : BitVec 32).getLsbD i.val = decide (i.val < 8) := by decide
      exact this ⟨i, h1'⟩
    rw [hff]
    by_cases hi : i < 8
    · rw [List.getElem_append_left (by simp [bitsUp]; omega), List.getElem_zipWith,
        List.getElem_take, bitsUp_get, bitsUp_get]
      simp [hi, h1']
    · rw [List.getElem_append_right (by simp [bitsUp]; omega), List.getElem_replicate]
      simp [hi]

theorem step32_poly (s : BitVec 32) (x : Byte) :
    G32 ∣ poly (bitsUp (step32 s x)) - (X ^ 8 * poly (bitsUp s) + X ^ 32 * poly (bitsUp x)) := by
  obtain ⟨q, hq⟩ := up8_poly ((s ^^^ x.zeroExtend 32) &&& 0xFF)
  refine ⟨q, ?_⟩
  rw [← hq, step32_eq, up_xor, low_up, bitsUp_shift (by omega), poly_pad, poly_pad,
    poly_xor _ _ (by simp [bitsUp])]
  have hs : poly (bitsUp s) = X ^ 24 * poly ((bitsUp s).take 8) + poly ((bitsUp s).drop 8) := by
    conv => lhs; rw [← List.take_append_drop 8 (bitsUp s)]
    rw [poly_append]
    simp [bitsUp_length]
  rw [hs]
  ring

/-! ## CRC-64 -/

/-- One bit of the division. -/
def dn1 (u : BitVec 64) : BitVec 64 :=
  (u <<< 1) ^^^ (if u.getLsbD 63 then 0x42f0e1eba9ea3693 else 0)

def dn8 (u : BitVec 64) : BitVec 64 := dn1 (dn1 (dn1 (dn1 (dn1 (dn1 (dn1 (dn1 u)))))))

theorem dn1_poly (u : BitVec 64) : G64 ∣ poly (bitsDown (dn1 u)) - X * poly (bitsDown u) := by
  have hs : bitsDown u = (bitsDown u)[0]'(by simp [bitsDown]) :: (bitsDown u).drop 1 := by
    exact (List.cons_getElem_drop_succ (l := bitsDown u) (n := 0) (h := by simp [bitsDown])).symm
  have h1 : poly (bitsDown (u <<< 1)) = X * poly ((bitsDown u).drop 1) := by
    rw [bitsDown_shift (by omega), poly_pad, pow_one]
  have h0 : poly (bitsDown u) = (if u.getLsbD 63 then X ^ 63 else 0) + poly ((bitsDown u).drop 1) := by
    conv => lhs; rw [hs]
    rw [poly, bitsDown_get]
    simp [bitsDown_length]
  have hz : poly (bitsDown (0 : BitVec 64)) = 0 := poly_false 64
  rw [dn1, down_xor, h1, h0, G64_eq]
  split
  · refine ⟨1, ?_⟩
    have := two_zero (X ^ 64)
    linear_combination -this
  · rw [hz]; exact ⟨0, by ring⟩

theorem dn8_poly (u : BitVec 64) : G64 ∣ poly (bitsDown (dn8 u)) - X ^ 8 * poly (bitsDown u) := by
  unfold dn8
  obtain ⟨q1, h1⟩ := dn1_poly u
  generalize dn1 u = u1 at *
  obtain ⟨q2, h2⟩ := dn1_poly u1
  generalize dn1 u1 = u2 at *
  obtain ⟨q3, h3⟩ := dn1_poly u2
  generalize dn1 u2 = u3 at *
  obtain ⟨q4, h4⟩ := dn1_poly u3
  generalize dn1 u3 = u4 at *
  obtain ⟨q5, h5⟩ := dn1_poly u4
  generalize dn1 u4 = u5 at *
  obtain ⟨q6, h6⟩ := dn1_poly u5
  generalize dn1 u5 = u6 at *
  obtain ⟨q7, h7⟩ := dn1_poly u6
  generalize dn1 u6 = u7 at *
  obtain ⟨q8, h8⟩ := dn1_poly u7
  generalize dn1 u7 = u8 at *
  refine ⟨q8 + X * q7 + X^2 * q6 + X^3 * q5 + X^4 * q4 + X^5 * q3 + X^6 * q2 + X^7 * q1, ?_⟩
  linear_combination h8 + X * h7 + X^2 * h6 + X^3 * h5 + X^4 * h4 + X^5 * h3 + X^6 * h2 + X^7 * h1

theorem table64_eq : ∀ k : Fin 256,
    table64.getD k.val 0 = dn8 (BitVec.ofNat 64 k.val <<< 56) := by
  decide +kernel

theorem step64_eq (s : BitVec 64) (x : Byte) :
    step64 s x =
      (s <<< 8) ^^^ dn8 ((((s >>> 56) ^^^ x.zeroExtend 64).truncate 8 : Byte).zeroExtend 64 <<< 56) := by
  have := table64_eq ⟨(((s >>> 56) ^^^ x.zeroExtend 64).truncate 8 : Byte).toNat, BitVec.isLt _⟩
  simp only at this
  rw [step64, this, BitVec.ofNat_toNat]

theorem high_down (s : BitVec 64) (x : Byte) :
    bitsDown ((((s >>> 56) ^^^ x.zeroExtend 64).truncate 8 : Byte).zeroExtend 64 <<< 56) =
      List.zipWith xor ((bitsDown s).take 8) (bitsDown x) ++ List.replicate 56 false := by
  apply List.ext_getElem
  · simp [bitsDown]
  · intro i h1 h2
    have h1' : i < 64 := by simpa [bitsDown] using h1
    rw [bitsDown_get]
    by_cases hi : i < 8
    · rw [List.getElem_append_left (by simp [bitsDown]; omega), List.getElem_zipWith,
        List.getElem_take, bitsDown_get, bitsDown_get]
      have a1 : 63 - i < 64 := by omega
      have a2 : ¬ (63 - i < 56) := by omega
      have a3 : 63 - i - 56 = 7 - i := by omega
      have a4 : 7 - i < 8 := by omega
      have a5 : 7 - i < 64 := by omega
      have a6 : 56 + (7 - i) = 63 - i := by omega
      simp [a1, a2, a3, a4, a5, a6]
    · rw [List.getElem_append_right (by simp [bitsDown]; omega), List.getElem_replicate]
      have a2 : 63 - i < 56 := by omega
      simp [a2]

theorem step64_poly (s : BitVec 64) (x : Byte) :
    G64 ∣ poly (bitsDown (step64 s x)) -
      (X ^ 8 * poly (bitsDown s) + X ^ 64 * poly (bitsDown x)) := by
  obtain ⟨q, hq⟩ := dn8_poly
    ((((s >>> 56) ^^^ x.zeroExtend 64).truncate 8 : Byte).zeroExtend 64 <<< 56)
  refine ⟨q, ?_⟩
  rw [← hq, step64_eq, down_xor, high_down, bitsDown_shift (by omega), poly_pad, poly_pad,
    poly_xor _ _ (by simp [bitsDown])]
  have hs : poly (bitsDown s) = X ^ 56 * poly ((bitsDown s).take 8) + poly ((bitsDown s).drop 8) := by
    conv => lhs; rw [← List.take_append_drop 8 (bitsDown s)]
    rw [poly_append]
    simp [bitsDown_length]
  rw [hs]
  ring

end C3.Checksum
