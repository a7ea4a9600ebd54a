import Verif.I128Rt.Lemmas

/-! # The cases of the unsigned division -/

set_option autoImplicit false

namespace C3.I128Rt

theorem clz_eq (x : Nat) (h0 : x ≠ 0) : clz x = 63 - x.log2 := by rw [clz, if_neg h0]

theorem log2_lt64 (x : Nat) (h0 : x ≠ 0) (h : x < 2 ^ 64) : x.log2 < 64 :=
  (Nat.log2_lt h0).2 h

theorem ctz_pow (k : Nat) : ctz (2 ^ k) = k := by
  induction k with
  | zero => rw [ctz]; rfl
  | succ k ih =>
    rw [ctz, if_neg (by have := Nat.two_pow_pos (k + 1); omega),
      if_neg (by rw [Nat.pow_succ]; omega), Nat.pow_succ, Nat.mul_div_cancel _ (by omega), ih]
    omega

theorem pow2_of_and (x : Nat) (h0 : x ≠ 0) (h : x &&& (x - 1) = 0) : ∃ k, x = 2 ^ k :=
  (Nat.and_sub_one_eq_zero_iff_isPowerOfTwo h0).1 h

theorem all_lt (x : Bits) (hl : x.low < 2 ^ 64) (hh : x.high < 2 ^ 64) : x.all < 2 ^ 128 := by
  simp only [Bits.all]; omega

/-- The dividend shifted down by the difference of the bit lengths plus one is
below the divisor. -/
theorem shifted_lt (n d sr : Nat) (hn : n ≠ 0) (hd : d ≠ 0) (h : n.log2 + 1 ≤ sr + d.log2) :
    n / 2 ^ sr < d := by
  have h1 : n < 2 ^ (n.log2 + 1) := Nat.lt_log2_self
  have h2 : 2 ^ d.log2 ≤ d := Nat.log2_self_le hd
  have h3 : 2 ^ (n.log2 + 1) ≤ 2 ^ (sr + d.log2) := Nat.pow_le_pow_right (by omega) h
  rw [Nat.div_lt_iff_lt_mul (Nat.two_pow_pos _)]
  rw [Nat.pow_add 2 sr] at h3
  have h4 : 2 ^ sr * 2 ^ d.log2 ≤ d * 2 ^ sr := by
    rw [Nat.mul_comm]; exact Nat.mul_le_mul_right _ h2
  exact Nat.lt_of_lt_of_le h1 (Nat.le_trans h3 h4)

theorem log2_all (x : Bits) (hl : x.low < 2 ^ 64) (hh : x.high ≠ 0) :
    x.all.log2 = 64 + x.high.log2 := by
  rw [Nat.log2_eq_iff (by simp only [Bits.all]; omega)]
  have h1 : x.high < 2 ^ (x.high.log2 + 1) := Nat.lt_log2_self
  have h2 : 2 ^ x.high.log2 ≤ x.high := Nat.log2_self_le hh
  have e1 : 2 ^ (64 + x.high.log2) = 2 ^ 64 * 2 ^ x.high.log2 := Nat.pow_add ..
  have e2 : 2 ^ (64 + x.high.log2 + 1) = 2 ^ 64 * 2 ^ (x.high.log2 + 1) := by
    rw [← Nat.pow_add]; congr 1
  rw [e1, e2, Bits.all]
  generalize 2 ^ x.high.log2 = P at *
  generalize 2 ^ (x.high.log2 + 1) = Q at *
  omega

theorem want_lt (rem : Bool) (n D : Nat) (h : n < D) : want rem n D = if rem then n else 0 := by
  cases rem with
  | true => simp [want, Nat.mod_eq_of_lt h]
  | false => simp [want, Nat.div_eq_of_lt h]

/-- A split by less than a word, run through the loop. -/
theorem finish_small (n d : Bits) (rem : Bool) (k : Nat) (hk0 : 0 < k) (hk : k < 64)
    (hnl : n.low < 2 ^ 64) (hnh : n.high < 2 ^ 64) (hdl : d.low < 2 ^ 64) (hdh : d.high < 2 ^ 64)
    (hlt : n.all / 2 ^ k < d.all) (hb : d.all ≤ 2 ^ 127 ∨ (2 ^ 127 ≤ n.all ∧ k = 1)) :
    finish d rem k ⟨0, n.low * 2 ^ (64 - k) % 2 ^ 64⟩
      ⟨n.high * 2 ^ (64 - k) % 2 ^ 64 + n.low / 2 ^ k, n.high / 2 ^ k⟩ =
      some (want rem n.all d.all) := by
  obtain ⟨_, _, _, h4, h5, h6⟩ := split_low n k hk0 hk hnl
  apply finish_eq rem (all_lt n hnl hnh) (all_lt d hdl hdh) rfl (by omega) h4 ?_ ?_ ?_ ?_ ?_ hlt hb
  rotate_left 3
  · show _ * 2 ^ 64 + _ = _
    exact h5
  · show _ * 2 ^ 64 + 0 = _
    rw [Nat.add_zero]; exact h6
  · exact Nat.lt_of_le_of_lt (Nat.div_le_self _ _) hnh
  · show 0 < 2 ^ 64
    omega
  · exact Nat.mod_lt _ (by omega)

/-- A split by a whole word, run through the loop. -/
theorem finish_word (n d : Bits) (rem : Bool)
    (hnl : n.low < 2 ^ 64) (hnh : n.high < 2 ^ 64) (hdl : d.low < 2 ^ 64) (hdh : d.high < 2 ^ 64)
    (hlt : n.all / 2 ^ 64 < d.all) (hb : d.all ≤ 2 ^ 127) :
    finish d rem 64 ⟨0, n.low⟩ ⟨n.high, 0⟩ = some (want rem n.all d.all) := by
  apply finish_eq rem (all_lt n hnl hnh) (all_lt d hdl hdh) rfl (by omega) hnh ?_ ?_ hnl ?_ ?_ hlt
    (Or.inl hb)
  · show 0 < 2 ^ 64
    omega
  · show 0 < 2 ^ 64
    omega
  · show 0 * 2 ^ 64 + n.high = n.all / 2 ^ 64
    simp only [Bits.all]; omega
  · show n.low * 2 ^ 64 + 0 = n.all % 2 ^ 64 * 2 ^ (128 - 64)
    simp only [Bits.all]; omega

theorem pow128_64 : (2 : Nat) ^ (128 - 64) = 2 ^ 64 := rfl

/-- A split by more than a word. -/
theorem finish_large (n d : Bits) (rem : Bool) (k : Nat) (hk0 : 64 < k) (hk : k < 128)
    (hnl : n.low < 2 ^ 64) (hnh : n.high < 2 ^ 64) (hdl : d.low < 2 ^ 64) (hdh : d.high < 2 ^ 64)
    (hlt : n.all / 2 ^ k < d.all) (hb : d.all ≤ 2 ^ 127) :
    (do
      let ql ← shl n.low (128 - k)
      let qh := (← shl n.high (128 - k)) ||| (← shr n.low (k - 64))
      let rl ← shr n.high (k - 64)
      finish d rem k ⟨ql, qh⟩ ⟨rl, 0⟩) = some (want rem n.all d.all) := by
  have hp : 2 ^ (k - 64) * 2 ^ (128 - k) = 2 ^ 64 := by rw [← Nat.pow_add]; congr 1; omega
  have hj := or_join n.high n.low (128 - k) (by omega) hnl
  rw [show 64 - (128 - k) = k - 64 by omega] at hj
  have s1 : shl n.low (128 - k) = some (n.low * 2 ^ (128 - k) % 2 ^ 64) := by
    rw [shl, if_pos (by omega)]
  have s2 : shl n.high (128 - k) = some (n.high * 2 ^ (128 - k) % 2 ^ 64) := by
    rw [shl, if_pos (by omega)]
  have s3 : shr n.low (k - 64) = some (n.low / 2 ^ (k - 64)) := by rw [shr, if_pos (by omega)]
  have s4 : shr n.high (k - 64) = some (n.high / 2 ^ (k - 64)) := by rw [shr, if_pos (by omega)]
  rw [s1, s2, s3, s4]
  simp only [Option.bind_eq_bind, Option.bind_some]
  rw [hj]
  have hPpos := Nat.two_pow_pos (k - 64)
  have hQpos := Nat.two_pow_pos (128 - k)
  have hhigh : n.high * 2 ^ (128 - k) % 2 ^ 64 = (n.high % 2 ^ (k - 64)) * 2 ^ (128 - k) := by
    rw [← hp, Nat.mul_mod_mul_right]
  have hlow : n.low * 2 ^ (128 - k) % 2 ^ 64 = (n.low % 2 ^ (k - 64)) * 2 ^ (128 - k) := by
    rw [← hp, Nat.mul_mod_mul_right]
  have hk2 : 2 ^ k = 2 ^ 64 * 2 ^ (k - 64) := by rw [← Nat.pow_add]; congr 1; omega
  apply finish_eq rem (all_lt n hnl hnh) (all_lt d hdl hdh) rfl (by omega) ?_ ?_ ?_ ?_ ?_ ?_ hlt
    (Or.inl hb)
  · exact Nat.lt_of_le_of_lt (Nat.div_le_self _ _) hnh
  · show 0 < 2 ^ 64
    omega
  · exact Nat.mod_lt _ (by omega)
  · show n.high * 2 ^ (128 - k) % 2 ^ 64 + n.low / 2 ^ (k - 64) < 2 ^ 64
    rw [hhigh]
    have h1 : n.high % 2 ^ (k - 64) < 2 ^ (k - 64) := Nat.mod_lt _ hPpos
    have h2 := Nat.mul_le_mul_right (2 ^ (128 - k)) h1
    rw [hp, Nat.succ_mul] at h2
    have h3 : n.low / 2 ^ (k - 64) < 2 ^ (128 - k) := by
      rw [Nat.div_lt_iff_lt_mul hPpos, Nat.mul_comm, hp]; exact hnl
    omega
  · show 0 * 2 ^ 64 + n.high / 2 ^ (k - 64) = n.all / 2 ^ k
    rw [hk2, ← Nat.div_div_eq_div_mul]
    have : n.all / 2 ^ 64 = n.high := by simp only [Bits.all]; omega
    rw [this]; omega
  · show (n.high * 2 ^ (128 - k) % 2 ^ 64 + n.low / 2 ^ (k - 64)) * 2 ^ 64
        + n.low * 2 ^ (128 - k) % 2 ^ 64 = n.all % 2 ^ k * 2 ^ (128 - k)
    rw [hhigh, hlow]
    have h1 : n.all % 2 ^ k = (n.high % 2 ^ (k - 64)) * 2 ^ 64 + n.low := by
      rw [hk2, Nat.mod_mul]
      have a : n.all / 2 ^ 64 = n.high := by simp only [Bits.all]; omega
      have b : n.all % 2 ^ 64 = n.low := by simp only [Bits.all]; omega
      rw [a, b, Nat.mul_comm]; omega
    have h2 := Nat.div_add_mod n.low (2 ^ (k - 64))
    have h3 : n.low * 2 ^ (128 - k) = n.low / 2 ^ (k - 64) * 2 ^ 64 +
        n.low % 2 ^ (k - 64) * 2 ^ (128 - k) := by
      conv => lhs; rw [← h2]
      rw [Nat.add_mul, Nat.mul_comm (2 ^ (k - 64)), Nat.mul_assoc, hp]
    rw [h1, Nat.add_mul (n.high % 2 ^ (k - 64) * 2 ^ 64), h3, Nat.add_mul,
      Nat.mul_right_comm _ (2 ^ 64)]
    omega

theorem bind3 {α : Type} (n : Bits) (k : Nat) (hk0 : 0 < k) (hk : k < 64) (hnl : n.low < 2 ^ 64)
    (f : Nat → Nat → Nat → Option α) :
    (do
      let qh ← shl n.low (64 - k)
      let rh ← shr n.high k
      let rl := (← shl n.high (64 - k)) ||| (← shr n.low k)
      f qh rh rl) =
      f (n.low * 2 ^ (64 - k) % 2 ^ 64) (n.high / 2 ^ k)
        (n.high * 2 ^ (64 - k) % 2 ^ 64 + n.low / 2 ^ k) := by
  obtain ⟨h1, h2, h3, _⟩ := split_low n k hk0 hk hnl
  have a1 : shl n.high (64 - k) = some (n.high * 2 ^ (64 - k) % 2 ^ 64) := by
    rw [shl, if_pos (by omega)]
  have a2 : shr n.low k = some (n.low / 2 ^ k) := by rw [shr, if_pos hk]
  rw [a1, a2] at h3
  simp only [Option.bind_eq_bind, Option.bind_some, Option.some.injEq] at h3
  rw [h1, h2, a1, a2]
  simp only [Option.bind_eq_bind, Option.bind_some, h3]

theorem bind3' {α : Type} (n : Bits) (k : Nat) (hk0 : 0 < k) (hk : k < 64) (hnl : n.low < 2 ^ 64)
    (f : Nat → Nat → Nat → Option α) :
    (do
      let rh ← shr n.high k
      let rl := (← shl n.high (64 - k)) ||| (← shr n.low k)
      let qh ← shl n.low (64 - k)
      f qh rh rl) =
      f (n.low * 2 ^ (64 - k) % 2 ^ 64) (n.high / 2 ^ k)
        (n.high * 2 ^ (64 - k) % 2 ^ 64 + n.low / 2 ^ k) := by
  obtain ⟨h1, h2, h3, _⟩ := split_low n k hk0 hk hnl
  have a1 : shl n.high (64 - k) = some (n.high * 2 ^ (64 - k) % 2 ^ 64) := by
    rw [shl, if_pos (by omega)]
  have a2 : shr n.low k = some (n.low / 2 ^ k) := by rw [shr, if_pos hk]
  rw [a1, a2] at h3
  simp only [Option.bind_eq_bind, Option.bind_some, Option.some.injEq] at h3
  rw [h1, h2, a1, a2]
  simp only [Option.bind_eq_bind, Option.bind_some, h3]

/-- The shift of the two word cases: either the dividend is smaller, or the
shift brings it below the divisor. -/
theorem sr_cases (n d : Bits) (hnl : n.low < 2 ^ 64) (hnh : n.high < 2 ^ 64)
    (hdl : d.low < 2 ^ 64) (hdh : d.high < 2 ^ 64) (hn : n.high ≠ 0) (hd : d.high ≠ 0) :
    (sub32 (clz d.high) (clz n.high) > 63 ∧ n.all < d.all) ∨
    (sub32 (clz d.high) (clz n.high) = n.high.log2 - d.high.log2 ∧ d.high.log2 ≤ n.high.log2 ∧
      n.all / 2 ^ (n.high.log2 - d.high.log2 + 1) < d.all ∧
      (d.all ≤ 2 ^ 127 ∨ (2 ^ 127 ≤ n.all ∧ n.high.log2 - d.high.log2 + 1 = 1))) := by
  have h1 := log2_lt64 n.high hn hnh
  have h2 := log2_lt64 d.high hd hdh
  have l1 := log2_all n hnl hn
  have l2 := log2_all d hdl hd
  have n0 : n.all ≠ 0 := by simp only [Bits.all]; omega
  have d0 : d.all ≠ 0 := by simp only [Bits.all]; omega
  rw [clz_eq _ hn, clz_eq _ hd]
  by_cases h : d.high.log2 ≤ n.high.log2
  · right
    refine ⟨by unfold sub32; omega, h, shifted_lt _ _ _ n0 d0 (by omega), ?_⟩
    by_cases h3 : d.all ≤ 2 ^ 127
    · exact Or.inl h3
    · right
      have h4 : 63 ≤ d.high.log2 := by
        have : 127 ≤ d.all.log2 := (Nat.le_log2 d0).2 (by omega)
        omega
      refine ⟨?_, by omega⟩
      have := Nat.log2_self_le n0
      rw [l1, show n.high.log2 = 63 by omega] at this
      exact this
  · left
    refine ⟨by unfold sub32; omega, ?_⟩
    have a := @Nat.lt_log2_self n.all
    have b := Nat.log2_self_le d0
    have c : 2 ^ (n.all.log2 + 1) ≤ 2 ^ d.all.log2 := Nat.pow_le_pow_right (by omega) (by omega)
    omega

theorem twoWords_eq (n d : Bits) (rem : Bool) (hnl : n.low < 2 ^ 64) (hnh : n.high < 2 ^ 64)
    (hdl : d.low < 2 ^ 64) (hdh : d.high < 2 ^ 64) (hn : n.high ≠ 0) (hd : d.high ≠ 0) :
    twoWords n d rem = some (want rem n.all d.all) := by
  unfold twoWords
  rcases sr_cases n d hnl hnh hdl hdh hn hd with ⟨h1, h2⟩ | ⟨h1, h2, h3, h4⟩
  · simp only
    rw [if_pos h1, want_lt _ _ _ h2]
  · have h5 := log2_lt64 n.high hn hnh
    rw [h1]
    simp only
    rw [if_neg (by omega)]
    generalize hk : n.high.log2 - d.high.log2 + 1 = k at *
    by_cases h64 : k = 64
    · rw [if_pos h64, h64]
      rw [h64] at h3
      refine finish_word n d rem hnl hnh hdl hdh h3 ?_
      rcases h4 with h4 | h4
      · exact h4
      · omega
    · rw [if_neg h64]
      rw [bind3' n k (by omega) (by omega) hnl (fun qh rh rl => finish d rem k ⟨0, qh⟩ ⟨rl, rh⟩)]
      exact finish_small n d rem k (by omega) (by omega) hnl hnh hdl hdh h3 h4

theorem oneWord_eq (n d : Bits) (rem : Bool) (hnl : n.low < 2 ^ 64) (hnh : n.high < 2 ^ 64)
    (hdl : d.low < 2 ^ 64) (hdh : d.high = 0) (hn : n.high ≠ 0) (hd : d.low ≠ 0) :
    oneWord n d rem = some (want rem n.all d.all) := by
  have hda : d.all = d.low := by simp only [Bits.all]; omega
  unfold oneWord
  by_cases hp : d.low &&& (d.low - 1) = 0
  · rw [if_pos hp]
    obtain ⟨k, hk⟩ := pow2_of_and _ hd hp
    have hk64 : k < 64 := by
      rw [hk] at hdl
      exact (Nat.pow_lt_pow_iff_right (by omega)).1 hdl
    cases rem with
    | true =>
      simp only [if_true, want]
      rw [hda, hk, Nat.and_two_pow_sub_one_eq_mod]
      have : n.all = 2 ^ k * (n.high * 2 ^ (64 - k)) + n.low := by
        rw [Bits.all, ← pow_split k (by omega), Nat.mul_left_comm]
      rw [this, Nat.mul_add_mod]
    | false =>
      simp only [want, Bool.false_eq_true, if_false]
      by_cases h1 : d.low = 1
      · rw [if_pos h1, hda, h1, Nat.div_one]
      · rw [if_neg h1]
        have hk0 : 0 < k := by
          rcases Nat.eq_zero_or_pos k with h | h
          · rw [h] at hk; simp at hk; omega
          · exact h
        have hctz : ctz d.low = k := by rw [hk, ctz_pow]
        rw [hctz]
        obtain ⟨a1, a2, a3, a4, a5, a6⟩ := split_low n k hk0 hk64 hnl
        have b1 : shl n.high (64 - k) = some (n.high * 2 ^ (64 - k) % 2 ^ 64) := by
          rw [shl, if_pos (by omega)]
        have b2 : shr n.low k = some (n.low / 2 ^ k) := by rw [shr, if_pos hk64]
        rw [b1, b2] at a3
        simp only [Option.bind_eq_bind, Option.bind_some, Option.some.injEq] at a3
        rw [a1, b1, b2]
        simp only [Option.bind_eq_bind, Option.bind_some, a3]
        rw [hda, hk, ← a5]; rfl
  · rw [if_neg hp]
    have hd2 : 1 ≤ d.low.log2 := by
      rw [Nat.le_log2 hd]
      rcases Nat.lt_or_ge d.low 2 with h | h
      · have : d.low = 1 := by omega
        rw [this] at hp; exact absurd rfl hp
      · exact h
    have h1 := log2_lt64 n.high hn hnh
    have h2 := log2_lt64 d.low hd hdl
    have l1 := log2_all n hnl hn
    have n0 : n.all ≠ 0 := by simp only [Bits.all]; omega
    have hsr : sub32 (1 + 64 + clz d.low) (clz n.high) = 65 + n.high.log2 - d.low.log2 := by
      rw [clz_eq _ hn, clz_eq _ hd]; unfold sub32; omega
    rw [hsr]
    simp only
    generalize hk : 65 + n.high.log2 - d.low.log2 = k at *
    have hlt : n.all / 2 ^ k < d.all := by
      rw [hda]; exact shifted_lt _ _ _ n0 hd (by omega)
    have hb : d.all ≤ 2 ^ 127 := by omega
    have hdh' : d.high < 2 ^ 64 := by omega
    by_cases h64 : k = 64
    · rw [if_pos h64, h64]
      rw [h64] at hlt
      exact finish_word n d rem hnl hnh hdl hdh' hlt hb
    · rw [if_neg h64]
      by_cases hlt64 : k < 64
      · rw [if_pos hlt64]
        rw [bind3 n k (by omega) (by omega) hnl (fun qh rh rl => finish d rem k ⟨0, qh⟩ ⟨rl, rh⟩)]
        exact finish_small n d rem k (by omega) (by omega) hnl hnh hdl hdh' hlt (Or.inl hb)
      · rw [if_neg hlt64]
        exact finish_large n d rem k (by omega) (by omega) hnl hnh hdl hdh' hlt hb

theorem lowZero_eq (n d : Bits) (rem : Bool) (hnl : n.low < 2 ^ 64) (hnh : n.high < 2 ^ 64)
    (hdl : d.low = 0) (hdh : d.high < 2 ^ 64) (hn : n.high ≠ 0) (hd : d.high ≠ 0) :
    lowZero n d rem = some (want rem n.all d.all) := by
  have hda : d.all = d.high * 2 ^ 64 := by simp only [Bits.all]; omega
  have hdivh : ∀ x : Nat, n.all / (x * 2 ^ 64) = n.high / x := by
    intro x
    rw [Nat.mul_comm, ← Nat.div_div_eq_div_mul]
    congr 1; simp only [Bits.all]; omega
  have hmodh : ∀ x : Nat, n.all % (x * 2 ^ 64) = (n.high % x) * 2 ^ 64 + n.low := by
    intro x
    rw [Nat.mul_comm x, Nat.mod_mul]
    have a : n.all / 2 ^ 64 = n.high := by simp only [Bits.all]; omega
    have b : n.all % 2 ^ 64 = n.low := by simp only [Bits.all]; omega
    rw [a, b, Nat.mul_comm]; omega
  unfold lowZero
  rw [if_neg hd]
  by_cases hnl0 : n.low = 0
  · rw [if_pos hnl0]
    cases rem with
    | true =>
      simp only [if_true, want, umod, if_neg hd, Option.bind_eq_bind, Option.bind_some]
      rw [hda, hmodh, hnl0]; rfl
    | false =>
      simp only [want, Bool.false_eq_true, if_false, udiv, if_neg hd]
      rw [hda, hdivh]
  · rw [if_neg hnl0]
    by_cases hp : d.high &&& (d.high - 1) = 0
    · rw [if_pos hp]
      obtain ⟨k, hk⟩ := pow2_of_and _ hd hp
      have hk64 : k < 64 := by
        rw [hk] at hdh
        exact (Nat.pow_lt_pow_iff_right (by omega)).1 hdh
      cases rem with
      | true =>
        simp only [if_true, want]
        rw [hda, hmodh, hk, Nat.and_two_pow_sub_one_eq_mod]; rfl
      | false =>
        simp only [want, Bool.false_eq_true, if_false]
        rw [hda, hdivh, hk, ctz_pow, shr, if_pos hk64]
    · rw [if_neg hp]
      have hd2 : 1 ≤ d.high.log2 := by
        rw [Nat.le_log2 hd]
        rcases Nat.lt_or_ge d.high 2 with h | h
        · have : d.high = 1 := by omega
          rw [this] at hp; exact absurd rfl hp
        · exact h
      rcases sr_cases n d hnl hnh (by omega) hdh hn hd with ⟨h1, h2⟩ | ⟨h1, h2, h3, h4⟩
      · simp only
        rw [if_pos (by omega), want_lt _ _ _ h2]
      · have h5 := log2_lt64 n.high hn hnh
        rw [h1]
        simp only
        rw [if_neg (by omega)]
        rw [bind3 n _ (by omega) (by omega) hnl
          (fun qh rh rl => finish d rem (n.high.log2 - d.high.log2 + 1) ⟨0, qh⟩ ⟨rl, rh⟩)]
        exact finish_small n d rem _ (by omega) (by omega) hnl hnh (by omega) hdh h3 h4

/-- The unsigned division. -/
theorem udivmod_eq (n d : Nat) (rem : Bool) (hn : n < 2 ^ 128) (hd : d < 2 ^ 128) (h0 : d ≠ 0) :
    udivmod n d rem = some (want rem n d) := by
  have an := all_ofAll n hn
  have ad := all_ofAll d hd
  have nl := ofAll_low n
  have nh := ofAll_high n
  have dl := ofAll_low d
  have dh := ofAll_high d
  unfold udivmod
  simp only
  generalize ofAll n = N at *
  generalize ofAll d = D at *
  subst an
  subst ad
  by_cases h1 : N.high = 0
  · rw [if_pos h1]
    have hN : N.all = N.low := by simp only [Bits.all]; omega
    by_cases h2 : D.high = 0
    · rw [if_pos h2]
      have hD : D.all = D.low := by simp only [Bits.all]; omega
      rw [hD] at h0
      cases rem with
      | true => simp [umod, h0, want, hN, hD]
      | false => simp [udiv, h0, want, hN, hD]
    · rw [if_neg h2, want_lt _ _ _ (by simp only [Bits.all]; omega), hN]
  · rw [if_neg h1]
    by_cases h2 : D.low = 0
    · rw [if_pos h2]
      exact lowZero_eq N D rem nl nh h2 dh h1 (by
        intro h; apply h0; simp only [Bits.all]; omega)
    · rw [if_neg h2]
      by_cases h3 : D.high = 0
      · rw [if_pos h3]; exact oneWord_eq N D rem nl nh dl h3 h1 h2
      · rw [if_neg h3]; exact twoWords_eq N D rem nl nh dl dh h1 h3

theorem udivmod_zero (n : Nat) (rem : Bool) : udivmod n 0 rem = none := by
  unfold udivmod
  simp only [ofAll, lowZero, umod, udiv]
  cases rem <;> simp

end C3.I128Rt
