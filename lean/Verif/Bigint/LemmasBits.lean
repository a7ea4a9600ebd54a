import Verif.Bigint.LemmasMul

/-! Helper lemmas: `clz64`, `ctz64`, `popcnt64`. -/

namespace C3.Bigint

theorem mask_and_xor (x m : Nat) (w : Nat) (hm : m = 2 ^ w) (hx : x < 2 ^ (w + 1)) :
    (x &&& m) ^^^ m = if x < 2 ^ w then 2 ^ w else 0 := by
  subst hm
  rw [Nat.and_two_pow]
  split
  · rename_i h
    rw [Nat.testBit_lt_two_pow h]; simp
  · rename_i h
    have : x.testBit w = true := by
      rw [Nat.testBit_eq_decide_div_mod_eq]
      have h1 : x / 2 ^ w = 1 := by
        rw [Nat.pow_succ] at hx
        apply Nat.div_eq_of_lt_le <;> omega
      simp [h1]
    simp [this]

theorem stage_val (y am m : BitVec 64) (w sh : Nat) (hw1 : 1 ≤ w) (hw : w ≤ 32)
    (hy : y.toNat < 2 ^ w) (ham : am.toNat = 2 ^ w - 1) (hm : m.toNat = 2 ^ w)
    (hsh : 2 ^ w / 2 ^ sh = w) :
    ((((y + am) &&& m) ^^^ m) >>> sh).toNat = if y.toNat = 0 then w else 0 := by
  have hp : 2 ^ w ≤ 2 ^ 32 := Nat.pow_le_pow_right (by omega) hw
  have hp1 : 2 ^ 1 ≤ 2 ^ w := Nat.pow_le_pow_right (by omega) hw1
  rw [BitVec.toNat_ushiftRight, BitVec.toNat_xor, BitVec.toNat_and, BitVec.toNat_add, ham]
  rw [Nat.mod_eq_of_lt (by omega), mask_and_xor _ _ w hm (by rw [Nat.pow_succ]; omega)]
  by_cases h : y.toNat = 0
  · have : y.toNat + (2 ^ w - 1) < 2 ^ w := by omega
    simp only [h, ↓reduceIte, Nat.shiftRight_eq_div_pow]
    rw [if_pos (by omega), hsh]
  · have : ¬ y.toNat + (2 ^ w - 1) < 2 ^ w := by omega
    simp [h, this]

/-- One step of the binary search of `clz64`. -/
theorem clz_stage (n0 : Nat) (n : BitVec 64) (c : BitVec 32) (B : Nat) (am m : BitVec 64)
    (k w sh : Nat) (hw1 : 1 ≤ w) (hw : w ≤ 32) (hk : k = 64 - w)
    (ham : am.toNat = 2 ^ w - 1) (hm : m.toNat = 2 ^ w) (hsh : 2 ^ w / 2 ^ sh = w)
    (hn : n.toNat = n0 * 2 ^ c.toNat) (hc : c.toNat ≤ B) (hB : B ≤ 64)
    (hlo : 2 ^ (64 - 2 * w) ≤ n.toNat) :
    ∃ n' c', clzStep k sh am m (n, c) = some (n', c') ∧ c'.toNat ≤ B + w ∧
      n'.toNat = n0 * 2 ^ c'.toNat ∧ 2 ^ (64 - w) ≤ n'.toNat := by
  have hn64 := n.isLt
  have hq : (n >>> k).toNat = n.toNat / 2 ^ k := by
    rw [BitVec.toNat_ushiftRight, Nat.shiftRight_eq_div_pow]
  have hpow : 2 ^ 64 = 2 ^ k * 2 ^ w := by rw [← Nat.pow_add]; congr 1; omega
  have hy : (n >>> k).toNat < 2 ^ w := by
    rw [hq]; apply Nat.div_lt_of_lt_mul; omega
  have hst := stage_val (n >>> k) am m w sh hw1 hw hy ham hm hsh
  unfold clzStep
  simp only
  generalize ((n >>> k + am &&& m ^^^ m) >>> sh) = g at *
  by_cases h : (n >>> k).toNat = 0
  · have hlt : n.toNat < 2 ^ k := by
      rw [hq] at h
      exact (Nat.div_eq_zero_iff_lt (Nat.two_pow_pos k)).1 h
    have hval : (n <<< w).toNat = n.toNat * 2 ^ w := by
      rw [BitVec.toNat_shiftLeft, Nat.shiftLeft_eq, Nat.mod_eq_of_lt]
      rw [hpow]; exact Nat.mul_lt_mul_of_pos_right hlt (Nat.two_pow_pos w)
    rw [if_pos h] at hst
    have hg : (c + g.setWidth 32).toNat = c.toNat + w := by
      rw [BitVec.toNat_add, BitVec.toNat_setWidth, hst]; omega
    refine ⟨n <<< w, c + g.setWidth 32, ?_, ?_, ?_, ?_⟩
    · unfold cshl; rw [hst, if_pos (by omega)]; rfl
    · omega
    · rw [hval, hn, hg, Nat.pow_add, Nat.mul_assoc]
    · rw [hval]
      calc 2 ^ (64 - w) = 2 ^ (64 - 2 * w) * 2 ^ w := by rw [← Nat.pow_add]; congr 1; omega
        _ ≤ _ := Nat.mul_le_mul_right _ hlo
  · rw [if_neg h] at hst
    have hg : (c + g.setWidth 32).toNat = c.toNat := by
      rw [BitVec.toNat_add, BitVec.toNat_setWidth, hst]; omega
    refine ⟨n, c + g.setWidth 32, ?_, by omega, by rw [hg, hn], ?_⟩
    · unfold cshl; rw [hst, if_pos (by omega)]; simp
    · rw [hq] at h
      rw [← hk]
      by_contra hc
      exact h (Nat.div_eq_of_lt (by omega))

theorem clz64_zero : clz64 0 = some 64 := by decide

theorem c0_eq_zero (n : BitVec 64) (hn : n ≠ 0) :
    (((~~~n ^^^ (~~~n + 1)) &&& ~~~n) >>> 63) = 0 := by
  have h1 : n.toNat ≠ 0 := fun h => hn (BitVec.eq_of_toNat_eq (by simpa using h))
  have hlt := n.isLt
  have hi : (~~~n + 1).toNat = 2 ^ 64 - n.toNat := by
    rw [BitVec.toNat_add, BitVec.toNat_not, one_toNat]; omega
  have hi0 : (~~~n).toNat = 2 ^ 64 - 1 - n.toNat := BitVec.toNat_not
  apply BitVec.eq_of_getLsbD_eq
  intro k hk
  have : (0 : BitVec 64).getLsbD k = false := by simp
  rw [this, BitVec.getLsbD_ushiftRight]
  by_cases hk0 : k = 0
  · subst hk0
    rw [BitVec.getLsbD_and, BitVec.getLsbD_xor]
    have m1 : (~~~n).getLsbD 63 = decide (2 ^ 63 ≤ (~~~n).toNat) := by
      exact (BitVec.msb_eq_getLsbD_last _).symm.trans (BitVec.msb_eq_decide _)
    have m2 : (~~~n + 1).getLsbD 63 = decide (2 ^ 63 ≤ (~~~n + 1).toNat) := by
      exact (BitVec.msb_eq_getLsbD_last _).symm.trans (BitVec.msb_eq_decide _)
    show (((~~~n).getLsbD 63 ^^ (~~~n + 1).getLsbD 63) && (~~~n).getLsbD 63) = false
    rw [m1, m2, hi, hi0]
    by_cases h : 2 ^ 63 ≤ 2 ^ 64 - 1 - n.toNat
    · have : 2 ^ 63 ≤ 2 ^ 64 - n.toNat := by omega
      simp only [h, this]; rfl
    · simp only [h]; simp
  · exact BitVec.getLsbD_of_ge _ _ (by omega)

theorem trunc_toNat (x : BitVec 64) (h : x.toNat < 2 ^ 32) : (x.setWidth 32).toNat = x.toNat := by
  rw [BitVec.toNat_setWidth, Nat.mod_eq_of_lt h]

theorem bind_of {α β : Type} {x : Option α} {f : α → Option β} {a : α} {r : Option β}
    (h : x = some a) (h2 : f a = r) : (x >>= f) = r := by subst h; exact h2
theorem clz64_of (n : BitVec 64) (c : BitVec 32) {s1 s2 s3 s4 s5 : BitVec 64 × BitVec 32}
  (h0 : (((~~~n ^^^ (~~~n + 1)) &&& ~~~n) >>> 63).setWidth 32 = c)
  (h1 : clzStep 32 27 0xffffffff#64 0x100000000#64 (n, c) = some s1)
  (h2 : clzStep 48 12 0xffff#64 0x10000#64 s1 = some s2)
  (h3 : clzStep 56 5 0xff#64 0x100#64 s2 = some s3)
  (h4 : clzStep 60 2 0xf#64 0x10#64 s3 = some s4)
  (h5 : clzStep 62 1 3#64 4#64 s4 = some s5) :
  clz64 n = some (s5.2 + ((s5.1 >>> 63) ^^^ 1#64).setWidth 32) := by
  subst h0
  unfold clz64
  exact bind_of h1 (bind_of h2 (bind_of h3 (bind_of h4 (bind_of h5 rfl))))

theorem clz64_spec (n : BitVec 64) :
    ∃ c, clz64 n = some c ∧ LeadingZeros 64 n.toNat c.toNat := by
  by_cases hn : n = 0
  · subst hn; exact ⟨64, clz64_zero, by unfold LeadingZeros; decide⟩
  have hn1 : n.toNat ≠ 0 := fun h => hn (BitVec.eq_of_toNat_eq (by simpa using h))
  obtain ⟨n1, c1, e1, b1, t1, l1⟩ := clz_stage n.toNat n (BitVec.setWidth 32 (0 : BitVec 64)) 0 0xffffffff#64
    0x100000000#64 32 32 27 (by decide) (by decide) (by decide) (by decide) (by decide) (by decide)
    (by simp) (by simp) (by decide) (by omega)
  obtain ⟨n2, c2, e2, b2, t2, l2⟩ := clz_stage n.toNat n1 _ _ 0xffff#64 0x10000#64
    48 16 12 (by decide) (by decide) (by decide) (by decide) (by decide) (by decide) t1 b1 (by decide) (by omega)
  obtain ⟨n3, c3, e3, b3, t3, l3⟩ := clz_stage n.toNat n2 _ _ 0xff#64 0x100#64
    56 8 5 (by decide) (by decide) (by decide) (by decide) (by decide) (by decide) t2 b2 (by decide) (by omega)
  obtain ⟨n4, c4, e4, b4, t4, l4⟩ := clz_stage n.toNat n3 _ _ 0xf#64 0x10#64
    60 4 2 (by decide) (by decide) (by decide) (by decide) (by decide) (by decide) t3 b3 (by decide) (by omega)
  obtain ⟨n5, c5, e5, b5, t5, l5⟩ := clz_stage n.toNat n4 _ _ 3#64 4#64
    62 2 1 (by decide) (by decide) (by decide) (by decide) (by decide) (by decide) t4 b4 (by decide) (by omega)
  refine ⟨_, clz64_of n _ (by rw [c0_eq_zero n hn]) e1 e2 e3 e4 e5, ?_⟩
  simp only
  have hb := n5.isLt
  have hlast : ((n5 >>> 63) ^^^ 1#64).toNat = if n5.toNat < 2 ^ 63 then 1 else 0 := by
    rw [BitVec.toNat_xor, BitVec.toNat_ushiftRight, Nat.shiftRight_eq_div_pow]
    split
    · have : n5.toNat / 2 ^ 63 = 0 := by omega
      rw [this]; rfl
    · have : n5.toNat / 2 ^ 63 = 1 := by omega
      rw [this]; rfl
  generalize (n5 >>> 63) ^^^ 1#64 = g at *
  have hz : (c5 + g.setWidth 32).toNat = c5.toNat + g.toNat := by
    rw [BitVec.toNat_add, BitVec.toNat_setWidth, hlast]; split <;> omega
  rw [hz]
  obtain ⟨z, hz'⟩ : ∃ z, z = c5.toNat + g.toNat := ⟨_, rfl⟩
  rw [← hz']
  have hzv : 2 ^ 63 ≤ n.toNat * 2 ^ z ∧ n.toNat * 2 ^ z < 2 ^ 64 := by
    rw [hz', hlast]
    split
    · rw [Nat.pow_succ 2 c5.toNat, ← Nat.mul_assoc, ← t5]; omega
    · rw [Nat.add_zero, ← t5]; omega
  have hz2 : z ≤ 63 := by
    by_contra hgt
    have h1 : 2 ^ 64 ≤ 2 ^ z := Nat.pow_le_pow_right (by omega) (by omega)
    have h2 := Nat.mul_le_mul (show 1 ≤ n.toNat by omega) h1
    omega
  refine ⟨by omega, ?_, fun _ => ?_⟩
  · have : n.toNat * 2 ^ z < 2 ^ (64 - z) * 2 ^ z := by
      rw [← Nat.pow_add, show 64 - z + z = 64 by omega]; exact hzv.2
    exact Nat.lt_of_mul_lt_mul_right this
  · have : 2 ^ (64 - z - 1) * 2 ^ z ≤ n.toNat * 2 ^ z := by
      rw [← Nat.pow_add, show 64 - z - 1 + z = 63 by omega]; exact hzv.1
    exact Nat.le_of_mul_le_mul_right this (Nat.two_pow_pos z)

theorem LeadingZeros.unique {w n c c' : Nat} (h : LeadingZeros w n c) (h' : LeadingZeros w n c') :
    c = c' := by
  have key : ∀ a b, LeadingZeros w n a → LeadingZeros w n b → ¬ a < b := by
    intro a b ⟨_, _, ha⟩ ⟨hbw, hb, _⟩ hlt
    have h1 := ha (by omega)
    have : 2 ^ (w - b) ≤ 2 ^ (w - a - 1) := Nat.pow_le_pow_right (by omega) (by omega)
    omega
  have := key c c' h h'
  have := key c' c h' h
  omega

theorem clz_spec (a : Int128) : ∃ c, i128_clz a = some c ∧ LeadingZeros 128 a.u c.toNat := by
  unfold i128_clz
  have hl := a.low.isLt
  have hh := a.high.isLt
  by_cases h : a.high = 0
  · obtain ⟨c, e, h1, h2, h3⟩ := clz64_spec a.low
    refine ⟨c + 64, by simp [h, e], ?_⟩
    have hu : a.u = a.low.toNat := by unfold Int128.u; simp [h]
    have : (c + 64).toNat = c.toNat + 64 := by
      rw [BitVec.toNat_add]; have : (64 : BitVec 32).toNat = 64 := rfl
      omega
    rw [this, hu]
    refine ⟨by omega, ?_, fun h => ?_⟩
    · rwa [show 128 - (c.toNat + 64) = 64 - c.toNat by omega]
    · rw [show 128 - (c.toNat + 64) = 64 - c.toNat by omega]; exact h3 (by omega)
  · obtain ⟨c, e, h1, h2, h3⟩ := clz64_spec a.high
    refine ⟨c, by simp [e]; intro h'; exact absurd h' h, ?_⟩
    have hne : a.high.toNat ≠ 0 := fun h' => h (BitVec.eq_of_toNat_eq (by simpa using h'))
    have hc : c.toNat < 64 := by
      rcases Nat.lt_or_ge c.toNat 64 with h | h
      · exact h
      · rw [show 64 - c.toNat = 0 by omega] at h2; omega
    unfold Int128.u
    refine ⟨by omega, ?_, fun _ => ?_⟩
    · rw [show 128 - c.toNat = (64 - c.toNat) + 64 by omega, Nat.pow_add]
      have : (a.high.toNat + 1) * 2 ^ 64 ≤ 2 ^ (64 - c.toNat) * 2 ^ 64 := Nat.mul_le_mul_right _ h2
      omega
    · rw [show 128 - c.toNat - 1 = (64 - c.toNat - 1) + 64 by omega, Nat.pow_add]
      exact Nat.le_trans (Nat.mul_le_mul_right (2 ^ 64) (h3 hc)) (Nat.le_add_right _ _)


/-- One step of the binary search of `ctz64`. -/
theorem ctz_stage (n0 : Nat) (n : BitVec 64) (c : BitVec 32) (B : Nat) (am m : BitVec 64)
    (w sh : Nat) (hw1 : 1 ≤ w) (hw : w ≤ 32)
    (ham : am.toNat = 2 ^ w - 1) (hm : m.toNat = 2 ^ w) (hsh : 2 ^ w / 2 ^ sh = w)
    (hn : n0 = n.toNat * 2 ^ c.toNat) (hc : c.toNat ≤ B) (hB : B ≤ 64)
    (hlo : n.toNat % 2 ^ (2 * w) ≠ 0) :
    ∃ n' c', ctzStep sh am m (n, c) = some (n', c') ∧ c'.toNat ≤ B + w ∧
      n0 = n'.toNat * 2 ^ c'.toNat ∧ n'.toNat % 2 ^ w ≠ 0 := by
  have hq : (n &&& am).toNat = n.toNat % 2 ^ w := by
    rw [BitVec.toNat_and, ham, Nat.and_two_pow_sub_one_eq_mod]
  have hy : (n &&& am).toNat < 2 ^ w := by
    rw [hq]; exact Nat.mod_lt _ (Nat.two_pow_pos w)
  have hst := stage_val (n &&& am) am m w sh hw1 hw hy ham hm hsh
  unfold ctzStep
  simp only
  generalize ((((n &&& am) + am) &&& m ^^^ m) >>> sh) = g at *
  by_cases h : (n &&& am).toNat = 0
  · rw [hq] at h
    have hval : (n >>> w).toNat = n.toNat / 2 ^ w := by
      rw [BitVec.toNat_ushiftRight, Nat.shiftRight_eq_div_pow]
    have hmul : n.toNat = n.toNat / 2 ^ w * 2 ^ w :=
      (Nat.div_mul_cancel (Nat.dvd_of_mod_eq_zero h)).symm
    rw [hq, if_pos h] at hst
    have hg : (c + g.setWidth 32).toNat = c.toNat + w := by
      rw [BitVec.toNat_add, BitVec.toNat_setWidth, hst]; omega
    refine ⟨n >>> w, c + g.setWidth 32, ?_, ?_, ?_, ?_⟩
    · unfold cshr; rw [hst, if_pos (by omega)]; rfl
    · omega
    · rw [hval, hg, hn, Nat.pow_add, Nat.mul_comm (2 ^ c.toNat), ← Nat.mul_assoc, ← hmul]
    · rw [hval]
      intro h0
      apply hlo
      rw [Nat.two_mul, Nat.pow_add, Nat.mod_mul, h, h0]; simp
  · rw [if_neg h] at hst
    have hg : (c + g.setWidth 32).toNat = c.toNat := by
      rw [BitVec.toNat_add, BitVec.toNat_setWidth, hst]; omega
    refine ⟨n, c + g.setWidth 32, ?_, by omega, by rw [hg, hn], ?_⟩
    · unfold cshr; rw [hst, if_pos (by omega)]; simp
    · rwa [hq] at h

theorem ctz64_of (n : BitVec 64) (c : BitVec 32) {s1 s2 s3 s4 s5 : BitVec 64 × BitVec 32}
  (h0 : (((~~~n ^^^ (~~~n + 1)) &&& ~~~n) >>> 63).setWidth 32 = c)
  (h1 : ctzStep 27 0xffffffff#64 0x100000000#64 (n, c) = some s1)
  (h2 : ctzStep 12 0xffff#64 0x10000#64 s1 = some s2)
  (h3 : ctzStep 5 0xff#64 0x100#64 s2 = some s3)
  (h4 : ctzStep 2 0xf#64 0x10#64 s3 = some s4)
  (h5 : ctzStep 1 3#64 4#64 s4 = some s5) :
  ctz64 n = some (s5.2 + ((s5.1 &&& 1#64) ^^^ 1#64).setWidth 32) := by
  subst h0
  unfold ctz64
  exact bind_of h1 (bind_of h2 (bind_of h3 (bind_of h4 (bind_of h5 rfl))))

theorem ctz64_zero : ctz64 0 = some 64 := by decide

theorem ctz64_spec (n : BitVec 64) :
    ∃ c, ctz64 n = some c ∧ c.toNat ≤ 64 ∧ TrailingZeros 64 n.toNat c.toNat := by
  by_cases hn : n = 0
  · subst hn; exact ⟨64, ctz64_zero, by decide, fun _ => rfl, fun h => absurd rfl h⟩
  have hn1 : n.toNat ≠ 0 := fun h => hn (BitVec.eq_of_toNat_eq (by simpa using h))
  have hnb := n.isLt
  obtain ⟨n1, c1, e1, b1, t1, l1⟩ := ctz_stage n.toNat n (BitVec.setWidth 32 (0 : BitVec 64)) 0
    0xffffffff#64 0x100000000#64 32 27 (by decide) (by decide) (by decide) (by decide) (by decide)
    (by simp) (by simp) (by decide) (by omega)
  obtain ⟨n2, c2, e2, b2, t2, l2⟩ := ctz_stage n.toNat n1 _ _ 0xffff#64 0x10000#64
    16 12 (by decide) (by decide) (by decide) (by decide) (by decide) t1 b1 (by decide) (by omega)
  obtain ⟨n3, c3, e3, b3, t3, l3⟩ := ctz_stage n.toNat n2 _ _ 0xff#64 0x100#64
    8 5 (by decide) (by decide) (by decide) (by decide) (by decide) t2 b2 (by decide) (by omega)
  obtain ⟨n4, c4, e4, b4, t4, l4⟩ := ctz_stage n.toNat n3 _ _ 0xf#64 0x10#64
    4 2 (by decide) (by decide) (by decide) (by decide) (by decide) t3 b3 (by decide) (by omega)
  obtain ⟨n5, c5, e5, b5, t5, l5⟩ := ctz_stage n.toNat n4 _ _ 3#64 4#64
    2 1 (by decide) (by decide) (by decide) (by decide) (by decide) t4 b4 (by decide) (by omega)
  refine ⟨_, ctz64_of n _ (by rw [c0_eq_zero n hn]) e1 e2 e3 e4 e5, ?_⟩
  simp only
  have hlast : ((n5 &&& 1#64) ^^^ 1#64).toNat = if n5.toNat % 2 = 0 then 1 else 0 := by
    have h2 : n5.toNat &&& (1#64).toNat = n5.toNat % 2 := Nat.and_two_pow_sub_one_eq_mod n5.toNat 1
    rw [BitVec.toNat_xor, BitVec.toNat_and, h2]
    split
    · rename_i h; rw [h]; rfl
    · have : n5.toNat % 2 = 1 := by omega
      rw [this]; rfl
  generalize (n5 &&& 1#64) ^^^ 1#64 = g at *
  have hz : (c5 + g.setWidth 32).toNat = c5.toNat + g.toNat := by
    rw [BitVec.toNat_add, BitVec.toNat_setWidth, hlast]; split <;> omega
  rw [hz, hlast]
  refine ⟨?_, fun h => absurd h hn1, fun _ => ?_⟩
  · have : 2 ^ c5.toNat ≤ n.toNat := Nat.le_of_dvd (by omega) (by rw [t5]; exact Nat.dvd_mul_left _ _)
    have : 2 ^ c5.toNat < 2 ^ 64 := by omega
    have := (Nat.pow_lt_pow_iff_right (a := 2) (by omega)).1 this
    split <;> omega
  · split
    · rename_i h
      obtain ⟨m, hm⟩ : ∃ m, n5.toNat = 2 * m := ⟨n5.toNat / 2, by omega⟩
      rw [t5, Nat.pow_succ 2 (c5.toNat + 1), Nat.pow_succ 2 c5.toNat, hm]
      constructor
      · exact ⟨m, by ring⟩
      · rintro ⟨q, hq⟩
        have : m = 2 * q := by
          have hp := Nat.two_pow_pos c5.toNat
          have : (2 ^ c5.toNat * 2) * m = (2 ^ c5.toNat * 2) * (2 * q) := by linarith
          exact Nat.eq_of_mul_eq_mul_left (by omega) this
        omega
    · rename_i h
      rw [t5, Nat.add_zero, Nat.pow_succ 2 c5.toNat]
      constructor
      · exact Nat.dvd_mul_left _ _
      · rintro ⟨q, hq⟩
        have : n5.toNat = 2 * q := by
          have hp := Nat.two_pow_pos c5.toNat
          have : 2 ^ c5.toNat * n5.toNat = 2 ^ c5.toNat * (2 * q) := by linarith
          exact Nat.eq_of_mul_eq_mul_left hp this
        omega

theorem ctz_spec (a : Int128) :
    ∃ c, i128_ctz a = some c ∧ TrailingZeros 128 a.u c.toNat := by
  unfold i128_ctz
  have hl := a.low.isLt
  have hh := a.high.isLt
  by_cases h : a.low = 0
  · obtain ⟨c, e, hc, h1, h2⟩ := ctz64_spec a.high
    refine ⟨c + 64, by simp [h, e], ?_⟩
    have hu : a.u = a.high.toNat * 2 ^ 64 := by unfold Int128.u; simp [h]
    have hc64 : (c + 64).toNat = c.toNat + 64 := by
      rw [BitVec.toNat_add]; have : (64 : BitVec 32).toNat = 64 := rfl
      omega
    rw [hc64, hu]
    refine ⟨fun h0 => ?_, fun h0 => ?_⟩
    · have := h1 (by omega); omega
    · obtain ⟨p, q⟩ := h2 (by omega)
      rw [Nat.pow_add, show c.toNat + 64 + 1 = (c.toNat + 1) + 64 by omega, Nat.pow_add]
      exact ⟨Nat.mul_dvd_mul_right p _,
        fun hd => q (Nat.dvd_of_mul_dvd_mul_right (Nat.two_pow_pos 64) hd)⟩
  · obtain ⟨c, e, hc, h1, h2⟩ := ctz64_spec a.low
    refine ⟨c, by simp [e]; intro h'; exact absurd h' h, ?_⟩
    have hne : a.low.toNat ≠ 0 := fun h' => h (BitVec.eq_of_toNat_eq (by simpa using h'))
    obtain ⟨p, q⟩ := h2 hne
    have hc' : c.toNat < 64 := by
      have : 2 ^ c.toNat ≤ a.low.toNat := Nat.le_of_dvd (by omega) p
      exact (Nat.pow_lt_pow_iff_right (a := 2) (by omega)).1 (by omega : 2 ^ c.toNat < 2 ^ 64)
    unfold Int128.u
    refine ⟨fun h0 => by omega, fun _ => ⟨?_, fun hd => q ?_⟩⟩
    · exact Nat.dvd_add ((Nat.pow_dvd_pow 2 (by omega)).mul_left _) p
    · exact (Nat.dvd_add_right ((Nat.pow_dvd_pow 2 (by omega : c.toNat + 1 ≤ 64)).mul_left _)).1 hd

end C3.Bigint
