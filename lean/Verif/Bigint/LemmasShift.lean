import Verif.Bigint.Lemmas

/-! Helper lemmas: shifts and `i128_extend`. -/

namespace C3.Bigint

theorem ofNat_toNat64 {n : Nat} (h : n < 2 ^ 64) : (BitVec.ofNat 64 n).toNat = n := by
  rw [BitVec.toNat_ofNat, Nat.mod_eq_of_lt h]

theorem bv_getLsbD (x : Int128) (k : Nat) :
    x.bv.getLsbD k = if k < 64 then x.low.getLsbD k else x.high.getLsbD (k - 64) := by
  have : x.bv.getLsbD k = (x.high ++ x.low).getLsbD k := rfl
  rw [this, BitVec.getLsbD_append]

theorem shl64_spec (a : Int128) (n : BitVec 64) :
    ∃ r, i128_shl64 a n = some r ∧ r.bv = a.bv <<< n.toNat := by
  unfold i128_shl64
  by_cases h0 : n = 0
  · subst h0; exact ⟨a, by simp, by simp⟩
  have h0' : n.toNat ≠ 0 := fun h => h0 (BitVec.eq_of_toNat_eq (by simpa using h))
  by_cases h1 : n > 127
  · refine ⟨⟨0, 0⟩, by simp only [h0, h1, ↓reduceIte]; rfl, ?_⟩
    have h1' : 127 < n.toNat := by simpa [BitVec.lt_def] using h1
    apply BitVec.eq_of_getLsbD_eq
    intro k hk
    simp [bv_getLsbD]; omega
  have h1' : n.toNat ≤ 127 := by simpa [BitVec.lt_def] using h1
  by_cases h2 : n = 64
  · subst h2
    refine ⟨⟨a.low, 0⟩, by simp, ?_⟩
    apply BitVec.eq_of_getLsbD_eq
    intro k hk
    have : (64 : BitVec 64).toNat = 64 := rfl
    simp only [bv_getLsbD, BitVec.getLsbD_shiftLeft, this]
    by_cases hk2 : k < 64
    · simp [hk2]
    · have : k - 64 < 64 := by omega
      simp [*]
  have h2' : n.toNat ≠ 64 := fun h => h2 (BitVec.eq_of_toNat_eq (by simpa using h))
  by_cases h3 : n > 64
  · have h3' : 64 < n.toNat := by simpa [BitVec.lt_def] using h3
    have e : (n - 64).toNat = n.toNat - 64 := by
      rw [BitVec.toNat_sub]; have : (64 : BitVec 64).toNat = 64 := rfl
      omega
    have h4 : n.toNat - 64 < 64 := by omega
    refine ⟨⟨a.low <<< (n.toNat - 64), 0⟩, by simp only [h0, h1, h2, h3, ↓reduceIte, e, cshl, h4]; rfl, ?_⟩
    apply BitVec.eq_of_getLsbD_eq
    intro k hk
    simp only [bv_getLsbD, BitVec.getLsbD_shiftLeft]
    by_cases hk : k < 64
    · simp [hk]; omega
    · by_cases hk2 : k < n.toNat
      · simp [hk, hk2]; omega
      · have e1 : ¬ (k - 64 < n.toNat - 64) := by omega
        have e2 : k - 64 < 64 := by omega
        have e3 : k - n.toNat < 64 := by omega
        have e4 : k - 64 - (n.toNat - 64) = k - n.toNat := by omega
        simp [*]
  · have h3' : n.toNat ≤ 64 := by simpa [BitVec.lt_def] using h3
    have e : (64 - n).toNat = 64 - n.toNat := by
      rw [BitVec.toNat_sub]; have : (64 : BitVec 64).toNat = 64 := rfl
      omega
    have h4 : n.toNat < 64 := by omega
    have h5 : 64 - n.toNat < 64 := by omega
    refine ⟨⟨a.high <<< n.toNat ||| a.low >>> (64 - n.toNat), a.low <<< n.toNat⟩,
      by simp only [h0, h1, h2, h3, ↓reduceIte, e, cshl, cshr, h4, h5]; rfl, ?_⟩
    apply BitVec.eq_of_getLsbD_eq
    intro k hk
    simp only [bv_getLsbD, BitVec.getLsbD_shiftLeft, BitVec.getLsbD_or, BitVec.getLsbD_ushiftRight]
    by_cases hk : k < 64
    · simp [hk]
      by_cases hk2 : k < n.toNat
      · simp [hk2]
      · have : k < 128 := by omega
        have : k - n.toNat < 64 := by omega
        simp [*]
    · have e2 : k - 64 < 64 := by omega
      by_cases hk2 : k - n.toNat < 64
      · have e3 : k - 64 < n.toNat := by omega
        have e4 : 64 - n.toNat + (k - 64) = k - n.toNat := by omega
        simp [*]; omega
      · have e3 : ¬ k - 64 < n.toNat := by omega
        have e4 : ¬ (64 - n.toNat + (k - 64)) < 64 := by omega
        have e5 : k - 64 - n.toNat = k - n.toNat - 64 := by omega
        have e6 : a.low.getLsbD (64 - n.toNat + (k - 64)) = false :=
          BitVec.getLsbD_of_ge _ _ (by omega)
        simp [*]; omega

theorem lshr64_spec (a : Int128) (n : BitVec 64) :
    ∃ r, i128_lshr64 a n = some r ∧ r.bv = a.bv >>> n.toNat := by
  unfold i128_lshr64
  by_cases h0 : n = 0
  · subst h0; exact ⟨a, by simp, by simp⟩
  have h0' : n.toNat ≠ 0 := fun h => h0 (BitVec.eq_of_toNat_eq (by simpa using h))
  by_cases h1 : n > 127
  · refine ⟨⟨0, 0⟩, by simp only [h0, h1, ↓reduceIte]; rfl, ?_⟩
    have h1' : 127 < n.toNat := by simpa [BitVec.lt_def] using h1
    apply BitVec.eq_of_getLsbD_eq
    intro k hk
    rw [BitVec.getLsbD_ushiftRight, BitVec.getLsbD_of_ge _ (n.toNat + k) (by omega)]
    simp [bv_getLsbD]
  have h1' : n.toNat ≤ 127 := by simpa [BitVec.lt_def] using h1
  by_cases h2 : n = 64
  · subst h2
    refine ⟨⟨0, a.high⟩, by simp, ?_⟩
    apply BitVec.eq_of_getLsbD_eq
    intro k hk
    have : (64 : BitVec 64).toNat = 64 := rfl
    simp only [bv_getLsbD, BitVec.getLsbD_ushiftRight, this]
    by_cases hk2 : k < 64
    · have : ¬ 64 + k < 64 := by omega
      have : 64 + k - 64 = k := by omega
      simp [*]
    · have : ¬ 64 + k < 64 := by omega
      rw [BitVec.getLsbD_of_ge a.high (64 + k - 64) (by omega)]
      simp [*]
  have h2' : n.toNat ≠ 64 := fun h => h2 (BitVec.eq_of_toNat_eq (by simpa using h))
  by_cases h3 : n > 64
  · have h3' : 64 < n.toNat := by simpa [BitVec.lt_def] using h3
    have e : (n - 64).toNat = n.toNat - 64 := by
      rw [BitVec.toNat_sub]; have : (64 : BitVec 64).toNat = 64 := rfl
      omega
    have h4 : n.toNat - 64 < 64 := by omega
    refine ⟨⟨0, a.high >>> (n.toNat - 64)⟩,
      by simp only [h0, h1, h2, h3, ↓reduceIte, e, cshr, h4]; rfl, ?_⟩
    apply BitVec.eq_of_getLsbD_eq
    intro k hk
    simp only [bv_getLsbD, BitVec.getLsbD_ushiftRight]
    have e1 : ¬ n.toNat + k < 64 := by omega
    have e2 : n.toNat - 64 + k = n.toNat + k - 64 := by omega
    by_cases hk : k < 64
    · simp [*]
    · rw [BitVec.getLsbD_of_ge a.high (n.toNat + k - 64) (by omega)]
      simp [*]
  · have h3' : n.toNat ≤ 64 := by simpa [BitVec.lt_def] using h3
    have e : (64 - n).toNat = 64 - n.toNat := by
      rw [BitVec.toNat_sub]; have : (64 : BitVec 64).toNat = 64 := rfl
      omega
    have h4 : n.toNat < 64 := by omega
    have h5 : 64 - n.toNat < 64 := by omega
    refine ⟨⟨a.high >>> n.toNat, a.low >>> n.toNat ||| a.high <<< (64 - n.toNat)⟩,
      by simp only [h0, h1, h2, h3, ↓reduceIte, e, cshl, cshr, h4, h5]; rfl, ?_⟩
    apply BitVec.eq_of_getLsbD_eq
    intro k hk
    simp only [bv_getLsbD, BitVec.getLsbD_shiftLeft, BitVec.getLsbD_or, BitVec.getLsbD_ushiftRight]
    by_cases hk1 : k < 64
    · by_cases hk2 : n.toNat + k < 64
      · have : k < 64 - n.toNat := by omega
        simp [*]
      · have : ¬ k < 64 - n.toNat := by omega
        have : k - (64 - n.toNat) = n.toNat + k - 64 := by omega
        have e9 := BitVec.getLsbD_of_ge a.low (n.toNat + k) (by omega)
        simp [*]
    · have : ¬ n.toNat + k < 64 := by omega
      have : n.toNat + (k - 64) = n.toNat + k - 64 := by omega
      simp [*]

theorem isneg_iff (x : BitVec 64) : ISNEG x = decide (2 ^ 63 ≤ x.toNat) := by
  have := x.isLt
  have h : (x >>> 63).toNat = x.toNat / 2 ^ 63 := by
    rw [BitVec.toNat_ushiftRight, Nat.shiftRight_eq_div_pow]
  have h2 : (x >>> 63 = 0#64) ↔ x.toNat / 2 ^ 63 = 0 := by
    rw [← BitVec.toNat_inj, h]; simp
  unfold ISNEG
  rw [Bool.eq_iff_iff]
  simp only [bne_iff_ne, ne_eq, decide_eq_true_eq, h2]
  omega

theorem isneg_msb (x : BitVec 64) : ISNEG x = x.msb := by
  rw [isneg_iff, BitVec.msb_eq_decide]

theorem bv_msb (x : Int128) : x.bv.msb = x.high.msb := by
  rw [BitVec.msb_eq_getLsbD_last, BitVec.msb_eq_getLsbD_last, bv_getLsbD]; simp

theorem ashr64_spec (a : Int128) (n : BitVec 64) :
    ∃ r, i128_ashr64 a n = some r ∧ r.bv = a.bv.sshiftRight n.toNat := by
  unfold i128_ashr64
  by_cases h0 : n = 0
  · subst h0; exact ⟨a, by simp, by simp⟩
  have h0' : n.toNat ≠ 0 := fun h => h0 (BitVec.eq_of_toNat_eq (by simpa using h))
  by_cases hn : ISNEG a.high
  swap
  · obtain ⟨r, hr, hr2⟩ := lshr64_spec a n
    refine ⟨r, by simp only [h0, hn, ↓reduceIte]; simp [hr], ?_⟩
    rw [hr2]
    have : a.bv.msb = false := by rw [bv_msb, ← isneg_msb]; simpa using hn
    rw [BitVec.sshiftRight_eq_of_msb_false this]
  have hm : a.bv.msb = true := by rw [bv_msb, ← isneg_msb]; simpa using hn
  have hm2 : a.high.msb = true := by rw [← bv_msb]; exact hm
  have UM : ∀ k (h : k < 64), UINT64_MAX[k] = true := fun k hk => by
    unfold UINT64_MAX; exact BitVec.getElem_allOnes k hk
  by_cases h1 : n > 127
  · refine ⟨⟨UINT64_MAX, UINT64_MAX⟩, by simp only [h0, hn, h1, ↓reduceIte]; rfl, ?_⟩
    have h1' : 127 < n.toNat := by simpa [BitVec.lt_def] using h1
    apply BitVec.eq_of_getLsbD_eq
    intro k hk
    have : ¬ n.toNat + k < 128 := by omega
    have : ¬ 128 ≤ k := by omega
    simp only [bv_getLsbD, BitVec.getLsbD_sshiftRight]
    by_cases hk2 : k < 64
    · simp [*]
    · have : k - 64 < 64 := by omega
      simp [*]
  have h1' : n.toNat ≤ 127 := by simpa [BitVec.lt_def] using h1
  by_cases h2 : n = 64
  · subst h2
    refine ⟨⟨UINT64_MAX, a.high⟩, by simp [hn], ?_⟩
    apply BitVec.eq_of_getLsbD_eq
    intro k hk
    have : (64 : BitVec 64).toNat = 64 := rfl
    have : ¬ 128 ≤ k := by omega
    simp only [bv_getLsbD, BitVec.getLsbD_sshiftRight, *]
    by_cases hk2 : k < 64
    · have : ¬ 64 + k < 64 := by omega
      have : 64 + k - 64 = k := by omega
      have : 64 + k < 128 := by omega
      simp [*]
    · have : ¬ 64 + k < 128 := by omega
      have : k - 64 < 64 := by omega
      simp [*]
  have h2' : n.toNat ≠ 64 := fun h => h2 (BitVec.eq_of_toNat_eq (by simpa using h))
  by_cases h3 : n > 64
  · have h3' : 64 < n.toNat := by simpa [BitVec.lt_def] using h3
    have e : (n - 64).toNat = n.toNat - 64 := by
      rw [BitVec.toNat_sub]; have : (64 : BitVec 64).toNat = 64 := rfl
      omega
    have h4 : n.toNat - 64 < 64 := by omega
    refine ⟨⟨UINT64_MAX, a.high.sshiftRight (n.toNat - 64)⟩,
      by simp only [h0, h1, h2, h3, hn, ↓reduceIte, e, csar, h4]; rfl, ?_⟩
    apply BitVec.eq_of_getLsbD_eq
    intro k hk
    have e0 : ¬ 128 ≤ k := by omega
    simp only [bv_getLsbD, BitVec.getLsbD_sshiftRight, *]
    have e1 : ¬ n.toNat + k < 64 := by omega
    have e2 : n.toNat - 64 + k = n.toNat + k - 64 := by omega
    by_cases hk1 : k < 64
    · have e3 : ¬ 64 ≤ k := by omega
      by_cases hk2 : n.toNat + k < 128
      · have : n.toNat + k - 64 < 64 := by omega
        simp [*]
      · have : ¬ n.toNat + k - 64 < 64 := by omega
        simp [*]
    · have : ¬ n.toNat + k < 128 := by omega
      have : k - 64 < 64 := by omega
      simp [*]
  · have h3' : n.toNat ≤ 64 := by simpa [BitVec.lt_def] using h3
    have e : (64 - n).toNat = 64 - n.toNat := by
      rw [BitVec.toNat_sub]; have : (64 : BitVec 64).toNat = 64 := rfl
      omega
    have h4 : n.toNat < 64 := by omega
    have h5 : 64 - n.toNat < 64 := by omega
    refine ⟨⟨a.high.sshiftRight n.toNat, a.low >>> n.toNat ||| a.high <<< (64 - n.toNat)⟩,
      by simp only [h0, h1, h2, h3, hn, ↓reduceIte, e, cshl, cshr, csar, h4, h5]; rfl, ?_⟩
    apply BitVec.eq_of_getLsbD_eq
    intro k hk
    have e0 : ¬ 128 ≤ k := by omega
    simp only [bv_getLsbD, BitVec.getLsbD_shiftLeft, BitVec.getLsbD_or, BitVec.getLsbD_ushiftRight,
      BitVec.getLsbD_sshiftRight]
    by_cases hk1 : k < 64
    · have e1 : n.toNat + k < 128 := by omega
      by_cases hk2 : n.toNat + k < 64
      · have : k < 64 - n.toNat := by omega
        simp [*]
      · have : ¬ k < 64 - n.toNat := by omega
        have : k - (64 - n.toNat) = n.toNat + k - 64 := by omega
        have e9 := BitVec.getLsbD_of_ge a.low (n.toNat + k) (by omega)
        simp [*]
    · have e1 : ¬ n.toNat + k < 64 := by omega
      have e2 : n.toNat + (k - 64) = n.toNat + k - 64 := by omega
      have e3 : ¬ 64 ≤ k - 64 := by omega
      by_cases hk2 : n.toNat + k < 128
      · have : n.toNat + k - 64 < 64 := by omega
        simp [*]
      · have : ¬ n.toNat + k - 64 < 64 := by omega
        simp [*]

theorem shl64_u (a : Int128) (n : BitVec 64) :
    ∃ r, i128_shl64 a n = some r ∧ r.u = a.u * 2 ^ n.toNat % 2 ^ 128 := by
  obtain ⟨r, h1, h2⟩ := shl64_spec a n
  refine ⟨r, h1, ?_⟩
  rw [← r.bv_toNat, h2, BitVec.toNat_shiftLeft, a.bv_toNat, Nat.shiftLeft_eq]

theorem lshr64_u (a : Int128) (n : BitVec 64) :
    ∃ r, i128_lshr64 a n = some r ∧ r.u = a.u / 2 ^ n.toNat := by
  obtain ⟨r, h1, h2⟩ := lshr64_spec a n
  refine ⟨r, h1, ?_⟩
  rw [← r.bv_toNat, h2, BitVec.toNat_ushiftRight, a.bv_toNat, Nat.shiftRight_eq_div_pow]

theorem ashr64_s (a : Int128) (n : BitVec 64) :
    ∃ r, i128_ashr64 a n = some r ∧ r.s = a.s / 2 ^ n.toNat := by
  obtain ⟨r, h1, h2⟩ := ashr64_spec a n
  refine ⟨r, h1, ?_⟩
  rw [← r.bv_toInt, h2, BitVec.toInt_sshiftRight, a.bv_toInt, Int.shiftRight_eq_div_pow]
  norm_cast

theorem bitsize_eq (t : TypeKind) : type_kind_bitsize t = t.bits := by cases t <;> rfl
theorem is_signed_eq (t : TypeKind) : type_kind_is_signed t = t.signed := by cases t <;> rfl
theorem is_unsigned_eq (t : TypeKind) : type_kind_is_unsigned t = !t.signed := by cases t <;> rfl

theorem wraps_iff (t : TypeKind) (x r : Int) : Wraps t x r ↔
    t.InRange r ∧ (r - x) % 2 ^ t.bits = 0 := by
  unfold Wraps; rw [Int.dvd_iff_emod_eq_zero]

theorem Wraps.unique {t : TypeKind} {x r r' : Int} (h : Wraps t x r) (h' : Wraps t x r') :
    r = r' := by
  rw [wraps_iff] at h h'
  cases t <;>
    simp [TypeKind.InRange, TypeKind.minVal, TypeKind.maxVal, TypeKind.signed, TypeKind.bits]
      at h h' <;> omega

theorem Wraps.congr {t : TypeKind} {x y r : Int} (h : Wraps t x r)
    (hxy : ((2 : Int) ^ t.bits) ∣ (x - y)) : Wraps t y r := by
  refine ⟨h.1, ?_⟩
  have := Int.dvd_add h.2 hxy
  rwa [show r - x + (x - y) = r - y by omega] at this

theorem pow_bits_dvd (t : TypeKind) : ((2 : Int) ^ t.bits) ∣ 2 ^ 128 := by
  cases t <;> decide

theorem extend_spec (a : Int128) (t : TypeKind) :
    ∃ r, i128_extend a t = some r ∧ Wraps t a.u (CInt.val ⟨r, t⟩) := by
  unfold i128_extend
  simp only [wraps_iff]
  have ha := a.u_lt
  by_cases hb : type_kind_bitsize t = 128
  · refine ⟨a, by simp [hb], ?_⟩
    revert hb
    cases t <;> simp [type_kind_bitsize, TypeKind.InRange, TypeKind.minVal, TypeKind.maxVal,
      TypeKind.signed, TypeKind.bits, CInt.val, Int128.s] <;> omega
  · simp only [hb, ↓reduceIte]
    obtain ⟨r1, h1, h1'⟩ := shl64_u a (BitVec.ofNat 64 (128 - type_kind_bitsize t))
    obtain ⟨r2, h2, h2'⟩ := ashr64_s r1 (BitVec.ofNat 64 (128 - type_kind_bitsize t))
    obtain ⟨r3, h3, h3'⟩ := lshr64_u r1 (BitVec.ofNat 64 (128 - type_kind_bitsize t))
    have e : (BitVec.ofNat 64 (128 - type_kind_bitsize t)).toNat = 128 - type_kind_bitsize t := by
      cases t <;> rfl
    rw [e] at h1' h2' h3'
    simp only [h1, Option.bind_eq_bind, Option.bind_some]
    by_cases hs : type_kind_is_signed t
    · refine ⟨r2, by simp [hs, h2], ?_⟩
      have := r2.u_lt
      have := r1.u_lt
      revert hb hs h1' h2'
      clear h1 h2 h3 h3' e
      unfold Int128.s
      cases t <;> simp only [type_kind_bitsize, TypeKind.InRange, TypeKind.minVal, TypeKind.maxVal,
        TypeKind.signed, TypeKind.bits, CInt.val, Int128.s, type_kind_is_signed,
        reduceCtorEq, ↓reduceIte, not_true, false_implies, true_implies] <;>
        (intro _ h1 h2; split_ifs at h2 ⊢ <;> omega)
    · refine ⟨r3, by simp [hs, h3], ?_⟩
      have := r1.u_lt
      have := r3.u_lt
      revert hb hs h1' h3'
      clear h1 h2 h3 h2' e
      cases t <;> simp only [type_kind_bitsize, TypeKind.InRange, TypeKind.minVal, TypeKind.maxVal,
        TypeKind.signed, TypeKind.bits, CInt.val, type_kind_is_signed] <;>
        (intros; first | (simp at *; done) | (simp; omega))

end C3.Bigint
