import Verif.Bigint.LemmasVal

/-! Helper lemmas: range tests, conversion, shifts of typed constants. -/

namespace C3.Bigint

theorem cmp_gt (a b : Int) : cmpInt a b = .GT ↔ b < a := by
  unfold cmpInt; split <;> [simp; (split <;> simp)] <;> omega

theorem cmp_lt (a b : Int) : cmpInt a b = .LT ↔ a < b := by
  unfold cmpInt; split <;> [simp; (split <;> simp)] <;> omega

theorem fits_bounds_signed (t : TypeKind) :
    (fitsBounds t).1 = t.signed ∧
    (t.signed = true → (fitsBounds t).2.1.s = t.minVal ∧ (fitsBounds t).2.2.s = t.maxVal) ∧
    ((fitsBounds t).2.2.u : Int) = t.maxVal := by
  cases t <;> decide +kernel

theorem fits_spec (c : CInt) (t : TypeKind) : int_fits c t = true ↔ t.InRange c.val := by
  obtain ⟨h1, h2, h3⟩ := fits_bounds_signed t
  unfold int_fits
  generalize fitsBounds t = fb at h1 h2 h3 ⊢
  obtain ⟨sg, mn, mx⟩ := fb
  simp only at h1 h2 h3 ⊢
  subst h1
  rw [is_signed_eq]
  unfold TypeKind.InRange
  have hu := c.i.u_lt
  cases ht : t.signed <;> cases hc : c.type.signed
  · have hm : t.minVal = 0 := by unfold TypeKind.minVal; rw [ht]; rfl
    rw [if_neg Bool.false_ne_true, if_neg Bool.false_ne_true, ucomp_spec, decide_eq_true_iff, ne_eq,
      cmp_gt, h3, val_unsigned _ hc, hm]
    omega
  · have hm : t.minVal = 0 := by unfold TypeKind.minVal; rw [ht]; rfl
    rw [if_neg Bool.false_ne_true, if_pos rfl, ucomp_spec, val_signed _ hc, hm]
    unfold i128_is_neg
    rw [isneg_high]
    by_cases h : c.i.s < 0
    · rw [if_pos (by simpa using h)]; simp only [Bool.false_eq_true, false_iff]; omega
    · rw [if_neg (by simpa using h), s_of_nonneg _ h]
      simp only [cmp_gt, h3]
      split <;> simp <;> omega
  · rw [if_pos rfl, if_neg Bool.false_ne_true, ucomp_spec, decide_eq_true_iff, ne_eq,
      cmp_gt, h3, val_unsigned _ hc]
    have hm : t.minVal ≤ 0 := by cases t <;> decide
    omega
  · obtain ⟨e1, e2⟩ := h2 ht
    rw [if_pos rfl, if_pos rfl, scomp_spec, scomp_spec, val_signed _ hc]
    simp only [cmp_lt, cmp_gt, e1, e2]
    split
    · simp; omega
    · split <;> simp <;> omega

theorem shift_amount (t : TypeKind) :
    (BitVec.ofNat 64 (128 - t.bits)).toNat = 128 - t.bits := by
  cases t <;> rfl

/-- The zero-extending truncation used by `int_conv`. -/
theorem trunc_spec (a : Int128) (t : TypeKind) :
    ∃ x y, i128_shl64 a (BitVec.ofNat 64 (128 - t.bits)) = some x ∧
      i128_lshr64 x (BitVec.ofNat 64 (128 - t.bits)) = some y ∧ y.u = a.u % 2 ^ t.bits := by
  obtain ⟨x, h1, h1'⟩ := shl64_u a (BitVec.ofNat 64 (128 - t.bits))
  obtain ⟨y, h2, h2'⟩ := lshr64_u x (BitVec.ofNat 64 (128 - t.bits))
  refine ⟨x, y, h1, h2, ?_⟩
  rw [shift_amount] at h1' h2'
  rw [h2', h1']
  have e : (2 : Nat) ^ 128 = 2 ^ t.bits * 2 ^ (128 - t.bits) := by
    rw [← pow_add]; congr 1; have := bits_le t; omega
  rw [e, Nat.mul_mod_mul_right, Nat.mul_div_cancel _ (Nat.two_pow_pos _)]

theorem range_mono (s t : TypeKind) (h : s.bits < t.bits)
    (h' : t.signed = true ∨ t.signed = s.signed) : t.minVal ≤ s.minVal ∧ s.maxVal ≤ t.maxVal := by
  revert h h'
  cases s <;> cases t <;> decide

theorem dvd_mod_pow (a k : Nat) : ((2 : Int) ^ k) ∣ ((a % 2 ^ k : Nat) : Int) - a := by
  have := dvd_mod_sub a (2 ^ k)
  push_cast at this ⊢
  exact this

theorem dvd_mod_bits (a : Nat) (t : TypeKind) :
    ((2 : Int) ^ t.bits) ∣ ((a % 2 ^ t.bits : Nat) : Int) - a := dvd_mod_pow a t.bits

theorem unsigned_lt (c : CInt) (hc : c.WF) (h : c.type.signed = false) (hb : c.type.bits < 128) :
    c.i.u < 2 ^ 127 := by
  rw [wf_unsigned _ h] at hc
  exact lt_of_lt_of_le hc (Nat.pow_le_pow_right (by omega) (by omega))

theorem conv_spec (c : CInt) (t : TypeKind) (hc : c.WF) :
    ∃ r, int_conv c t = some r ∧ r.type = t ∧ Wraps t c.val r.val := by
  unfold int_conv
  rw [bitsize_eq, bitsize_eq, is_signed_eq, is_signed_eq]
  by_cases h128 : t.bits = 128
  · rw [if_pos h128]
    refine ⟨_, rfl, rfl, ?_, ?_⟩
    · have := s_range c.i
      have := c.i.u_lt
      unfold TypeKind.InRange TypeKind.minVal TypeKind.maxVal
      rw [h128]
      cases ht : t.signed
      · rw [val_unsigned _ ht, if_neg Bool.false_ne_true, if_neg Bool.false_ne_true]
        exact ⟨by omega, by show (c.i.u : Int) ≤ _; omega⟩
      · rw [val_signed _ ht, if_pos rfl, if_pos rfl]
        show _ ≤ c.i.s ∧ c.i.s ≤ _
        omega
    · rw [h128]
      have h1 := val_dvd ⟨c.i, t⟩
      have h2 := val_dvd c
      have := Int.dvd_sub h1 h2
      rwa [show CInt.val ⟨c.i, t⟩ - (c.i.u : Int) - (c.val - c.i.u) = CInt.val ⟨c.i, t⟩ - c.val by ring]
        at this
  rw [if_neg h128]
  obtain ⟨x, y, h1, h2, h3⟩ := trunc_spec c.i t
  have hy : ((2 : Int) ^ t.bits) ∣ (y.u : Int) - c.val := by
    rw [h3]
    have h4 := dvd_mod_bits c.i.u t
    have h5 := val_dvd_bits c t
    have := Int.dvd_sub h4 h5
    rwa [show (((c.i.u % 2 ^ t.bits : Nat)) : Int) - c.i.u - (c.val - c.i.u) =
      ((c.i.u % 2 ^ t.bits : Nat) : Int) - c.val by ring] at this
  have yu : t.signed = false → Wraps t c.val (CInt.val ⟨y, t⟩) := by
    intro ht
    have hv := val_unsigned ⟨y, t⟩ ht
    rw [hv]
    refine ⟨?_, hy⟩
    have : CInt.WF ⟨y, t⟩ := by
      rw [wf_unsigned _ (by exact ht)]
      show y.u < _
      rw [h3]; exact Nat.mod_lt _ (Nat.two_pow_pos _)
    unfold CInt.WF at this
    rwa [hv] at this
  by_cases hlt : c.type.bits < t.bits
  · rw [if_pos hlt]
    by_cases hk : t.signed = true ∨ t.signed = c.type.signed
    · rw [if_pos (by rcases hk with h | h <;> simp [h])]
      refine ⟨_, rfl, rfl, ?_⟩
      have e : CInt.val ⟨c.i, t⟩ = c.val := by
        cases ht : t.signed <;> cases hs : c.type.signed
        · rw [val_unsigned _ (by exact ht), val_unsigned _ hs]
        · rw [ht, hs] at hk; simp at hk
        · rw [val_signed _ (by exact ht), val_unsigned _ hs]
          have := unsigned_lt c hc hs (by have := bits_le t; omega)
          show c.i.s = _
          unfold Int128.s; rw [if_pos this]
        · rw [val_signed _ (by exact ht), val_signed _ hs]
      rw [e]
      refine ⟨?_, by simp⟩
      have := range_mono _ _ hlt hk
      have := (wf_iff c).1 hc
      unfold TypeKind.InRange
      omega
    · have ht : t.signed = false := by
        cases h : t.signed <;> simp_all
      rw [if_neg (by simpa using hk)]
      exact ⟨⟨y, t⟩, bind_of h1 (bind_of h2 rfl), rfl, yu ht⟩
  · rw [if_neg hlt]
    cases ht : t.signed
    · exact ⟨⟨y, t⟩, bind_of h1 (bind_of h2 rfl), rfl, yu ht⟩
    · obtain ⟨r, e1, e2⟩ := extend_spec y t
      unfold i128_extend at e1
      rw [bitsize_eq, if_neg h128, is_signed_eq, ht] at e1
      refine ⟨⟨r, t⟩, ?_, rfl, e2.congr hy⟩
      obtain ⟨z, e3, -⟩ := shl64_u y (BitVec.ofNat 64 (128 - t.bits))
      simp only [↓reduceIte, e3, Option.bind_eq_bind, Option.bind_some] at e1
      refine bind_of h1 (bind_of h2 ?_)
      rw [if_pos rfl]
      exact bind_of e3 (bind_of e1 rfl)

theorem shr_spec (c : CInt) (n : BitVec 64) (hc : c.WF) :
    ∃ r, int_shr64 c n = some r ∧ r.type = c.type ∧ r.val = c.val / 2 ^ n.toNat := by
  unfold int_shr64
  rw [is_unsigned_eq]
  have key : ∀ (x : Int128) , c.type.InRange (c.val / 2 ^ n.toNat) →
      ((2 : Int) ^ 128) ∣ (x.u : Int) - c.val / 2 ^ n.toNat →
      ∃ r, i128_extend x c.type = some r ∧ CInt.val ⟨r, c.type⟩ = c.val / 2 ^ n.toNat := by
    intro x h1 h2
    obtain ⟨r, e1, e2⟩ := extend_wraps x c.type _ h2
    exact ⟨r, e1, e2.unique ⟨h1, by simp⟩⟩
  have hpos : (0 : Int) < 2 ^ n.toNat := by positivity
  have hr : c.type.InRange (c.val / 2 ^ n.toNat) := by
    have h := (wf_iff c).1 hc
    have h1 : c.type.minVal ≤ 0 := by cases c.type <;> decide
    have h2 : 0 ≤ c.type.maxVal := by cases c.type <;> decide
    by_cases h0 : 0 ≤ c.val
    · exact ⟨le_trans h1 (Int.ediv_nonneg h0 hpos.le),
        le_trans (Int.ediv_le_self _ h0) h.2⟩
    · have h3 : c.val / 2 ^ n.toNat < 0 := Int.ediv_neg_of_neg_of_pos (by omega) hpos
      refine ⟨le_trans h.1 ?_, by omega⟩
      rw [Int.le_ediv_iff_mul_le hpos]
      have : (1 : Int) ≤ 2 ^ n.toNat := hpos
      nlinarith
  cases hs : c.type.signed
  · obtain ⟨x, h1, h2⟩ := lshr64_u c.i n
    have hx : (x.u : Int) = c.val / 2 ^ n.toNat := by
      rw [h2, val_unsigned _ hs]; push_cast; rfl
    obtain ⟨r, e1, e2⟩ := key x hr (by rw [hx]; simp)
    refine ⟨⟨r, c.type⟩, ?_, rfl, e2⟩
    rw [Bool.not_false, if_pos rfl]
    exact bind_of h1 (bind_of e1 rfl)
  · obtain ⟨x, h1, h2⟩ := ashr64_s c.i n
    have hx : x.s = c.val / 2 ^ n.toNat := by rw [h2, val_signed _ hs]
    obtain ⟨r, e1, e2⟩ := key x hr (by
      rw [← hx]; have := s_dvd x; rw [← Int.dvd_neg] at this; rwa [Int.neg_sub] at this)
    refine ⟨⟨r, c.type⟩, ?_, rfl, e2⟩
    rw [Bool.not_true, if_neg Bool.false_ne_true]
    exact bind_of h1 (bind_of e1 rfl)

theorem shl_spec (c : CInt) (n : BitVec 64) :
    ∃ r, int_shl64 c n = some r ∧ r.type = c.type ∧ Wraps c.type (c.val * 2 ^ n.toNat) r.val := by
  unfold int_shl64
  obtain ⟨x, h1, h2⟩ := shl64_u c.i n
  have h3 := dvd_mod_pow (c.i.u * 2 ^ n.toNat) 128
  rw [← h2] at h3
  have h4 := Dvd.dvd.mul_right (val_dvd c) (2 ^ n.toNat)
  have h5 := Int.dvd_sub h3 h4
  have e : (x.u : Int) - ((c.i.u * 2 ^ n.toNat : Nat) : Int) - (c.val - c.i.u) * 2 ^ n.toNat
      = (x.u : Int) - c.val * 2 ^ n.toNat := by
    rw [Nat.cast_mul, Nat.cast_pow]; ring
  rw [e] at h5
  obtain ⟨r, e1, e2⟩ := extend_wraps x c.type (c.val * 2 ^ n.toNat) h5
  exact ⟨⟨r, c.type⟩, bind_of h1 (bind_of e1 rfl), rfl, e2⟩

theorem bits_needed_spec (c : CInt) : ∃ n, int_bits_needed c = some n ∧
    FitsBits c.type.signed n.toNat c.val ∧
    ∀ m, FitsBits c.type.signed m c.val → n.toNat ≤ m := by
  unfold int_bits_needed
  rw [is_signed_eq]
  have pow_le : ∀ {a b x : Nat}, 2 ^ a ≤ x → x < 2 ^ b → a < b := by
    intro a b x h1 h2
    exact (Nat.pow_lt_pow_iff_right (by omega)).1 (lt_of_le_of_lt h1 h2)
  cases hs : c.type.signed
  · rw [if_neg Bool.false_ne_true]
    obtain ⟨k, h1, h2, h3, h4⟩ := clz_spec c.i
    have e : (128 - k : BitVec 32).toNat = 128 - k.toNat := by
      rw [BitVec.toNat_sub_of_le]
      · rfl
      · show k.toNat ≤ _; exact h2
    refine ⟨128 - k, bind_of h1 rfl, ?_, ?_⟩
    · rw [e]; unfold FitsBits
      rw [if_neg Bool.false_ne_true, val_unsigned _ hs]
      exact ⟨by omega, by exact_mod_cast h3⟩
    · intro m hm
      unfold FitsBits at hm
      rw [if_neg Bool.false_ne_true, val_unsigned _ hs] at hm
      rw [e]
      have hm2 : c.i.u < 2 ^ m := by exact_mod_cast hm.2
      by_cases hk : k.toNat < 128
      · have := pow_le (h4 hk) hm2; omega
      · omega
  · rw [if_pos rfl]
    have hr := s_range c.i
    have habs : ∃ i : Int128, (if i128_is_neg c.i then i128_sub64 (i128_neg c.i) 1 else c.i) = i ∧
        (c.i.s < 0 → (i.u : Int) = - c.i.s - 1) ∧ (0 ≤ c.i.s → (i.u : Int) = c.i.s) ∧ i.u < 2 ^ 127 := by
      refine ⟨_, rfl, ?_⟩
      unfold i128_is_neg
      rw [isneg_high]
      by_cases h : c.i.s < 0
      · rw [if_pos (by simpa using h)]
        rw [u_sub64, u_neg, one_toNat]
        have := c.i.u_lt
        unfold Int128.s at h hr ⊢
        split at h
        · omega
        · rw [if_neg (by assumption)]; omega
      · rw [if_neg (by simpa using h)]
        have := s_of_nonneg _ h
        omega
    obtain ⟨i, hi, h5, h6, h7⟩ := habs
    rw [hi]
    obtain ⟨k, h1, h2, h3, h4⟩ := clz_spec i
    have hk1 : 1 ≤ k.toNat := by
      by_contra hcon
      have : k.toNat = 0 := by omega
      rw [this] at h4
      have := h4 (by omega)
      have : (2 : Nat) ^ (128 - 0 - 1) = 2 ^ 127 := by norm_num
      omega
    have e : (1 + 128 - k : BitVec 32).toNat = 129 - k.toNat := by
      rw [BitVec.toNat_sub_of_le]
      · rfl
      · show k.toNat ≤ _
        have : (1 + 128 : BitVec 32).toNat = 129 := rfl
        omega
    refine ⟨1 + 128 - k, bind_of h1 rfl, ?_, ?_⟩
    · rw [e]; unfold FitsBits
      rw [if_pos rfl, val_signed _ hs, show 129 - k.toNat - 1 = 128 - k.toNat by omega]
      have h3' : (i.u : Int) < 2 ^ (128 - k.toNat) := by exact_mod_cast h3
      generalize (2 : Int) ^ (128 - k.toNat) = P at *
      refine ⟨by omega, ?_⟩
      by_cases h : c.i.s < 0
      · have := h5 h; omega
      · have := h6 (by omega); omega
    · intro m hm
      unfold FitsBits at hm
      rw [if_pos rfl, val_signed _ hs] at hm
      rw [e]
      obtain ⟨hm1, hm2, hm3⟩ := hm
      have hlt : i.u < 2 ^ (m - 1) := by
        have : (i.u : Int) < 2 ^ (m - 1) := by
          generalize (2 : Int) ^ (m - 1) = P at *
          by_cases h : c.i.s < 0
          · have := h5 h; omega
          · have := h6 (by omega); omega
        exact_mod_cast this
      by_cases hk : k.toNat < 128
      · have := pow_le (h4 hk) hlt; omega
      · omega

end C3.Bigint
