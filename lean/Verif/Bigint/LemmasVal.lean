import Verif.Bigint.LemmasDiv
import Verif.Bigint.LemmasPopcnt

/-! Helper lemmas: constants with a type. -/

namespace C3.Bigint

theorem val_dvd (c : CInt) : ((2 : Int) ^ 128) ∣ c.val - c.i.u := by
  unfold CInt.val
  split
  · exact s_dvd c.i
  · simp

theorem val_dvd_bits (c : CInt) (t : TypeKind) : ((2 : Int) ^ t.bits) ∣ c.val - c.i.u :=
  Int.dvd_trans (pow_bits_dvd t) (val_dvd c)

/-- Lifting an operation on 128-bit words to typed constants. -/
theorem extend_wraps (x : Int128) (t : TypeKind) (v : Int) (h : ((2 : Int) ^ 128) ∣ (x.u : Int) - v) :
    ∃ r, i128_extend x t = some r ∧ Wraps t v (CInt.val ⟨r, t⟩) := by
  obtain ⟨r, h1, h2⟩ := extend_spec x t
  exact ⟨r, h1, h2.congr (Int.dvd_trans (pow_bits_dvd t) h)⟩

theorem dvd_mod_sub (a : Nat) (m : Nat) : (m : Int) ∣ ((a % m : Nat) : Int) - a := by
  rw [Int.natCast_mod]
  exact ⟨-(a / m), by have := Int.emod_add_mul_ediv (a : Int) (m : Int); linarith⟩

theorem wf_iff (c : CInt) : c.WF ↔ c.type.minVal ≤ c.val ∧ c.val ≤ c.type.maxVal := Iff.rfl

theorem ofInt_s (x : Int128) (N : Nat) (hN : N ≤ 128) :
    BitVec.ofInt N x.s = x.bv.setWidth N := by
  apply BitVec.eq_of_toInt_eq
  rw [BitVec.toInt_ofInt, ← BitVec.signExtend_eq_setWidth_of_le _ hN,
    BitVec.toInt_signExtend_eq_toInt_bmod_of_le _ hN, x.bv_toInt]

theorem ofInt_val (c : CInt) (N : Nat) (hN : N ≤ 128) :
    BitVec.ofInt N c.val = c.i.bv.setWidth N := by
  unfold CInt.val
  split
  · exact ofInt_s _ _ hN
  · rw [BitVec.ofInt_natCast, ← c.i.bv_toNat, BitVec.ofNat_toNat]

theorem signExtend_of_inRange (x : Int128) (N : Nat) (hN0 : 0 < N) (hN : N ≤ 128)
    (h1 : -2 ^ (N - 1) ≤ x.s) (h2 : x.s < 2 ^ (N - 1)) :
    x.bv = (BitVec.ofInt N x.s).signExtend 128 := by
  apply BitVec.eq_of_toInt_eq
  rw [BitVec.toInt_signExtend_of_le hN, BitVec.toInt_ofInt_eq_self hN0 h1 h2, x.bv_toInt]

theorem inRange_of_signExtend (x : Int128) (N : Nat) (hN : N ≤ 128) (y : BitVec N)
    (h : x.bv = y.signExtend 128) : -2 ^ (N - 1) ≤ x.s ∧ x.s < 2 ^ (N - 1) := by
  rw [← x.bv_toInt, h, BitVec.toInt_signExtend_of_le hN]
  exact ⟨BitVec.le_toInt _, BitVec.toInt_lt⟩

theorem bits_le (t : TypeKind) : t.bits ≤ 128 := by cases t <;> decide
theorem bits_pos (t : TypeKind) : 0 < t.bits := by cases t <;> decide

theorem wf_signed (c : CInt) (h : c.type.signed = true) :
    c.WF ↔ -2 ^ (c.type.bits - 1) ≤ c.i.s ∧ c.i.s < 2 ^ (c.type.bits - 1) := by
  unfold CInt.WF TypeKind.InRange TypeKind.minVal TypeKind.maxVal CInt.val
  simp only [h, ↓reduceIte]
  exact and_congr_right fun _ => Int.le_sub_one_iff

theorem wf_unsigned (c : CInt) (h : c.type.signed = false) :
    c.WF ↔ c.i.u < 2 ^ c.type.bits := by
  unfold CInt.WF TypeKind.InRange TypeKind.minVal TypeKind.maxVal CInt.val
  simp only [h, Bool.false_eq_true, ↓reduceIte]
  rw [Int.le_sub_one_iff]
  constructor
  · rintro ⟨-, h⟩; exact_mod_cast h
  · intro h; exact ⟨Int.natCast_nonneg _, by exact_mod_cast h⟩

/-- A bitwise operation on words that commutes with widening keeps constants well formed. -/
theorem bitwise_wf (f : Int128 → Int128 → Int128) (g : ∀ n, BitVec n → BitVec n → BitVec n)
    (hf : ∀ a b, (f a b).bv = g 128 a.bv b.bv)
    (hs : ∀ n (x y : BitVec n), (g n x y).signExtend 128 = g 128 (x.signExtend 128) (y.signExtend 128))
    (hu : ∀ n x y, x < 2 ^ n → y < 2 ^ n → ∀ (a b : BitVec 128), a.toNat = x → b.toNat = y →
      (g 128 a b).toNat < 2 ^ n)
    (a b : CInt) (hab : a.type = b.type) (ha : a.WF) (hb : b.WF) :
    CInt.WF ⟨f a.i b.i, a.type⟩ := by
  cases hsg : a.type.signed
  · rw [wf_unsigned _ (by exact hsg)]
    rw [wf_unsigned _ hsg] at ha
    rw [wf_unsigned _ (hab ▸ hsg), ← hab] at hb
    show (f a.i b.i).u < _
    rw [← (f a.i b.i).bv_toNat, hf]
    exact hu _ _ _ ha hb _ _ a.i.bv_toNat b.i.bv_toNat
  · rw [wf_signed _ (by exact hsg)]
    rw [wf_signed _ hsg] at ha
    rw [wf_signed _ (hab ▸ hsg), ← hab] at hb
    have h1 := signExtend_of_inRange a.i _ (bits_pos a.type) (bits_le a.type) ha.1 ha.2
    have h2 := signExtend_of_inRange b.i _ (bits_pos a.type) (bits_le a.type) hb.1 hb.2
    refine inRange_of_signExtend _ _ (bits_le a.type) (g _ (BitVec.ofInt _ a.i.s) (BitVec.ofInt _ b.i.s)) (?_)
    rw [hs, ← h1, ← h2]
    exact hf _ _

theorem signExtend_or' {n v : Nat} (x y : BitVec n) :
    (x ||| y).signExtend v = x.signExtend v ||| y.signExtend v := by
  ext i hi
  simp only [BitVec.getElem_signExtend, BitVec.getElem_or, BitVec.msb_or]
  split <;> simp

theorem signExtend_xor' {n v : Nat} (x y : BitVec n) :
    (x ^^^ y).signExtend v = x.signExtend v ^^^ y.signExtend v := by
  ext i hi
  simp only [BitVec.getElem_signExtend, BitVec.getElem_xor, BitVec.msb_xor]
  split <;> simp

theorem is_zero_iff (c : CInt) : int_is_zero c = true ↔ c.val = 0 := by
  have h1 : int_is_zero c = i128_is_zero c.i := rfl
  rw [h1, is_zero_spec]
  have := c.i.u_lt
  unfold CInt.val Int128.s
  split
  · simp only [decide_eq_true_eq]; split <;> omega
  · simp only [decide_eq_true_eq]; omega

theorem is_neg_iff (c : CInt) : int_is_neg c = true ↔ c.val < 0 := by
  unfold int_is_neg i128_is_neg CInt.val
  rw [is_unsigned_eq, isneg_high]
  cases c.type.signed <;> simp

theorem matches_iff (op : CmpOp) (a b : Int) :
    binary_op_matches_res op (cmpInt a b) = true ↔ op.holds a b := by
  unfold cmpInt
  cases op <;> simp only [binary_op_matches_res, CmpOp.holds] <;> split <;> (try split) <;>
    simp_all <;> omega

theorem s_of_nonneg (a : Int128) (h : ¬ a.s < 0) : a.s = a.u := by
  have := a.u_lt
  unfold Int128.s at h ⊢
  split <;> [rfl; (rw [if_neg (by assumption)] at h; omega)]

theorem val_signed (c : CInt) (h : c.type.signed = true) : c.val = c.i.s := by
  unfold CInt.val; exact if_pos h

theorem val_unsigned (c : CInt) (h : c.type.signed = false) : c.val = (c.i.u : Int) := by
  unfold CInt.val; exact if_neg (by rw [h]; exact Bool.false_ne_true)

theorem compare_spec (a b : CInt) : int_compare a b = cmpInt a.val b.val := by
  unfold int_compare
  rw [is_signed_eq, is_signed_eq]
  cases ha : a.type.signed <;> cases hb : b.type.signed
  · rw [if_neg Bool.false_ne_true, if_neg, ucomp_spec, val_unsigned _ ha, val_unsigned _ hb]
    rw [is_neg_iff, val_unsigned _ hb]; omega
  · have h0 := val_unsigned _ ha
    have h1 := val_signed _ hb
    rw [if_neg Bool.false_ne_true]
    by_cases h : b.val < 0
    · rw [if_pos ((is_neg_iff b).2 h)]
      unfold cmpInt
      rw [if_neg (by omega), if_neg (by omega)]
    · rw [if_neg (fun h' => h ((is_neg_iff b).1 h')), ucomp_spec, h0]
      rw [h1] at h ⊢
      rw [s_of_nonneg _ h]
  · have h0 := val_signed _ ha
    have h1 := val_unsigned _ hb
    rw [if_pos rfl, if_neg Bool.false_ne_true]
    by_cases h : a.val < 0
    · rw [if_pos ((is_neg_iff a).2 h)]
      unfold cmpInt
      rw [if_pos (by omega)]
    · rw [if_neg (fun h' => h ((is_neg_iff a).1 h')), ucomp_spec, h1]
      rw [h0] at h ⊢
      rw [s_of_nonneg _ h]
  · rw [if_pos rfl, if_pos rfl, scomp_spec, val_signed _ ha, val_signed _ hb]

theorem tdiv_in_range {a b mn mx : Int} (h1 : mn = -mx - 1) (h2 : 0 ≤ mx) (h3 : mn ≤ a)
    (h4 : a ≤ mx) (h5 : b ≠ 0) (h6 : ¬ (a = mn ∧ b = -1)) :
    mn ≤ a.tdiv b ∧ a.tdiv b ≤ mx := by
  by_cases hb1 : b = 1
  · rw [hb1, Int.tdiv_one]; omega
  by_cases hbm : b = -1
  · rw [hbm, Int.tdiv_neg, Int.tdiv_one]; omega
  by_cases ha0 : a = 0
  · rw [ha0, Int.zero_tdiv]; omega
  have hab : (a.tdiv b).natAbs = a.natAbs / b.natAbs := Int.natAbs_tdiv a b
  have := Nat.div_lt_self (n := a.natAbs) (k := b.natAbs) (by omega) (by omega)
  rw [← hab] at this
  generalize a.tdiv b = q at *
  omega

theorem u_eq_low (a : Int128) (h : a.high = 0) : a.u = a.low.toNat := by
  unfold Int128.u; rw [h]; simp

theorem high_big (a : Int128) (h : a.high ≠ 0) : 2 ^ 64 ≤ a.u := by
  unfold Int128.u
  have : a.high.toNat ≠ 0 := fun h' => h (BitVec.eq_of_toNat_eq h')
  omega

/-- The shared tail of the 64-bit comparisons. -/
theorem low_compare (a : Int128) (b : BitVec 64) :
    (if a.high ≠ 0 ∨ a.low > b then CmpRes.GT else if a.low < b then .LT else .EQ)
      = cmpInt a.u b.toNat := by
  have := b.isLt
  unfold cmpInt
  by_cases h : a.high = 0
  · have e := u_eq_low a h
    rw [e]
    by_cases h1 : a.low > b
    · have : b.toNat < a.low.toNat := h1
      rw [if_pos (Or.inr h1), if_neg (by omega), if_neg (by omega)]
    · have h1' : ¬ b.toNat < a.low.toNat := h1
      rw [if_neg (by simp [h, h1])]
      by_cases h2 : a.low < b
      · have : a.low.toNat < b.toNat := h2
        rw [if_pos h2, if_pos (by omega)]
      · have h2' : ¬ a.low.toNat < b.toNat := h2
        rw [if_neg h2, if_neg (by omega), if_pos (by omega)]
  · have := high_big a h
    rw [if_pos (Or.inl h), if_neg (by omega), if_neg (by omega)]

theorem unsigned_compare_spec (a : CInt) (b : BitVec 64) :
    int_unsigned_compare a b = cmpInt a.val b.toNat := by
  unfold int_unsigned_compare
  rw [is_signed_eq, low_compare]
  by_cases h : a.type.signed = true ∧ a.i.s < 0
  · rw [if_pos (by unfold i128_is_neg; rw [isneg_high]; simp [h])]
    unfold cmpInt CInt.val
    rw [h.1, if_pos (by simp only [↓reduceIte]; have := b.isLt; omega)]
  · rw [if_neg (by unfold i128_is_neg; rw [isneg_high]; simpa using h)]
    congr 1
    cases h' : a.type.signed
    · rw [val_unsigned _ h']
    · rw [val_signed _ h', s_of_nonneg _ (fun h'' => h ⟨h', h''⟩)]

theorem signed_compare_spec (a : CInt) (b : BitVec 64) :
    int_signed_compare a b = cmpInt a.val b.toInt := by
  unfold int_signed_compare
  rw [is_signed_eq]
  cases ha : a.type.signed
  · simp only [Bool.false_eq_true, ↓reduceIte]
    rw [val_unsigned _ ha]
    by_cases h : b.slt 0 = true
    · rw [if_pos (Or.inr (Or.inl h))]
      have : b.toInt < 0 := by
        have := BitVec.slt_iff_toInt_lt.1 h; simpa using this
      unfold cmpInt
      rw [if_neg (by omega), if_neg (by omega)]
    · have h0 : ¬ b.toInt < 0 := by
        intro h'; exact h (BitVec.slt_iff_toInt_lt.2 (by simpa using h'))
      have e : b.toInt = b.toNat := by
        rw [BitVec.toInt_eq_toNat_cond] at h0 ⊢; have := b.isLt; split <;> omega
      rw [e, ← low_compare]
      simp only [h, Bool.false_eq_true, false_or]
  · simp only [↓reduceIte]
    rw [scomp_spec, from_signed_s, val_signed _ ha]

end C3.Bigint
