import Verif.I128Rt.LemmasDiv
import Verif.I128Rt.Spec

/-! # Signs, shifts and products -/

set_option autoImplicit false

namespace C3.I128Rt

theorem xor_ones (x : Nat) (h : x < 2 ^ 128) : x ^^^ (2 ^ 128 - 1) = 2 ^ 128 - 1 - x := by
  have h1 : (BitVec.ofNat 128 x ^^^ BitVec.allOnes 128) = ~~~ BitVec.ofNat 128 x :=
    BitVec.xor_allOnes
  have h2 := congrArg BitVec.toNat h1
  rw [BitVec.toNat_xor, BitVec.toNat_not, BitVec.toNat_allOnes, BitVec.toNat_ofNat,
    Nat.mod_eq_of_lt h] at h2
  exact h2

theorem applySign_zero (x : Nat) (h : x < 2 ^ 128) : applySign x 0 = x := by
  unfold applySign add128 sub128
  rw [Nat.xor_zero]; omega

theorem applySign_ones (x : Nat) (h : x < 2 ^ 128) :
    applySign x (2 ^ 128 - 1) = (2 ^ 128 - x) % 2 ^ 128 := by
  unfold applySign add128 sub128
  rw [xor_ones x h]; omega

/-- What the sign of an operand is. -/
theorem sign_cases (a : Nat) (h : a < 2 ^ 128) :
    (signMask a = 0 ∧ applySign a (signMask a) = a ∧ toInt a = (a : Int) ∧ a < 2 ^ 127) ∨
    (signMask a = 2 ^ 128 - 1 ∧ applySign a (signMask a) = 2 ^ 128 - a ∧
      toInt a = -((2 ^ 128 - a : Nat) : Int) ∧ 2 ^ 127 ≤ a) := by
  rcases signMask_cases a h with ⟨h1, h2⟩ | ⟨h1, h2⟩
  · right
    refine ⟨h2, ?_, ?_, h1⟩
    · rw [h2, applySign_ones a h]; omega
    · unfold toInt; rw [if_neg (by omega)]; omega
  · left
    refine ⟨h2, ?_, ?_, h1⟩
    · rw [h2, applySign_zero a h]
    · unfold toInt; rw [if_pos h1]

theorem ofInt_nat (x : Nat) (h : x < 2 ^ 128) : ofInt (x : Int) = x := by
  unfold ofInt; omega

theorem ofInt_neg (x : Nat) (h : x < 2 ^ 128) : ofInt (-(x : Int)) = (2 ^ 128 - x) % 2 ^ 128 := by
  unfold ofInt; omega

theorem ones_xor_zero : 0 ^^^ (2 ^ 128 - 1) = 2 ^ 128 - 1 := by decide
theorem ones_xor_ones : (2 ^ 128 - 1) ^^^ (2 ^ 128 - 1) = 0 := by decide

theorem divti3_eq (a b : Nat) (ha : a < 2 ^ 128) (hb : b < 2 ^ 128) (h0 : b ≠ 0) :
    divti3 a b = some (ofInt ((toInt a).tdiv (toInt b))) := by
  unfold divti3 udivti3
  simp only
  rcases sign_cases a ha with ⟨a1, a2, a3, a4⟩ | ⟨a1, a2, a3, a4⟩ <;>
  rcases sign_cases b hb with ⟨b1, b2, b3, b4⟩ | ⟨b1, b2, b3, b4⟩ <;>
  rw [a2, b2, a1, b1, a3, b3, udivmod_eq _ _ _ (by omega) (by omega) (by omega)] <;>
  simp only [Option.bind_eq_bind, Option.bind_some, want, Bool.false_eq_true, if_false]
  · have hle := Nat.div_le_self a b
    rw [Nat.xor_zero, applySign_zero _ (by omega), ← Int.ofNat_tdiv, ofInt_nat _ (by omega)]
  · have hle := Nat.div_le_self a (2 ^ 128 - b)
    rw [ones_xor_zero, applySign_ones _ (by omega), Int.tdiv_neg, ← Int.ofNat_tdiv,
      ofInt_neg _ (by omega)]
  · have hle := Nat.div_le_self (2 ^ 128 - a) b
    rw [Nat.xor_zero, applySign_ones _ (by omega), Int.neg_tdiv, ← Int.ofNat_tdiv,
      ofInt_neg _ (by omega)]
  · have hle := Nat.div_le_self (2 ^ 128 - a) (2 ^ 128 - b)
    rw [ones_xor_ones, applySign_zero _ (by omega), Int.neg_tdiv, Int.tdiv_neg, Int.neg_neg,
      ← Int.ofNat_tdiv, ofInt_nat _ (by omega)]

theorem modti3_eq (a b : Nat) (ha : a < 2 ^ 128) (hb : b < 2 ^ 128) (h0 : b ≠ 0) :
    modti3 a b = some (ofInt ((toInt a).tmod (toInt b))) := by
  unfold modti3 umodti3
  simp only
  rcases sign_cases a ha with ⟨a1, a2, a3, a4⟩ | ⟨a1, a2, a3, a4⟩ <;>
  rcases sign_cases b hb with ⟨b1, b2, b3, b4⟩ | ⟨b1, b2, b3, b4⟩ <;>
  rw [a2, b2, a1, a3, b3, udivmod_eq _ _ _ (by omega) (by omega) (by omega)] <;>
  simp only [Option.bind_eq_bind, Option.bind_some, want, if_true]
  · have hle := Nat.mod_le a b
    rw [applySign_zero _ (by omega), ← Int.ofNat_tmod, ofInt_nat _ (by omega)]
  · have hle := Nat.mod_le a (2 ^ 128 - b)
    rw [applySign_zero _ (by omega), Int.tmod_neg, ← Int.ofNat_tmod, ofInt_nat _ (by omega)]
  · have hle := Nat.mod_le (2 ^ 128 - a) b
    rw [applySign_ones _ (by omega), Int.neg_tmod, ← Int.ofNat_tmod, ofInt_neg _ (by omega)]
  · have hle := Nat.mod_le (2 ^ 128 - a) (2 ^ 128 - b)
    rw [applySign_ones _ (by omega), Int.neg_tmod, Int.tmod_neg, ← Int.ofNat_tmod,
      ofInt_neg _ (by omega)]

theorem divti3_zero (a : Nat) : divti3 a 0 = none ∧ modti3 a 0 = none := by
  have h : applySign 0 (signMask 0) = 0 := by decide
  unfold divti3 modti3 udivti3 umodti3
  simp only [h, udivmod_zero, Option.bind_eq_bind, Option.bind_none, and_self]

/-! ## Shifts -/

theorem shr_word (x : Bits) (hl : x.low < 2 ^ 64) (k : Nat) (hk : 64 ≤ k) :
    x.all / 2 ^ k = x.high / 2 ^ (k - 64) := by
  have : 2 ^ k = 2 ^ 64 * 2 ^ (k - 64) := by rw [← Nat.pow_add]; congr 1; omega
  rw [this, ← Nat.div_div_eq_div_mul]
  congr 1
  simp only [Bits.all]; omega

theorem lshr_small (x : Bits) (hl : x.low < 2 ^ 64) (k : Nat) (hk0 : 0 < k) (hk : k < 64) :
    (do
      let low := (← shl x.high (64 - k)) ||| (← shr x.low k)
      some (Bits.all ⟨low, ← shr x.high k⟩)) = some (x.all / 2 ^ k) := by
  obtain ⟨h1, _, h3, _, h5, _⟩ := split_low x k hk0 hk hl
  have a1 : shl x.high (64 - k) = some (x.high * 2 ^ (64 - k) % 2 ^ 64) := by
    rw [shl, if_pos (by omega)]
  have a2 : shr x.low k = some (x.low / 2 ^ k) := by rw [shr, if_pos hk]
  rw [a1, a2] at h3
  simp only [Option.bind_eq_bind, Option.bind_some, Option.some.injEq] at h3
  rw [h1, a1, a2]
  simp only [Option.bind_eq_bind, Option.bind_some, h3]
  rw [← h5]; rfl

theorem lshrti3_eq (a b : Nat) (ha : a < 2 ^ 128) (hb : b < 128) :
    lshrti3 a b = some (a / 2 ^ b) := by
  have e := all_ofAll a ha
  have hl := ofAll_low a
  unfold lshrti3
  simp only
  by_cases h : b ≥ 64
  · rw [if_pos h, shr, if_pos (by omega)]
    simp only [Option.bind_eq_bind, Option.bind_some]
    conv => rhs; rw [← e]
    rw [shr_word _ hl b h]; simp [Bits.all]
  · rw [if_neg h]
    by_cases h0 : b = 0
    · rw [if_pos h0, h0]; simp
    · rw [if_neg h0, lshr_small _ hl b (by omega) (by omega), e]

theorem ashrti3_eq (a b : Nat) (ha : a < 2 ^ 128) (hb : b < 128) :
    ashrti3 a b =
      some (if 64 ≤ b then a / 2 ^ 127 * 2 ^ 64 + a / 2 ^ b else a / 2 ^ b) := by
  have e := all_ofAll a ha
  have hl := ofAll_low a
  unfold ashrti3
  simp only
  by_cases h : b ≥ 64
  · rw [if_pos h, if_pos h, shr, if_pos (by omega), shr, if_pos (by omega)]
    simp only [Option.bind_eq_bind, Option.bind_some]
    conv => rhs; rw [← e]
    rw [shr_word _ hl b h, shr_word _ hl 127 (by omega)]; simp [Bits.all]
  · rw [if_neg h, if_neg h]
    by_cases h0 : b = 0
    · rw [if_pos h0, h0]; simp
    · rw [if_neg h0, lshr_small _ hl b (by omega) (by omega), e]

theorem ashlti3_large (a b : Nat) (h : 64 ≤ b) (hb : b < 128) : ashlti3 a b = some 0 := by
  unfold ashlti3
  simp only
  rw [if_pos h, shl, if_pos (by omega)]
  simp [Bits.all]

theorem ashlti3_small (a b : Nat) (ha : a < 2 ^ 128) (hb : b < 64) :
    ashlti3 a b = some (a * 2 ^ b % 2 ^ 128) := by
  have e := all_ofAll a ha
  have hl := ofAll_low a
  unfold ashlti3
  simp only
  rw [if_neg (by omega)]
  by_cases h0 : b = 0
  · rw [if_pos h0, h0, Nat.pow_zero, Nat.mul_one, Nat.mod_eq_of_lt ha]
  · rw [if_neg h0, shl, if_pos hb, shr, if_pos (by omega), shl, if_pos hb]
    simp only [Option.bind_eq_bind, Option.bind_some]
    rw [or_join _ _ b (by omega) hl]
    conv => rhs; rw [← e]
    generalize ofAll a = x at *
    have hp := pow_split b (by omega)
    have hlow : x.low * 2 ^ b = x.low / 2 ^ (64 - b) * 2 ^ 64 + x.low * 2 ^ b % 2 ^ 64 := by
      have h1 := Nat.div_add_mod (x.low * 2 ^ b) (2 ^ 64)
      have h2 : x.low * 2 ^ b / 2 ^ 64 = x.low / 2 ^ (64 - b) := by
        rw [← hp, Nat.mul_comm (2 ^ b) (2 ^ (64 - b)), Nat.mul_div_mul_right _ _ (Nat.two_pow_pos b)]
      rw [h2, Nat.mul_comm] at h1
      exact h1.symm
    have hlt : x.low / 2 ^ (64 - b) < 2 ^ b := by
      rw [Nat.div_lt_iff_lt_mul (Nat.two_pow_pos _), hp]; exact hl
    have hhigh : x.high * 2 ^ b % 2 ^ 64 = (x.high % 2 ^ (64 - b)) * 2 ^ b := by
      rw [← hp, Nat.mul_comm (2 ^ b), Nat.mul_mod_mul_right]
    have hhb : x.high * 2 ^ b % 2 ^ 64 + 2 ^ b ≤ 2 ^ 64 := by
      rw [hhigh]
      have h1 : x.high % 2 ^ (64 - b) < 2 ^ (64 - b) := Nat.mod_lt _ (Nat.two_pow_pos _)
      have h2 := Nat.mul_le_mul_right (2 ^ b) h1
      rw [Nat.mul_comm (2 ^ (64 - b)), hp, Nat.succ_mul] at h2
      exact h2
    have hall : x.all * 2 ^ b = x.high * 2 ^ b * 2 ^ 64 + x.low * 2 ^ b := by
      rw [Bits.all, Nat.add_mul, Nat.mul_right_comm]
    rw [hall]
    simp only [Bits.all]
    apply congrArg some
    generalize x.high * 2 ^ b = H at *
    generalize x.low * 2 ^ b = L at *
    generalize x.low / 2 ^ (64 - b) = M at *
    generalize 2 ^ b = P at *
    omega

/-! ## Products -/

theorem mask32 (x : Nat) : x &&& 0xffffffff = x % 2 ^ 32 := by
  have := @Nat.and_two_pow_sub_one_eq_mod x 32
  exact this

theorem mulddi3_eq (a b : Nat) (ha : a < 2 ^ 64) (hb : b < 2 ^ 64) : mulddi3 a b = a * b := by
  unfold mulddi3
  simp only [mask32, Bits.all]
  have a1 : a / 2 ^ 32 ≤ 2 ^ 32 - 1 := by omega
  have a0 : a % 2 ^ 32 ≤ 2 ^ 32 - 1 := by omega
  have b1 : b / 2 ^ 32 ≤ 2 ^ 32 - 1 := by omega
  have b0 : b % 2 ^ 32 ≤ 2 ^ 32 - 1 := by omega
  have ea := Nat.div_add_mod a (2 ^ 32)
  have eb := Nat.div_add_mod b (2 ^ 32)
  generalize a / 2 ^ 32 = A1 at *
  generalize a % 2 ^ 32 = A0 at *
  generalize b / 2 ^ 32 = B1 at *
  generalize b % 2 ^ 32 = B0 at *
  have h00 := Nat.mul_le_mul a0 b0
  have h10 := Nat.mul_le_mul a1 b0
  have h01 := Nat.mul_le_mul b1 a0
  have h11 := Nat.mul_le_mul a1 b1
  have e : a * b = A1 * B1 * 2 ^ 64 + (A1 * B0 + B1 * A0) * 2 ^ 32 + A0 * B0 := by
    rw [← ea, ← eb]
    generalize hK : (2 : Nat) ^ 32 = K
    have h64 : (2 : Nat) ^ 64 = K * K := by rw [← hK]
    rw [h64, Nat.add_mul, Nat.mul_add, Nat.mul_add, Nat.add_mul, Nat.mul_comm B1 A0]
    have t1 : K * A1 * (K * B1) = A1 * B1 * (K * K) := by
      rw [Nat.mul_mul_mul_comm, Nat.mul_comm]
    have t2 : K * A1 * B0 = A1 * B0 * K := by rw [Nat.mul_assoc, Nat.mul_comm]
    have t3 : A0 * (K * B1) = A0 * B1 * K := by rw [Nat.mul_left_comm, Nat.mul_comm]
    rw [t1, t2, t3]; omega
  rw [e]
  generalize A0 * B0 = p00 at *
  generalize A1 * B0 = p10 at *
  generalize B1 * A0 = p01 at *
  generalize A1 * B1 = p11 at *
  clear e ea eb ha hb
  omega

theorem multi3_eq (a b : Nat) (ha : a < 2 ^ 128) (hb : b < 2 ^ 128) :
    multi3 a b = a * b % 2 ^ 128 := by
  have ea := all_ofAll a ha
  have eb := all_ofAll b hb
  have al := ofAll_low a
  have bl := ofAll_low b
  have ah := ofAll_high a
  have bh := ofAll_high b
  unfold multi3
  simp only
  rw [mulddi3_eq _ _ al bl]
  conv => rhs; rw [← ea, ← eb]
  generalize ofAll a = x at *
  generalize ofAll b = y at *
  have hlow : x.low * y.low < 2 ^ 128 := by
    have := Nat.mul_lt_mul'' al bl
    exact this
  have e : x.all * y.all = x.high * y.high * 2 ^ 128 + (x.high * y.low + x.low * y.high) * 2 ^ 64
      + x.low * y.low := by
    rw [Bits.all, Bits.all]
    generalize hK : (2 : Nat) ^ 64 = K
    have h128 : (2 : Nat) ^ 128 = K * K := by rw [← hK, ← Nat.pow_add]
    rw [h128, Nat.add_mul, Nat.mul_add, Nat.mul_add, Nat.add_mul]
    have t1 : x.high * K * (y.high * K) = x.high * y.high * (K * K) := Nat.mul_mul_mul_comm ..
    have t2 : x.high * K * y.low = x.high * y.low * K := Nat.mul_right_comm ..
    have t3 : x.low * (y.high * K) = x.low * y.high * K := by rw [Nat.mul_assoc]
    rw [t1, t2, t3]; omega
  rw [e]
  simp only [ofAll, Bits.all]
  generalize x.low * y.low = p at *
  generalize x.high * y.low + x.low * y.high = m at *
  generalize x.high * y.high = h at *
  clear e ea eb
  omega

end C3.I128Rt
