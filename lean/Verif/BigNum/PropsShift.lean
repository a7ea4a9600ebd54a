import Verif.BigNum.LemmasDiv

/-! # C85: shifts of `BigInt`s -/

set_option autoImplicit false

namespace C3.BigNum

/-- C85: what a shift to the left gives: the bits that leave the words in use
are lost. -/
theorem C85_shl_words (N : Nat) (a : Big) (ha : Canon N a) (n : Nat) :
    Valid N (shl a n) ∧ (shl a n).len = a.len ∧
    value (shl a n).data = value a.data * 2 ^ n % span a.len := by
  have hs := ha.size
  have hle := ha.le
  obtain ⟨i1, i2, i3, i4, i5⟩ := shlLoop_spec a.len n a.data a.len rfl (by omega) ha.small
  have e : shl a n = ⟨(shlLoop a.len n a.data a.len).1, (shlLoop a.len n a.data a.len).2⟩ := by
    unfold shl shiftLeft
    rw [findLength_self ha, Int.toNat_natCast]
  rw [e]
  have hz : ∀ w ∈ (shlLoop a.len n a.data a.len).1.drop a.len, w = 0 := by
    rw [i4]
    exact ha.high
  refine ⟨{ size := by rw [i2, hs], small := i3, pos := by rw [i1]; exact ha.pos,
            le := by rw [i1]; exact hle, high := by rw [i1]; exact hz }, i1, ?_⟩
  dsimp only
  rw [← value_take _ a.len (by omega) hz, i5, take_value ha.toValid]

/-- A negative number has all of the words in use. -/
theorem neg_len {N : Nat} (hN : 0 < N) {a : Big} {x : Int} (ha : Is N a x) (hx : x < 0) : a.len = N := by
  have h1 := ha.1.lt_len
  have h2 := ha.1.lt
  have hle := ha.1.le
  rcases Nat.lt_or_ge a.len N with h | h
  · have h3 : span a.len ≤ span (N - 1) := span_mono (by omega)
    obtain ⟨k, hk, hk'⟩ := span_half hN
    have := ha.2
    unfold toInt at this
    rw [if_pos (by omega)] at this
    omega
  · omega

/-- C85: a shift to the left is right if the number stays within the words in
use, or is negative. -/
theorem C85_shl_partial (N : Nat) (hN : 0 < N) (a : Big) (x : Int) (n : Nat) (ha : Is N a x)
    (hr : InRange N (x * 2 ^ n)) (h : x < 0 ∨ x * 2 ^ n < span a.len) :
    Is N (shl a n) (x * 2 ^ n) := by
  obtain ⟨h1, h2, h3⟩ := C85_shl_words N a ha.1 n
  have hlt := ha.1.lt
  have hp := span_pos N
  have hcast : ((value a.data * 2 ^ n : Nat) : Int) = (value a.data : Int) * 2 ^ n := by push_cast; rfl
  have hpp : (0 : Int) < 2 ^ n := by positivity
  rcases Int.lt_or_le x 0 with hx | hx
  · have hl := neg_len hN ha hx
    have hxv : (value a.data : Int) = x + span N := by
      have := ha.2
      unfold toInt at this
      split at this <;> omega
    have hneg : x * 2 ^ n < 0 := Int.mul_neg_of_neg_of_pos hx hpp
    unfold InRange at hr
    have hv : ((value (shl a n).data : Nat) : Int) = x * 2 ^ n + span N := by
      rw [h3, hl, Int.natCast_emod, hcast, hxv, Int.add_mul, Int.add_mul_emod_self_left]
      rw [← Int.add_emod_right, Int.emod_eq_of_lt (by omega) (by omega)]
    refine ⟨{ toValid := h1, top := Or.inr ?_ }, ?_⟩
    · rw [h2, hl]
      apply top_ne (N := N) h1.size h1.small hN (Nat.le_refl _)
      · rw [List.drop_eq_nil_of_le (by rw [h1.size])]; simp
      · obtain ⟨k, hk, hk'⟩ := span_half hN
        omega
    · unfold toInt
      rw [if_neg (by omega)]
      omega
  · have hlt2 : x * 2 ^ n < span a.len := by
      rcases h with h | h
      · omega
      · exact h
    have hxv : (value a.data : Int) = x := by
      have := ha.2
      unfold toInt at this
      split at this <;> omega
    have hvn : ((value a.data * 2 ^ n : Nat) : Int) = x * 2 ^ n := by rw [hcast, hxv]
    have hv : value (shl a n).data = value a.data * 2 ^ n := by
      rw [h3, Nat.mod_eq_of_lt (by omega)]
    refine ⟨{ toValid := h1, top := ?_ }, ?_⟩
    · rcases ha.1.top with ht | ht
      · exact Or.inl (h2.trans ht)
      · rcases Nat.lt_or_ge 1 a.len with hl1 | hl1
        · right
          have hx0 : value a.data ≠ 0 := by
            intro h0
            apply ht
            exact zeros_of_value _ h0 _ (getD_mem _ _ (by have := ha.1.le; have := ha.1.size; omega))
          have hge := ha.1.ge hx0
          have hmul : value a.data ≤ value a.data * 2 ^ n := Nat.le_mul_of_pos_right _ (Nat.pow_pos (by decide))
          apply top_ne (N := N) h1.size h1.small h1.pos h1.le h1.high
          rw [h2, hv]
          omega
        · left
          have := ha.1.pos
          omega
    · unfold InRange at hr
      unfold toInt
      rw [hv, if_pos (by omega), hvn]

/-- C85: a positive number that leaves the words in use is not right any more,
even if there is room. -/
theorem C85_shl_loses (N : Nat) (a : Big) (x : Int) (n : Nat) (ha : Is N a x) (hx : 0 < x)
    (h : span a.len ≤ x * 2 ^ n) : toInt N (shl a n) ≠ x * 2 ^ n := by
  obtain ⟨h1, h2, h3⟩ := C85_shl_words N a ha.1 n
  have h4 := Nat.mod_lt (value a.data * 2 ^ n) (span_pos a.len)
  rw [← h3] at h4
  unfold toInt
  split <;> omega

/-- C85: no positive number is shifted rightly by 32 bits or more. -/
theorem C85_shl_32 (N : Nat) (a : Big) (x : Int) (n : Nat) (ha : Is N a x) (hx : 0 < x)
    (h : 32 ≤ n) : toInt N (shl a n) ≠ x * 2 ^ n := by
  apply C85_shl_loses N a x n ha hx
  have hv : (value a.data : Int) = x := by
    have := ha.2
    have := ha.1.lt
    unfold toInt at *
    split at * <;> omega
  have h1 := ha.1.ge (by omega)
  have hp := ha.1.pos
  have h2 : span a.len = 2 ^ 32 * span (a.len - 1) := by
    rw [← span_succ]; congr 1; omega
  have h3 : (2 : Int) ^ 32 ≤ 2 ^ n := by
    exact_mod_cast Nat.pow_le_pow_right (show 0 < 2 by decide) h
  rw [h2]
  push_cast
  rw [Int.mul_comm]
  apply Int.mul_le_mul _ h3 (by positivity) (by omega)
  omega

/-- C85: a shift to the right gives back the number it is given. -/
theorem C85_shr_same (a : Big) (n : Int) : shr a n = a ∧ shrThis a n = a := ⟨rfl, rfl⟩

/-- C85: so that it is wrong for all numbers but 0 and -1. -/
theorem C85_shr_wrong (N : Nat) (a : Big) (x : Int) (n : Nat) (ha : Is N a x) (hn : 0 < n)
    (h0 : x ≠ 0) (h1 : x ≠ -1) : toInt N (shr a n) ≠ x / 2 ^ n := by
  rw [(C85_shr_same a n).1, ha.2]
  intro h
  have hp : (2 : Int) ≤ 2 ^ n := by
    have : (2 : Nat) ^ 1 ≤ 2 ^ n := Nat.pow_le_pow_right (by decide) hn
    exact_mod_cast this
  have hm := Int.mul_ediv_add_emod x (2 ^ n)
  have hr := Int.emod_nonneg x (show (2 : Int) ^ n ≠ 0 by omega)
  have hr2 := Int.emod_lt_of_pos x (show (0 : Int) < 2 ^ n by omega)
  rw [← h] at hm
  generalize (2 : Int) ^ n = p at *
  generalize x % p = r at *
  rcases Int.lt_or_le x 0 with hx | hx
  · have : p * x ≤ p * (-2) := Int.mul_le_mul_of_nonneg_left (by omega) (by omega)
    nlinarith
  · have : 2 * x ≤ p * x := Int.mul_le_mul_of_nonneg_right hp hx
    omega

/-- What one would want of the two. -/
def C85_full (N : Nat) : Prop := ∀ (a : Big) (x : Int) (n : Nat), Is N a x →
  (InRange N (x * 2 ^ n) → Is N (shl a n) (x * 2 ^ n)) ∧ Is N (shr a n) (x / 2 ^ n)

theorem one_is (N : Nat) (hN : 0 < N) : Is N (one N) 1 := by
  have hz : ∀ w ∈ List.replicate (N - 1) 0, w = 0 := fun w hw => (List.mem_replicate.1 hw).2
  have hv : value (one N).data = 1 := by
    show value (1 :: _) = 1
    rw [value, value_zeros _ hz]
  refine ⟨{ size := by simp [one]; omega, small := ?_, pos := Nat.le_refl _, le := hN, high := ?_, top := Or.inl rfl }, ?_⟩
  · intro w hw
    rcases List.mem_cons.1 hw with rfl | hw
    · decide
    · rw [hz w hw]; decide
  · exact hz
  · obtain ⟨k, hk, hk'⟩ := span_half hN
    have := span_pos (N - 1)
    rw [toInt_of_nat (by omega), hv]
    rfl

/-- C85: neither is right. -/
theorem C85_fails (N : Nat) (hN : 1 < N) : ¬ C85_full N := by
  intro h
  have h1 := one_is N (by omega)
  refine C85_shl_32 N (one N) 1 32 h1 (by decide) (by decide) ((h _ 1 32 h1).1 ?_).2
  have : span 2 ≤ span N := span_mono hN
  have h2 : span 2 = 2 ^ 64 := by decide
  unfold InRange
  omega

/-- 3 << 4 = 48; -3 << 40; 1 << 32 is 0, and 2^32 >> 1 is 2^32. -/
example : shl ⟨[3, 0, 0], 1⟩ 4 = ⟨[48, 0, 0], 1⟩ ∧
    shl ⟨[0xFFFFFFFD, 0xFFFFFFFF, 0xFFFFFFFF], 3⟩ 40 = ⟨[0, 0xFFFFFD00, 0xFFFFFFFF], 3⟩ ∧
    shl ⟨[1, 0, 0], 1⟩ 32 = ⟨[0, 0, 0], 1⟩ ∧
    shr ⟨[0, 1, 0], 2⟩ 1 = ⟨[0, 1, 0], 2⟩ := by decide +kernel

end C3.BigNum
