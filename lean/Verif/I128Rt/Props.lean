import Verif.I128Rt.LemmasOps

/-! # C75–C77: division, products and shifts of 128-bit integers -/

set_option autoImplicit false

namespace C3.I128Rt

/-- **C75**, unsigned: `a / b` and `a % b` on `uint128` are quotient and
remainder for every dividend and every divisor but zero, and division by zero
always traps. -/
theorem C75_unsigned (n d : Nat) (hn : n < 2 ^ 128) (hd : d < 2 ^ 128) :
    (d ≠ 0 → udivti3 n d = some (n / d) ∧ umodti3 n d = some (n % d)) ∧
    (d = 0 → udivti3 n d = none ∧ umodti3 n d = none) := by
  refine ⟨fun h => ⟨udivmod_eq n d false hn hd h, udivmod_eq n d true hn hd h⟩, fun h => ?_⟩
  subst h
  exact ⟨udivmod_zero n false, udivmod_zero n true⟩

/-- **C75**, signed: `a / b` and `a % b` on `int128` round toward zero. -/
theorem C75_signed (a b : Nat) (ha : a < 2 ^ 128) (hb : b < 2 ^ 128) :
    (b ≠ 0 → divti3 a b = some (ofInt ((toInt a).tdiv (toInt b))) ∧
      modti3 a b = some (ofInt ((toInt a).tmod (toInt b)))) ∧
    (b = 0 → divti3 a b = none ∧ modti3 a b = none) := by
  refine ⟨fun h => ⟨divti3_eq a b ha hb h, modti3_eq a b ha hb h⟩, fun h => ?_⟩
  subst h
  exact divti3_zero a

/-- **C75**: the signed quotient is exact, not merely up to 128 bits, except
when the smallest `int128` is divided by -1. -/
theorem C75_signed_exact (a b : Nat) (ha : a < 2 ^ 128) (hb : b < 2 ^ 128) (h0 : b ≠ 0)
    (hm : ¬ (a = 2 ^ 127 ∧ b = 2 ^ 128 - 1)) :
    (∃ q, divti3 a b = some q ∧ toInt q = (toInt a).tdiv (toInt b)) ∧
    (∃ r, modti3 a b = some r ∧ toInt r = (toInt a).tmod (toInt b)) := by
  have key : ∀ i : Int, -2 ^ 127 ≤ i → i < 2 ^ 127 → toInt (ofInt i) = i := by
    intro i h1 h2
    unfold toInt ofInt
    by_cases h : (i % 2 ^ 128).toNat < 2 ^ 127
    · rw [if_pos h]; omega
    · rw [if_neg h]; omega
  have hta : -2 ^ 127 ≤ toInt a ∧ toInt a < 2 ^ 127 ∧ (toInt a = -2 ^ 127 ↔ a = 2 ^ 127) := by
    unfold toInt
    by_cases h : a < 2 ^ 127
    · rw [if_pos h]; omega
    · rw [if_neg h]; omega
  have htb : toInt b ≠ 0 ∧ (toInt b = -1 → b = 2 ^ 128 - 1) := by
    unfold toInt
    by_cases h : b < 2 ^ 127
    · rw [if_pos h]; omega
    · rw [if_neg h]; omega
  refine ⟨⟨_, divti3_eq a b ha hb h0, key _ ?_ ?_⟩, ⟨_, modti3_eq a b ha hb h0, key _ ?_ ?_⟩⟩
  · have := Int.natAbs_tdiv_le_natAbs (toInt a) (toInt b)
    omega
  · have h1 := Int.natAbs_tdiv_le_natAbs (toInt a) (toInt b)
    by_cases h2 : toInt b = -1
    · have : toInt a ≠ -2 ^ 127 := fun h => hm ⟨hta.2.2.1 h, htb.2 h2⟩
      omega
    · by_cases h3 : toInt a = -2 ^ 127
      · -- the quotient of a negative number by anything but -1 is smaller
        by_cases h4 : toInt b = 1
        · rw [h4, Int.tdiv_one]; omega
        · have h5 : 2 ≤ (toInt b).natAbs := by omega
          have h6 : ((toInt a).tdiv (toInt b)).natAbs = (toInt a).natAbs / (toInt b).natAbs :=
            Int.natAbs_tdiv ..
          have h7 : (toInt a).natAbs / (toInt b).natAbs ≤ (toInt a).natAbs / 2 :=
            Nat.div_le_div_left h5 (by omega)
          omega
      · omega
  · have h := Int.natAbs_tmod (toInt a) (toInt b)
    have := Nat.mod_le (toInt a).natAbs (toInt b).natAbs
    omega
  · by_cases h1 : 0 ≤ toInt a
    · have h := Int.natAbs_tmod (toInt a) (toInt b)
      have := Nat.mod_le (toInt a).natAbs (toInt b).natAbs
      omega
    · have : (toInt a).tmod (toInt b) ≤ 0 := by
        have h2 : (-(toInt a)).tmod (toInt b) = -((toInt a).tmod (toInt b)) := Int.neg_tmod ..
        have h3 := Int.tmod_nonneg (toInt b) (by omega : 0 ≤ -(toInt a))
        omega
      omega

/-- A dividend of two words by divisors of every kind the code tells apart. -/
example : udivti3 (2 ^ 127 + 12345) (3 * 2 ^ 64) = some ((2 ^ 127 + 12345) / (3 * 2 ^ 64)) ∧
    umodti3 (2 ^ 127 + 12345) (2 ^ 64 + 7) = some ((2 ^ 127 + 12345) % (2 ^ 64 + 7)) ∧
    udivti3 (2 ^ 127 + 12345) 10 = some ((2 ^ 127 + 12345) / 10) ∧
    divti3 (2 ^ 128 - 7) 2 = some (2 ^ 128 - 3) ∧ modti3 (2 ^ 128 - 7) 2 = some (2 ^ 128 - 1) := by
  decide +kernel

/-- **C76**: the product of two 128-bit integers is the product of the numbers,
reduced to 128 bits, whether they are read with or without a sign. -/
theorem C76_product (a b : Nat) (ha : a < 2 ^ 128) (hb : b < 2 ^ 128) :
    multi3 a b = a * b % 2 ^ 128 ∧ multi3 a b = ofInt (toInt a * toInt b) := by
  refine ⟨multi3_eq a b ha hb, ?_⟩
  rw [multi3_eq a b ha hb]
  have h : ∀ x : Nat, x < 2 ^ 128 → ∃ k : Int, toInt x = (x : Int) + 2 ^ 128 * k := by
    intro x hx
    unfold toInt
    by_cases h : x < 2 ^ 127
    · exact ⟨0, by rw [if_pos h]; omega⟩
    · exact ⟨-1, by rw [if_neg h]; omega⟩
  obtain ⟨k, hk⟩ := h a ha
  obtain ⟨l, hl⟩ := h b hb
  unfold ofInt
  have e : toInt a * toInt b = ((a * b : Nat) : Int) + 2 ^ 128 * (k * b + a * l + 2 ^ 128 * k * l) := by
    rw [hk, hl, Int.natCast_mul]
    generalize (2 : Int) ^ 128 = K
    generalize (a : Int) = x
    generalize (b : Int) = y
    simp only [Int.add_mul, Int.mul_add]
    have t1 : K * k * y = K * (k * y) := Int.mul_assoc ..
    have t2 : x * (K * l) = K * (x * l) := Int.mul_left_comm ..
    have t3 : K * k * (K * l) = K * (K * k * l) := by
      rw [Int.mul_left_comm]
    rw [t1, t2, t3]; omega
  rw [e, Int.add_mul_emod_self_left]
  omega

example : multi3 (2 ^ 128 - 3) (2 ^ 64 + 5) = ofInt (-3 * (2 ^ 64 + 5)) := by decide +kernel

/-- **C77**, unsigned right shift: `a >> b` drops `b` bits. -/
theorem C77_shift_right_unsigned (a b : Nat) (ha : a < 2 ^ 128) (hb : b < 128) :
    lshrti3 a b = some (a / 2 ^ b) := lshrti3_eq a b ha hb

/-- **C77**, left shift, for less than 64 places. -/
theorem C77_shift_left_partial (a b : Nat) (ha : a < 2 ^ 128) (hb : b < 64) :
    ashlti3 a b = some (a * 2 ^ b % 2 ^ 128) := ashlti3_small a b ha hb

/-- **C77** fails for left shifts by 64 places or more: the result is 0 whatever
is shifted, and so wrong for every number that has one of its low `128 - b` bits
set. -/
theorem C77_shift_left_fails (a b : Nat) (h : 64 ≤ b) (hb : b < 128)
    (ha : a % 2 ^ (128 - b) ≠ 0) :
    ashlti3 a b = some 0 ∧ ashlti3 a b ≠ some (a * 2 ^ b % 2 ^ 128) := by
  have h1 := ashlti3_large a b h hb
  refine ⟨h1, ?_⟩
  rw [h1]
  intro h2
  have h3 : a * 2 ^ b % 2 ^ 128 = (a % 2 ^ (128 - b)) * 2 ^ b := by
    have : 2 ^ 128 = 2 ^ (128 - b) * 2 ^ b := by rw [← Nat.pow_add]; congr 1; omega
    rw [this, Nat.mul_mod_mul_right]
  rw [h3] at h2
  have h4 := Nat.mul_pos (Nat.pos_of_ne_zero ha) (Nat.two_pow_pos b)
  have := Option.some.inj h2
  omega

example : ashlti3 1 64 = some 0 ∧ 1 % 2 ^ (128 - 64) ≠ 0 := by decide +kernel

/-- **C77**, signed right shift, of numbers that are not negative. -/
theorem C77_shift_right_signed_partial (a b : Nat) (ha : a < 2 ^ 127) (hb : b < 128) :
    ∃ r, ashrti3 a b = some r ∧ toInt r = toInt a / 2 ^ b := by
  refine ⟨a / 2 ^ b, ?_, ?_⟩
  · rw [ashrti3_eq a b (by omega) hb]
    have : a / 2 ^ 127 = 0 := by omega
    by_cases h : 64 ≤ b
    · rw [if_pos h, this, Nat.zero_mul, Nat.zero_add]
    · rw [if_neg h]
  · have := Nat.div_le_self a (2 ^ b)
    unfold toInt
    rw [if_pos (by omega), if_pos ha, Int.natCast_ediv, Int.natCast_pow]; rfl

/-- **C77** fails for signed right shifts of negative numbers: the result of
shifting any negative number by any number of places from 1 to 127 is positive
or zero, where it should be negative. -/
theorem C77_shift_right_signed_fails (a b : Nat) (ha : a < 2 ^ 128) (hn : toInt a < 0)
    (h0 : 0 < b) (hb : b < 128) :
    ∃ r, ashrti3 a b = some r ∧ 0 ≤ toInt r ∧ toInt a / 2 ^ b < 0 := by
  have hlow : 2 ^ 127 ≤ a := by
    rcases Nat.lt_or_ge a (2 ^ 127) with h | h
    · unfold toInt at hn; rw [if_pos h] at hn; omega
    · exact h
  refine ⟨_, ashrti3_eq a b ha hb, ?_, ?_⟩
  · have hle : a / 2 ^ b ≤ a / 2 ^ 1 :=
      Nat.div_le_div_left (Nat.pow_le_pow_right (by omega) h0) (by omega)
    have hs : (if 64 ≤ b then a / 2 ^ 127 * 2 ^ 64 + a / 2 ^ b else a / 2 ^ b) < 2 ^ 127 := by
      by_cases h : 64 ≤ b
      · rw [if_pos h]
        have h2 : a / 2 ^ b ≤ a / 2 ^ 64 :=
          Nat.div_le_div_left (Nat.pow_le_pow_right (by omega) h) (by omega)
        omega
      · rw [if_neg h]; omega
    unfold toInt
    rw [if_pos hs]; omega
  · exact Int.ediv_neg_of_neg_of_pos hn (Int.pow_pos (by omega))

/-- -4 >> 1 is 2^127 - 2. -/
example : ashrti3 (ofInt (-4)) 1 = some (2 ^ 127 - 2) ∧ toInt (ofInt (-4)) = -4 := by
  decide +kernel

end C3.I128Rt
