import Verif.I128Rt.LemmasFloat

/-! # Lemmas about the conversions from floating point -/

set_option autoImplicit false

namespace C3.I128Rt

/-- The parts of a floating point number, as the code takes them out. -/
theorem parts (F : Fmt) (G : Ieee) (hF : F.Good G) (neg : Bool) (x m : Nat)
    (hx : x < 2 ^ F.expBits) (h1 : 2 ^ G.sig ≤ m) (h2 : m < 2 ^ (G.sig + 1)) :
    F.exponent (G.encode neg x m) = (x : Int) - G.bias ∧
    F.significand (G.encode neg x m) = m ∧
    F.negative (G.encode neg x m) = neg := by
  have hsg : 2 ^ (G.sig + 1) = 2 * 2 ^ G.sig := by rw [Nat.pow_succ, Nat.mul_comm]
  have hspos := Nat.two_pow_pos G.sig
  have hrep : G.bits - 1 = F.expBits + G.sig := by have := hF.expBits; omega
  have hp : 2 ^ (F.expBits + G.sig) = 2 ^ F.expBits * 2 ^ G.sig := Nat.pow_add ..
  have hbody : x * 2 ^ G.sig + (m - 2 ^ G.sig) < 2 ^ (F.expBits + G.sig) := by
    have h3 : (x + 1) * 2 ^ G.sig ≤ 2 ^ F.expBits * 2 ^ G.sig := Nat.mul_le_mul_right _ hx
    rw [Nat.succ_mul] at h3
    omega
  have habs : (G.encode neg x m) &&& F.absMask = x * 2 ^ G.sig + (m - 2 ^ G.sig) := by
    unfold Fmt.absMask
    rw [hF.sig, Nat.and_two_pow_sub_one_eq_mod]
    unfold Ieee.encode
    rw [hrep]
    cases neg with
    | false =>
      simp only [Bool.false_eq_true, if_false, Nat.zero_add]
      exact Nat.mod_eq_of_lt hbody
    | true =>
      simp only [if_true]
      rw [Nat.add_assoc, Nat.add_mod_left]
      exact Nat.mod_eq_of_lt hbody
  have hdiv : (x * 2 ^ G.sig + (m - 2 ^ G.sig)) / 2 ^ G.sig = x := by
    rw [Nat.mul_comm, Nat.mul_add_div hspos, Nat.div_eq_of_lt (by omega)]; rfl
  have hmod : (x * 2 ^ G.sig + (m - 2 ^ G.sig)) % 2 ^ G.sig = m - 2 ^ G.sig := by
    rw [Nat.mul_comm, Nat.mul_add_mod, Nat.mod_eq_of_lt (by omega)]
  have hbias : F.expBias = G.bias := by
    unfold Fmt.expBias Fmt.maxExponent
    have h := hF.expBias
    have : 2 ^ F.expBits = 2 * 2 ^ (F.expBits - 1) := by
      rw [Nat.mul_comm, ← Nat.pow_succ]; congr 1; have := hF.exp; omega
    omega
  have hb16 : 2 ^ F.expBits ≤ 2 ^ 16 := Nat.pow_le_pow_right (by omega) hF.exp.2
  have hbb : G.bias < 2 ^ 16 := by
    have h := hF.expBias
    have : 2 ^ F.expBits = 2 * 2 ^ (F.expBits - 1) := by
      rw [Nat.mul_comm, ← Nat.pow_succ]; congr 1; have := hF.exp; omega
    omega
  refine ⟨?_, ?_, ?_⟩
  · unfold Fmt.exponent
    rw [habs, hF.sig, hdiv, hbias, hF.bits]
    have hc : 2 ^ G.bits = 2 ^ 32 * 2 ^ (G.bits - 32) := by
      rw [← Nat.pow_add]; congr 1; have := hF.big; omega
    have hcp := Nat.two_pow_pos (G.bits - 32)
    have hmm : (x + (2 ^ G.bits - G.bias)) % 2 ^ G.bits % 2 ^ 32 =
        (x + (2 ^ G.bits - G.bias)) % 2 ^ 32 :=
      Nat.mod_mod_of_dvd _ ⟨2 ^ (G.bits - 32), hc⟩
    unfold toInt32
    rw [hmm, hc]
    generalize 2 ^ (G.bits - 32) = c at *
    by_cases h : (x + (2 ^ 32 * c - G.bias)) % 2 ^ 32 < 2 ^ 31
    · rw [if_pos h]; omega
    · rw [if_neg h]; omega
  · unfold Fmt.significand
    rw [habs, hF.sig, Nat.and_two_pow_sub_one_eq_mod, hmod, Nat.or_comm]
    have := or_add G.sig 1 (m - 2 ^ G.sig) (by omega)
    rw [Nat.one_mul] at this
    rw [this]; omega
  · unfold Fmt.negative
    rw [hF.sig]
    have hk := and_pow_ne (G.encode neg x m) (F.expBits + G.sig)
    have hd : G.encode neg x m / 2 ^ (F.expBits + G.sig) % 2 = if neg then 1 else 0 := by
      unfold Ieee.encode
      rw [hrep]
      cases neg with
      | false =>
        simp only [Bool.false_eq_true, if_false, Nat.zero_add]
        rw [Nat.div_eq_of_lt hbody]
      | true =>
        simp only [if_true]
        rw [Nat.add_assoc, Nat.add_div_left _ (Nat.two_pow_pos _), Nat.div_eq_of_lt hbody]
    rw [hd] at hk
    cases neg with
    | false =>
      simp only [Bool.false_eq_true, if_false] at hk
      have : ¬ (G.encode false x m &&& 2 ^ (F.expBits + G.sig) ≠ 0) := fun h => by
        have := hk.1 h; omega
      simpa using this
    | true =>
      simp only [if_true, iff_true] at hk
      simpa using hk

/-- The integer part, by the cases the code tells apart. -/
theorem floor_cases (G : Ieee) (x m : Nat) (h1 : 2 ^ G.sig ≤ m) (h2 : m < 2 ^ (G.sig + 1)) :
    (x < G.bias → G.floor x m = 0) ∧
    (G.bias + 128 ≤ x → 2 ^ 128 ≤ G.floor x m) ∧
    (G.bias ≤ x → x < G.bias + G.sig → G.floor x m = m / 2 ^ (G.sig - (x - G.bias))) ∧
    (G.bias + G.sig ≤ x → x < G.bias + 128 →
      G.floor x m = m * 2 ^ (x - G.bias - G.sig) ∧ G.floor x m < 2 ^ (x - G.bias + 1) ∧
      2 ^ (x - G.bias) ≤ G.floor x m) := by
  unfold Ieee.floor
  refine ⟨fun h => ?_, fun h => ?_, fun h h' => ?_, fun h h' => ?_⟩
  · apply Nat.div_eq_of_lt
    have e : 2 ^ (G.sig + 1) * 2 ^ x ≤ 2 ^ G.offset := by
      rw [← Nat.pow_add, Ieee.offset]
      exact Nat.pow_le_pow_right (by omega) (by omega)
    exact Nat.lt_of_lt_of_le ((Nat.mul_lt_mul_right (Nat.two_pow_pos x)).2 h2) e
  · rw [Nat.le_div_iff_mul_le (Nat.two_pow_pos _)]
    have e : 2 ^ 128 * 2 ^ G.offset ≤ 2 ^ G.sig * 2 ^ x := by
      rw [← Nat.pow_add, ← Nat.pow_add, Ieee.offset]
      exact Nat.pow_le_pow_right (by omega) (by omega)
    exact Nat.le_trans e (Nat.mul_le_mul_right _ h1)
  · have e : 2 ^ G.offset = 2 ^ (G.sig - (x - G.bias)) * 2 ^ x := by
      rw [← Nat.pow_add, Ieee.offset]; congr 1; omega
    rw [e, Nat.mul_div_mul_right _ _ (Nat.two_pow_pos _)]
  · have e : 2 ^ x = 2 ^ (x - G.bias - G.sig) * 2 ^ G.offset := by
      rw [← Nat.pow_add, Ieee.offset]; congr 1; omega
    rw [e, ← Nat.mul_assoc, Nat.mul_div_cancel _ (Nat.two_pow_pos _)]
    refine ⟨rfl, ?_, ?_⟩
    · have : 2 ^ (x - G.bias + 1) = 2 ^ (G.sig + 1) * 2 ^ (x - G.bias - G.sig) := by
        rw [← Nat.pow_add]; congr 1; omega
      rw [this]
      exact (Nat.mul_lt_mul_right (Nat.two_pow_pos _)).2 h2
    · have : 2 ^ (x - G.bias) = 2 ^ G.sig * 2 ^ (x - G.bias - G.sig) := by
        rw [← Nat.pow_add]; congr 1; omega
      rw [this]
      exact Nat.mul_le_mul_right _ h1

/-- The magnitude that both functions compute. -/
theorem magnitude (G : Ieee) (x m : Nat) (hs : G.sig ≤ 64) (h1 : 2 ^ G.sig ≤ m)
    (h2 : m < 2 ^ (G.sig + 1)) (hx : G.bias ≤ x) (hx2 : x < G.bias + 128) :
    (x < G.bias + G.sig → shr128 m (G.sig - (x - G.bias)) = some (G.floor x m)) ∧
    (G.bias + G.sig ≤ x → shl128 m (x - G.bias - G.sig) = some (G.floor x m)) ∧
    G.floor x m < 2 ^ 128 := by
  obtain ⟨_, _, c3, c4⟩ := floor_cases G x m h1 h2
  have hm : 2 ^ (G.sig + 1) ≤ 2 ^ 65 := Nat.pow_le_pow_right (by omega) (by omega)
  refine ⟨fun h => ?_, fun h => ?_, ?_⟩
  · rw [shr128, if_pos (by omega), c3 hx h]
  · obtain ⟨d1, d2, _⟩ := c4 h hx2
    have : 2 ^ (x - G.bias + 1) ≤ 2 ^ 128 := Nat.pow_le_pow_right (by omega) (by omega)
    rw [shl128, if_pos (by omega), ← d1, Nat.mod_eq_of_lt (by omega)]
  · by_cases h : x < G.bias + G.sig
    · rw [c3 hx h]
      have := Nat.div_le_self m (2 ^ (G.sig - (x - G.bias)))
      omega
    · obtain ⟨_, d2, _⟩ := c4 (by omega) hx2
      have : 2 ^ (x - G.bias + 1) ≤ 2 ^ 128 := Nat.pow_le_pow_right (by omega) (by omega)
      omega

theorem fixuint_eq (F : Fmt) (G : Ieee) (hF : F.Good G) (neg : Bool) (x m : Nat)
    (hx : x < 2 ^ F.expBits) (h1 : 2 ^ G.sig ≤ m) (h2 : m < 2 ^ (G.sig + 1)) :
    fixuint F (G.encode neg x m) =
      some (if neg then 0 else min (G.floor x m) (2 ^ 128 - 1)) := by
  obtain ⟨p1, p2, p3⟩ := parts F G hF neg x m hx h1 h2
  obtain ⟨c1, c2, c3, c4⟩ := floor_cases G x m h1 h2
  unfold fixuint
  simp only
  rw [p1, p2, p3, hF.sig]
  cases neg with
  | true => simp
  | false =>
    simp only [Bool.false_or, Bool.false_eq_true, if_false]
    by_cases ha : x < G.bias
    · rw [if_pos (by simp; omega), c1 ha]; rfl
    · rw [if_neg (by simp; omega)]
      by_cases hb : G.bias + 128 ≤ x
      · rw [if_pos (by omega), Nat.min_eq_right (by have := c2 hb; omega)]
      · rw [if_neg (by omega)]
        obtain ⟨g1, g2, g3⟩ := magnitude G x m hF.sig64 h1 h2 (by omega) (by omega)
        rw [Nat.min_eq_left (by omega)]
        have ht : ((x : Int) - G.bias).toNat = x - G.bias := by omega
        by_cases hc : x < G.bias + G.sig
        · rw [if_pos (by omega), ht, g1 hc]
        · rw [if_neg (by omega), ht, g2 (by omega)]

theorem fixint_eq (F : Fmt) (G : Ieee) (hF : F.Good G) (neg : Bool) (x m : Nat)
    (hx : x < 2 ^ F.expBits) (h1 : 2 ^ G.sig ≤ m) (h2 : m < 2 ^ (G.sig + 1)) :
    fixint F (G.encode neg x m) =
      some (if 2 ^ 128 ≤ G.floor x m then (if neg then 2 ^ 127 else 2 ^ 127 - 1)
        else if neg then (2 ^ 128 - G.floor x m) % 2 ^ 128 else G.floor x m) := by
  obtain ⟨p1, p2, p3⟩ := parts F G hF neg x m hx h1 h2
  obtain ⟨c1, c2, c3, c4⟩ := floor_cases G x m h1 h2
  have hms : ∀ v, v < 2 ^ 128 → mulSign neg v = if neg then (2 ^ 128 - v) % 2 ^ 128 else v := by
    intro v hv
    unfold mulSign sub128
    cases neg <;> simp
  unfold fixint
  simp only
  rw [p1, p2, p3, hF.sig]
  by_cases ha : x < G.bias
  · rw [if_pos (by omega), c1 ha, if_neg (by omega)]
    cases neg <;> rfl
  · rw [if_neg (by omega)]
    by_cases hb : G.bias + 128 ≤ x
    · rw [if_pos (by omega), if_pos (c2 hb)]
    · rw [if_neg (by omega)]
      obtain ⟨g1, g2, g3⟩ := magnitude G x m hF.sig64 h1 h2 (by omega) (by omega)
      rw [if_neg (show ¬ 2 ^ 128 ≤ G.floor x m by omega)]
      have ht : ((x : Int) - G.bias).toNat = x - G.bias := by omega
      by_cases hc : x < G.bias + G.sig
      · rw [if_pos (by omega), ht, g1 hc]
        simp only [Option.bind_eq_bind, Option.bind_some]
        rw [hms _ g3]
      · rw [if_neg (by omega), ht, g2 (by omega)]
        simp only [Option.bind_eq_bind, Option.bind_some]
        rw [hms _ g3]

end C3.I128Rt
