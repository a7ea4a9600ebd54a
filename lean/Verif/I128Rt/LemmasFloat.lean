import Verif.I128Rt.FloatSpec
import Verif.I128Rt.LemmasOps

/-! # Lemmas about the conversions -/

set_option autoImplicit false

namespace C3.I128Rt

/-- `m` is `A / U` rounded to the nearest, to even on a tie. -/
def Rounds (A U m : Nat) : Prop :=
  (m = A / U ∧ (2 * (A % U) < U ∨ (2 * (A % U) = U ∧ A / U % 2 = 0))) ∨
  (m = A / U + 1 ∧ (U < 2 * (A % U) ∨ (2 * (A % U) = U ∧ A / U % 2 = 1)))

theorem rounds_best (F : Ieee) (A x0 m : Nat) (h1 : 2 ^ F.sig ≤ A / 2 ^ x0)
    (hm : Rounds A (2 ^ x0) m) (x' m' : Nat) (hm' : m' < 2 ^ (F.sig + 1)) :
    gap A (m * 2 ^ x0) ≤ gap A (m' * 2 ^ x') ∧
    (gap A (m * 2 ^ x0) = gap A (m' * 2 ^ x') → m * 2 ^ x0 = m' * 2 ^ x' ∨ m % 2 = 0) := by
  have hU := Nat.two_pow_pos x0
  have hdm := Nat.div_add_mod A (2 ^ x0)
  have hr := Nat.mod_lt A hU
  unfold Rounds at hm
  have hk : (A / 2 ^ x0 + 1) * 2 ^ x0 = 2 ^ x0 * (A / 2 ^ x0) + 2 ^ x0 := by
    rw [Nat.succ_mul, Nat.mul_comm]
  have hk0 : A / 2 ^ x0 * 2 ^ x0 = 2 ^ x0 * (A / 2 ^ x0) := Nat.mul_comm ..
  by_cases hx : x0 ≤ x'
  · have hj : m' * 2 ^ x' = (m' * 2 ^ (x' - x0)) * 2 ^ x0 := by
      rw [Nat.mul_assoc, ← Nat.pow_add]; congr 2; omega
    rw [hj]
    generalize m' * 2 ^ (x' - x0) = j
    generalize A % 2 ^ x0 = r at *
    generalize A / 2 ^ x0 = k at *
    generalize 2 ^ x0 = U at *
    unfold gap
    have c : j + 1 ≤ k ∨ j = k ∨ j = k + 1 ∨ k + 2 ≤ j := by omega
    rcases c with c | c | c | c
    · have hc := Nat.mul_le_mul_right U c
      rw [Nat.succ_mul] at hc
      rcases hm with ⟨hm, h⟩ | ⟨hm, h⟩
      · rw [hm]; omega
      · rw [hm, hk]; omega
    · rw [c]
      rcases hm with ⟨hm, h⟩ | ⟨hm, h⟩
      · rw [hm]; omega
      · rw [hm, hk]; omega
    · rw [c]
      rcases hm with ⟨hm, h⟩ | ⟨hm, h⟩
      · rw [hm, hk]; omega
      · rw [hm, hk]; omega
    · have hc := Nat.mul_le_mul_right U c
      rw [Nat.add_mul] at hc
      rcases hm with ⟨hm, h⟩ | ⟨hm, h⟩
      · rw [hm]; omega
      · rw [hm, hk]; omega
  · have hlow : m' * 2 ^ x' < 2 ^ F.sig * 2 ^ x0 := by
      have e : 2 ^ F.sig * 2 ^ x0 = 2 ^ (F.sig + 1) * 2 ^ (x0 - 1) := by
        rw [← Nat.pow_add, ← Nat.pow_add]; congr 1; omega
      rw [e]
      have b : 2 ^ x' ≤ 2 ^ (x0 - 1) := Nat.pow_le_pow_right (by omega) (by omega)
      exact Nat.lt_of_lt_of_le ((Nat.mul_lt_mul_right (Nat.two_pow_pos x')).2 hm')
        (Nat.mul_le_mul_left _ b)
    have hc := Nat.mul_le_mul_right (2 ^ x0) h1
    generalize m' * 2 ^ x' = v at *
    generalize 2 ^ F.sig * 2 ^ x0 = W at *
    generalize A % 2 ^ x0 = r at *
    generalize A / 2 ^ x0 = k at *
    generalize 2 ^ x0 = U at *
    unfold gap
    rcases hm with ⟨hm, h⟩ | ⟨hm, h⟩
    · rw [hm]; omega
    · rw [hm, hk]; omega

/-- Rounding to the nearest within the binade of the number is rounding to the
nearest floating point number. -/
theorem rounds_nearest (F : Ieee) (a x0 m : Nat) (h1 : 2 ^ F.sig ≤ a * 2 ^ F.offset / 2 ^ x0)
    (hm : Rounds (a * 2 ^ F.offset) (2 ^ x0) m) (hlt : m < 2 ^ (F.sig + 1)) :
    Nearest F a x0 m := by
  refine ⟨?_, hlt, fun x' m' h => rounds_best F _ x0 m h1 hm x' m' h⟩
  rcases hm with ⟨h, _⟩ | ⟨h, _⟩ <;> omega

theorem rounds_nearest_carry (F : Ieee) (a x0 : Nat) (hs : 1 ≤ F.sig)
    (h1 : 2 ^ F.sig ≤ a * 2 ^ F.offset / 2 ^ x0)
    (hm : Rounds (a * 2 ^ F.offset) (2 ^ x0) (2 ^ (F.sig + 1))) :
    Nearest F a (x0 + 1) (2 ^ F.sig) := by
  have e : 2 ^ F.sig * 2 ^ (x0 + 1) = 2 ^ (F.sig + 1) * 2 ^ x0 := by
    rw [← Nat.pow_add, ← Nat.pow_add]; congr 1; omega
  refine ⟨Nat.le_refl _, by rw [Nat.pow_succ]; have := Nat.two_pow_pos F.sig; omega, ?_⟩
  intro x' m' h
  have hb := rounds_best F _ x0 _ h1 hm x' m' h
  rw [e]
  refine ⟨hb.1, fun _ => Or.inr ?_⟩
  obtain ⟨s, hs'⟩ : ∃ s, F.sig = s + 1 := ⟨F.sig - 1, by omega⟩
  rw [hs', Nat.pow_succ]; omega

/-! ## The bit operations of the conversion -/

theorem or_one (x : Nat) : x ||| 1 = 2 * (x / 2) + 1 := by
  have h := or_add 1 (x / 2) 1 (by omega)
  have e : x ||| 1 = x / 2 * 2 ^ 1 ||| 1 := by
    apply Nat.eq_of_testBit_eq
    intro i
    cases i with
    | zero => simp [Nat.testBit_or]
    | succ i =>
      rw [Nat.testBit_or, Nat.testBit_or, Nat.testBit_succ, Nat.testBit_succ, Nat.testBit_succ]
      have : x / 2 * 2 ^ 1 / 2 = x / 2 := by omega
      rw [this]
  rw [e, h]; omega

theorem or_flag (x : Nat) (c : Bool) : x ||| flag c = if c then 2 * (x / 2) + 1 else x := by
  cases c with
  | true => simp only [flag, if_true]; exact or_one x
  | false => simp [flag]

theorem and_pow_ne (x i : Nat) : (x &&& 2 ^ i) ≠ 0 ↔ x / 2 ^ i % 2 = 1 := by
  have ht : x.testBit i = decide (x / 2 ^ i % 2 = 1) := Nat.testBit_eq_decide_div_mod_eq
  have hb : (x &&& 2 ^ i).testBit i = x.testBit i := by
    rw [Nat.testBit_and, Nat.testBit_two_pow_self, Bool.and_true]
  constructor
  · intro h
    refine Classical.byContradiction fun hc => h ?_
    apply Nat.eq_of_testBit_eq
    intro j
    rw [Nat.testBit_and, Nat.testBit_two_pow, Nat.zero_testBit]
    by_cases hj : i = j
    · subst hj; rw [ht]; simp [hc]
    · simp [hj]
  · intro h h0
    rw [h0, Nat.zero_testBit, ht] at hb
    simp [h] at hb

theorem and_four (x : Nat) : ((x &&& 4) != 0) = decide (x / 4 % 2 = 1) := by
  have h := and_pow_ne x 2
  by_cases hx : x / 4 % 2 = 1
  · simp only [hx, decide_true, bne_iff_ne]
    exact h.2 hx
  · simp only [hx, decide_false]
    have : ¬ (x &&& 4 ≠ 0) := fun h' => hx (h.1 h')
    simpa using this

/-- The three lines that round, on a number with two bits to spare. -/
theorem round_step (u k h s : Nat) (hu : u = 4 * k + 2 * h + s) (hh : h ≤ 1) (hs : s ≤ 1)
    (hlt : u < 2 ^ 127) :
    add128 (u ||| flag ((u &&& 4) != 0)) 1 / 2 ^ 2 =
      (if h = 1 ∧ (s = 1 ∨ k % 2 = 1) then k + 1 else k) ∧
    add128 (u ||| flag ((u &&& 4) != 0)) 1 ≤ u + 2 := by
  rw [or_flag, and_four]
  have e : u / 4 = k := by omega
  rw [e]
  unfold add128
  by_cases hk : k % 2 = 1
  · simp only [hk, decide_true, if_true, or_true, and_true]
    by_cases hh1 : h = 1
    · rw [if_pos hh1]; omega
    · rw [if_neg hh1]; omega
  · simp only [hk, decide_false, Bool.false_eq_true, if_false, or_false]
    by_cases hh1 : h = 1 ∧ s = 1
    · rw [if_pos hh1]; omega
    · rw [if_neg hh1]; omega

/-- The last bits of `a`, gathered into one. -/
theorem gather (a w : Nat) (hw : 3 ≤ w) :
    ∃ h s, h ≤ 1 ∧ s ≤ 1 ∧
      (a / 2 ^ (w - 2) ||| flag (decide (a % 2 ^ (w - 2) ≠ 0))) = 4 * (a / 2 ^ w) + 2 * h + s ∧
      (2 * (a % 2 ^ w) < 2 ^ w ↔ h = 0) ∧ (2 * (a % 2 ^ w) = 2 ^ w ↔ h = 1 ∧ s = 0) := by
  have hp : 2 ^ w = 2 ^ (w - 2) * 4 := by
    rw [show (4 : Nat) = 2 ^ 2 from rfl, ← Nat.pow_add]; congr 1; omega
  have hpos := Nat.two_pow_pos (w - 2)
  have hk : a / 2 ^ w = a / 2 ^ (w - 2) / 4 := by rw [hp, Nat.div_div_eq_div_mul]
  have hm : a % 2 ^ w = 2 ^ (w - 2) * (a / 2 ^ (w - 2) % 4) + a % 2 ^ (w - 2) := by
    rw [hp, Nat.mod_mul]; omega
  have hr := Nat.mod_lt a hpos
  rw [hk, hm, hp, or_flag]
  generalize a / 2 ^ (w - 2) = u at *
  generalize a % 2 ^ (w - 2) = r at *
  generalize 2 ^ (w - 2) = P at *
  have hu : u % 4 = 0 ∨ u % 4 = 1 ∨ u % 4 = 2 ∨ u % 4 = 3 := by omega
  by_cases hr0 : r = 0
  · refine ⟨u / 2 % 2, u % 2, by omega, by omega, ?_, ?_, ?_⟩
    · simp only [hr0, ne_eq, not_true, decide_false, Bool.false_eq_true, if_false]; omega
    · rcases hu with h | h | h | h <;> rw [h] <;> omega
    · rcases hu with h | h | h | h <;> rw [h] <;> omega
  · refine ⟨u / 2 % 2, 1, by omega, by omega, ?_, ?_, ?_⟩
    · simp only [hr0, ne_eq, not_false_eq_true, decide_true, if_true]; omega
    · rcases hu with h | h | h | h <;> rw [h] <;> omega
    · rcases hu with h | h | h | h <;> rw [h] <;> omega

/-- The constants of a format belong together. -/
structure Fmt.Good (F : Fmt) (G : Ieee) : Prop where
  bits : F.rep = G.bits
  sig : F.sig = G.sig
  bias : F.bias = G.bias
  mant : F.mantDig = G.sig + 1
  mask : F.mask = 2 ^ G.sig - 1
  signBit : F.signBit = 2 ^ (G.bits - 1)
  expBits : F.expBits + G.sig + 1 = G.bits
  expBias : 2 ^ (F.expBits - 1) - 1 = G.bias
  sig1 : 1 ≤ G.sig
  sig64 : G.sig ≤ 64
  small : G.bits ≤ 64
  big : 32 ≤ G.bits
  exp : 8 ≤ F.expBits ∧ F.expBits ≤ 16

theorem double_good : double.Good binary64 := by
  constructor <;> decide

theorem single_good : single.Good binary32 := by
  constructor <;> decide

/-- The rounded number, and the carry into the next binade. -/
theorem convert_eq (F : Fmt) (G : Ieee) (hF : F.Good G) (right : Nat → Nat → Option Nat) (B : Nat)
    (hB : 2 ^ 100 ≤ B) (hB2 : B ≤ 2 ^ 128)
    (hright : ∀ x n, x < B → n < 128 → right x n = some (x / 2 ^ n))
    (sign a : Nat) (ha0 : a ≠ 0) (ha : a < B) :
    ∃ m, Rounds (a * 2 ^ G.offset) (2 ^ (a.log2 + G.bias)) m ∧
      2 ^ G.sig ≤ a * 2 ^ G.offset / 2 ^ (a.log2 + G.bias) ∧ m ≤ 2 ^ (G.sig + 1) ∧
      convert F right sign a =
        (if m = 2 ^ (G.sig + 1) then some (pack F sign (a.log2 + 1) (2 ^ G.sig))
         else some (pack F sign a.log2 m)) := by
  have hlog : a.log2 < 128 := (Nat.log2_lt ha0).2 (by omega)
  have hlo : 2 ^ a.log2 ≤ a := Nat.log2_self_le ha0
  have hhi : a < 2 ^ (a.log2 + 1) := Nat.lt_log2_self
  have hclz : 128 - clz128 a = a.log2 + 1 := by
    rw [clz128, if_neg ha0]; omega
  have hs64 := hF.sig64
  unfold convert
  simp only
  rw [hclz, hF.mant, Nat.add_sub_cancel]
  generalize he : a.log2 = e at *
  by_cases hsd : e + 1 > G.sig + 1
  · rw [if_pos hsd]
    -- `w` bits are dropped
    obtain ⟨w, hw, hw1⟩ : ∃ w, e = G.sig + w ∧ 1 ≤ w := ⟨e - G.sig, by omega, by omega⟩
    have hA : a * 2 ^ G.offset / 2 ^ (e + G.bias) = a / 2 ^ w := by
      rw [hw, show 2 ^ (G.sig + w + G.bias) = 2 ^ w * 2 ^ G.offset by
        rw [← Nat.pow_add, Ieee.offset]; congr 1; omega,
        Nat.mul_div_mul_right _ _ (Nat.two_pow_pos _)]
    have hR : a * 2 ^ G.offset % 2 ^ (e + G.bias) = a % 2 ^ w * 2 ^ G.offset := by
      rw [hw, show 2 ^ (G.sig + w + G.bias) = 2 ^ w * 2 ^ G.offset by
        rw [← Nat.pow_add, Ieee.offset]; congr 1; omega, Nat.mul_mod_mul_right]
    have hU : 2 ^ (e + G.bias) = 2 ^ w * 2 ^ G.offset := by
      rw [hw, ← Nat.pow_add, Ieee.offset]; congr 1; omega
    have hklo : 2 ^ G.sig ≤ a / 2 ^ w := by
      rw [Nat.le_div_iff_mul_le (Nat.two_pow_pos _), ← Nat.pow_add, ← hw]; exact hlo
    have hkhi : a / 2 ^ w < 2 ^ (G.sig + 1) := by
      rw [Nat.div_lt_iff_lt_mul (Nat.two_pow_pos _), ← Nat.pow_add,
        show G.sig + 1 + w = e + 1 by omega]; exact hhi
    -- the number with two bits to spare
    have mid : ∃ u h s, spare F right (e + 1) a = some u ∧ u = 4 * (a / 2 ^ w) + 2 * h + s ∧
        h ≤ 1 ∧ s ≤ 1 ∧ (2 * (a % 2 ^ w) < 2 ^ w ↔ h = 0) ∧
        (2 * (a % 2 ^ w) = 2 ^ w ↔ h = 1 ∧ s = 0) := by
      unfold spare
      rw [hF.mant]
      by_cases hw1' : w = 1
      · rw [if_pos (by omega)]
        have : a * 2 ^ 1 < 2 ^ 128 := by
          have h1 : 2 ^ (e + 1) ≤ 2 ^ 127 := Nat.pow_le_pow_right (by omega) (by omega)
          omega
        refine ⟨a * 2 ^ 1, a % 2, 0, ?_, ?_, by omega, by omega, ?_, ?_⟩
        · rw [shl128, if_pos (by omega), Nat.mod_eq_of_lt this]
        · rw [hw1']; omega
        · rw [hw1']; omega
        · rw [hw1']; omega
      · rw [if_neg (by omega)]
        by_cases hw2 : w = 2
        · rw [if_pos (by omega)]
          refine ⟨a, a / 2 % 2, a % 2, rfl, ?_, by omega, by omega, ?_, ?_⟩
          · rw [hw2]; omega
          · rw [hw2]; omega
          · rw [hw2]; omega
        · rw [if_neg (by omega)]
          obtain ⟨h, s, g1, g2, g3, g4, g5⟩ := gather a w (by omega)
          refine ⟨_, h, s, ?_, g3, g1, g2, g4, g5⟩
          rw [show e + 1 - (G.sig + 1 + 2) = w - 2 by omega,
            show 128 + (G.sig + 1) + 2 - (e + 1) = 128 - (w - 2) by omega,
            hright a (w - 2) ha (by omega), shr128, if_pos (by omega)]
          simp only [Option.bind_eq_bind, Option.bind_some]
          have hmask : (2 ^ 128 - 1) / 2 ^ (128 - (w - 2)) = 2 ^ (w - 2) - 1 := by
            have hp : 2 ^ (w - 2) * 2 ^ (128 - (w - 2)) = 2 ^ 128 := by
              rw [← Nat.pow_add]; congr 1; omega
            have hq := Nat.two_pow_pos (128 - (w - 2))
            have hq2 := Nat.two_pow_pos (w - 2)
            rw [Nat.div_eq_iff hq]
            generalize hP : 2 ^ (w - 2) = P at *
            generalize hQ : 2 ^ (128 - (w - 2)) = Q at *
            have h1 : (P - 1) * Q + Q = 2 ^ 128 := by
              rw [← Nat.succ_mul, show (P - 1).succ = P by omega]; exact hp
            omega
          rw [hmask, Nat.and_two_pow_sub_one_eq_mod]
          have : (a % 2 ^ (w - 2) != 0) = decide (a % 2 ^ (w - 2) ≠ 0) := by
            by_cases hz : a % 2 ^ (w - 2) = 0
            · simp [hz]
            · simp [hz]
          rw [this]
    obtain ⟨u, h, s, hmid, hu, hh, hs, hlt, heq⟩ := mid
    rw [hmid]
    simp only [Option.bind_eq_bind, Option.bind_some]
    have hk67 : a / 2 ^ w < 2 ^ 65 := by
      have : 2 ^ (G.sig + 1) ≤ 2 ^ 65 := Nat.pow_le_pow_right (by omega) (by omega)
      omega
    obtain ⟨hr, hrle⟩ := round_step u (a / 2 ^ w) h s hu hh hs (by omega)
    rw [hright _ 2 (by omega) (by omega), hr]
    simp only [Option.bind_some]
    generalize hmd : (if h = 1 ∧ (s = 1 ∨ a / 2 ^ w % 2 = 1) then a / 2 ^ w + 1 else a / 2 ^ w) = m
    have hmle : m ≤ 2 ^ (G.sig + 1) := by rw [← hmd]; split <;> omega
    have hmge : 2 ^ G.sig ≤ m := by rw [← hmd]; split <;> omega
    have hpow : 2 ^ (G.sig + 1) = 2 * 2 ^ G.sig := by rw [Nat.pow_succ, Nat.mul_comm]
    refine ⟨m, ?_, ?_, hmle, ?_⟩
    · unfold Rounds
      rw [hA, hR, hU]
      have hO := Nat.two_pow_pos G.offset
      have t1 : 2 * (a % 2 ^ w * 2 ^ G.offset) < 2 ^ w * 2 ^ G.offset ↔ 2 * (a % 2 ^ w) < 2 ^ w := by
        rw [← Nat.mul_assoc]; exact Nat.mul_lt_mul_right hO
      have t2 : 2 * (a % 2 ^ w * 2 ^ G.offset) = 2 ^ w * 2 ^ G.offset ↔ 2 * (a % 2 ^ w) = 2 ^ w := by
        rw [← Nat.mul_assoc]
        exact Nat.mul_left_inj (by omega)
      have t3 : 2 ^ w * 2 ^ G.offset < 2 * (a % 2 ^ w * 2 ^ G.offset) ↔ 2 ^ w < 2 * (a % 2 ^ w) := by
        rw [← Nat.mul_assoc]; exact Nat.mul_lt_mul_right hO
      rw [t1, t2, t3]
      by_cases hc : h = 1 ∧ (s = 1 ∨ a / 2 ^ w % 2 = 1)
      · rw [if_pos hc] at hmd
        right
        refine ⟨hmd.symm, ?_⟩
        by_cases hs0 : s = 0
        · right; exact ⟨heq.2 ⟨hc.1, hs0⟩, by omega⟩
        · left
          have n1 : ¬ 2 * (a % 2 ^ w) < 2 ^ w := fun h' => by have := hlt.1 h'; omega
          have n2 : ¬ 2 * (a % 2 ^ w) = 2 ^ w := fun h' => hs0 (heq.1 h').2
          omega
      · rw [if_neg hc] at hmd
        left
        refine ⟨hmd.symm, ?_⟩
        by_cases hh0 : h = 0
        · left; exact hlt.2 hh0
        · right
          have h1 : h = 1 := by omega
          have h2 : ¬ (s = 1 ∨ a / 2 ^ w % 2 = 1) := fun h' => hc ⟨h1, h'⟩
          exact ⟨heq.2 ⟨h1, by omega⟩, by omega⟩
    · rw [hA]; exact hklo
    · have hnext : m / 2 ^ (G.sig + 1) % 2 = 1 ↔ m = 2 ^ (G.sig + 1) := by
        constructor
        · intro h'
          rcases Nat.lt_or_ge m (2 ^ (G.sig + 1)) with h'' | h''
          · rw [Nat.div_eq_of_lt h''] at h'; omega
          · omega
        · intro h'; rw [h', Nat.div_self (Nat.two_pow_pos _)]
      by_cases hmt : m = 2 ^ (G.sig + 1)
      · rw [if_pos hmt, if_pos ((and_pow_ne _ _).2 (hnext.2 hmt)), hright m 1 (by omega) (by omega)]
        simp only [Option.bind_some]
        rw [hmt, hpow]
        congr 2
        omega
      · rw [if_neg hmt, if_neg (fun h' => hmt (hnext.1 ((and_pow_ne _ _).1 h')))]
  · rw [if_neg hsd]
    have hA : a * 2 ^ G.offset = a * 2 ^ (G.sig - e) * 2 ^ (e + G.bias) := by
      rw [Nat.mul_assoc, ← Nat.pow_add, Ieee.offset]; congr 2; omega
    have hU := Nat.two_pow_pos (e + G.bias)
    have hdiv : a * 2 ^ G.offset / 2 ^ (e + G.bias) = a * 2 ^ (G.sig - e) := by
      rw [hA, Nat.mul_div_cancel _ hU]
    have hmod : a * 2 ^ G.offset % 2 ^ (e + G.bias) = 0 := by
      rw [hA, Nat.mul_mod_left]
    have hup : a * 2 ^ (G.sig - e) < 2 ^ (G.sig + 1) := by
      have : 2 ^ (G.sig + 1) = 2 ^ (e + 1) * 2 ^ (G.sig - e) := by
        rw [← Nat.pow_add]; congr 1; omega
      rw [this]
      exact (Nat.mul_lt_mul_right (Nat.two_pow_pos _)).2 hhi
    have h65 : 2 ^ (G.sig + 1) ≤ 2 ^ 65 := Nat.pow_le_pow_right (by omega) (by omega)
    refine ⟨a * 2 ^ (G.sig - e), ?_, ?_, by omega, ?_⟩
    · left
      rw [hdiv, hmod]
      exact ⟨rfl, Or.inl (by omega)⟩
    · rw [hdiv]
      have : 2 ^ G.sig = 2 ^ e * 2 ^ (G.sig - e) := by rw [← Nat.pow_add]; congr 1; omega
      rw [this]
      exact Nat.mul_le_mul_right _ hlo
    · rw [if_neg (by omega), shl128, if_pos (by omega), show G.sig + 1 - (e + 1) = G.sig - e by omega,
        Nat.mod_eq_of_lt (by omega)]
      rfl

/-- Putting the parts together. -/
theorem pack_eq (F : Fmt) (G : Ieee) (hF : F.Good G) (neg : Bool) (e m : Nat) (he : e ≤ 128)
    (h1 : 2 ^ G.sig ≤ m) (h2 : m < 2 ^ (G.sig + 1)) :
    pack F (if neg then 2 ^ 128 - 1 else 0) e m = G.encode neg (e + G.bias) m := by
  have hexp : e + G.bias < 2 ^ F.expBits := by
    have h := hF.expBias
    have h8 : 2 ^ 7 ≤ 2 ^ (F.expBits - 1) := Nat.pow_le_pow_right (by omega) (by have := hF.exp; omega)
    have : 2 ^ F.expBits = 2 * 2 ^ (F.expBits - 1) := by
      rw [Nat.mul_comm, ← Nat.pow_succ]; congr 1; have := hF.exp; omega
    omega
  have hrep : G.bits = F.expBits + G.sig + 1 := hF.expBits.symm
  have hsh : (e + G.bias) * 2 ^ G.sig < 2 ^ (G.bits - 1) := by
    have : 2 ^ (G.bits - 1) = 2 ^ F.expBits * 2 ^ G.sig := by
      rw [← Nat.pow_add]; congr 1; omega
    rw [this]
    exact (Nat.mul_lt_mul_right (Nat.two_pow_pos _)).2 hexp
  have hbits : 2 ^ G.bits = 2 * 2 ^ (G.bits - 1) := by
    rw [Nat.mul_comm, ← Nat.pow_succ]; congr 1; omega
  have hsg : 2 ^ (G.sig + 1) = 2 * 2 ^ G.sig := by rw [Nat.pow_succ, Nat.mul_comm]
  have hmm : m % 2 ^ G.bits = m := by
    apply Nat.mod_eq_of_lt
    have : 2 ^ (G.sig + 1) ≤ 2 ^ G.bits := Nat.pow_le_pow_right (by omega) (by omega)
    omega
  have hmant : (m &&& (2 ^ G.sig - 1)) = m - 2 ^ G.sig := by
    rw [Nat.and_two_pow_sub_one_eq_mod]
    have : m = 2 ^ G.sig + (m - 2 ^ G.sig) := by omega
    conv => lhs; rw [this]
    rw [Nat.add_mod_left, Nat.mod_eq_of_lt (by omega)]
  have hle : e + G.bias ≤ (e + G.bias) * 2 ^ G.sig := Nat.le_mul_of_pos_right _ (Nat.two_pow_pos _)
  unfold pack Ieee.encode
  rw [hF.bits, hF.signBit, hF.sig, hF.bias, hF.mask, hmm, hmant,
    Nat.mod_eq_of_lt (by omega : e + G.bias < 2 ^ G.bits),
    Nat.mod_eq_of_lt (by omega : (e + G.bias) * 2 ^ G.sig < 2 ^ G.bits)]
  have hor : ((e + G.bias) * 2 ^ G.sig ||| (m - 2 ^ G.sig)) = (e + G.bias) * 2 ^ G.sig + (m - 2 ^ G.sig) :=
    or_add _ _ _ (by omega)
  rw [Nat.or_assoc, hor]
  have hall : (e + G.bias) * 2 ^ G.sig + (m - 2 ^ G.sig) < 2 ^ (G.bits - 1) := by
    have h3 : (e + G.bias + 1) * 2 ^ G.sig ≤ 2 ^ F.expBits * 2 ^ G.sig := Nat.mul_le_mul_right _ hexp
    have : 2 ^ (G.bits - 1) = 2 ^ F.expBits * 2 ^ G.sig := by
      rw [← Nat.pow_add]; congr 1; omega
    rw [Nat.succ_mul] at h3
    omega
  cases neg with
  | false => simp
  | true =>
    simp only [if_true]
    have hones : (2 ^ 128 - 1) % 2 ^ G.bits = 2 ^ G.bits - 1 := by
      have hp : 2 ^ 128 = 2 ^ G.bits * 2 ^ (128 - G.bits) := by
        rw [← Nat.pow_add]; congr 1; have := hF.small; omega
      have hq := Nat.two_pow_pos (128 - G.bits)
      rw [hp]
      have : 2 ^ G.bits * 2 ^ (128 - G.bits) - 1 =
          2 ^ G.bits * (2 ^ (128 - G.bits) - 1) + (2 ^ G.bits - 1) := by
        have h5 := Nat.two_pow_pos G.bits
        have h6 : 2 ^ G.bits * (2 ^ (128 - G.bits) - 1) + 2 ^ G.bits = 2 ^ G.bits * 2 ^ (128 - G.bits) := by
          have h7 : (2 ^ (128 - G.bits) - 1).succ = 2 ^ (128 - G.bits) := by omega
          rw [← Nat.mul_succ, h7]
        omega
      rw [this, Nat.mul_add_mod, Nat.mod_eq_of_lt (by have := Nat.two_pow_pos G.bits; omega)]
    rw [hones, Nat.and_comm, Nat.and_two_pow_sub_one_eq_mod, Nat.mod_eq_of_lt (by
      have := Nat.two_pow_pos (G.bits - 1); omega)]
    have := or_add (G.bits - 1) 1 _ hall
    rw [Nat.one_mul] at this
    rw [this]; omega

/-- Both conversions, for the numbers they are right for. -/
theorem convert_nearest (F : Fmt) (G : Ieee) (hF : F.Good G) (right : Nat → Nat → Option Nat)
    (B : Nat) (hB : 2 ^ 100 ≤ B) (hB2 : B ≤ 2 ^ 128)
    (hright : ∀ x n, x < B → n < 128 → right x n = some (x / 2 ^ n))
    (neg : Bool) (a : Nat) (ha0 : a ≠ 0) (ha : a < B) :
    ∃ x m, convert F right (if neg then 2 ^ 128 - 1 else 0) a = some (G.encode neg x m) ∧
      Nearest G a x m := by
  have hlog : a.log2 < 128 := (Nat.log2_lt ha0).2 (by omega)
  obtain ⟨m, h1, h2, h3, h4⟩ := convert_eq F G hF right B hB hB2 hright
    (if neg then 2 ^ 128 - 1 else 0) a ha0 ha
  have hsg : 2 ^ (G.sig + 1) = 2 * 2 ^ G.sig := by rw [Nat.pow_succ, Nat.mul_comm]
  have hpos := Nat.two_pow_pos G.sig
  by_cases hm : m = 2 ^ (G.sig + 1)
  · rw [if_pos hm] at h4
    refine ⟨a.log2 + 1 + G.bias, 2 ^ G.sig, ?_, ?_⟩
    · rw [h4, pack_eq F G hF neg _ _ (by omega) (Nat.le_refl _) (by omega)]
    · rw [hm] at h1
      have := rounds_nearest_carry G a _ hF.sig1 h2 h1
      rw [show a.log2 + 1 + G.bias = a.log2 + G.bias + 1 by omega]
      exact this
  · rw [if_neg hm] at h4
    have hn := rounds_nearest G a _ m h2 h1 (by omega)
    refine ⟨a.log2 + G.bias, m, ?_, hn⟩
    rw [h4, pack_eq F G hF neg _ _ (by omega) hn.1 (by omega)]

theorem shr128_right : ∀ x n : Nat, x < 2 ^ 128 → n < 128 → shr128 x n = some (x / 2 ^ n) := by
  intro x n _ hn
  rw [shr128, if_pos hn]

theorem sar128_right : ∀ x n : Nat, x < 2 ^ 127 → n < 128 → sar128 x n = some (x / 2 ^ n) := by
  intro x n hx hn
  rw [sar128, if_pos hn, if_neg (by omega)]

theorem applySub (a s : Nat) (ha : a < 2 ^ 128) (hs : s = 0 ∨ s = 2 ^ 128 - 1) :
    sub128 (a ^^^ s) s = applySign a s := by
  rcases hs with h | h
  · subst h
    rw [applySign_zero a ha, Nat.xor_zero]; unfold sub128; omega
  · subst h
    rw [applySign_ones a ha, xor_ones a ha]; unfold sub128; omega

end C3.I128Rt
