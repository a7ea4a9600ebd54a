import Verif.BigNum.LemmasMul

/-! # C82: products of `BigInt`s -/

set_option autoImplicit false

namespace C3.BigNum

/-- The products that are made: those by 0 and 1, and those for whose absolute
value there is room if there is for the absolute value of the second factor. -/
def Fits (N : Nat) (x y : Int) : Prop :=
  y = 0 ∨ y = 1 ∨ (2 * (x * y).natAbs < span N ∧ 2 * y.natAbs < span N)

theorem natAbs_le_mul (x y : Int) (h : y ≠ 0) : x.natAbs ≤ (x * y).natAbs := by
  rw [Int.natAbs_mul]
  exact Nat.le_mul_of_pos_right _ (Int.natAbs_pos.2 h)

/-- C82: a product is right, or the program stops. -/
theorem C82_mult (N : Nat) (hN : 0 < N) (a b : Big) (x y : Int) (ha : Is N a x) (hb : Is N b y) :
    (Fits N x y → ∃ c, mult N a b = some c ∧ Is N c (x * y)) ∧
    (¬ Fits N x y → mult N a b = none) := by
  obtain ⟨b0, b1, -, bn⟩ := C80_tests N hN b y hb
  obtain ⟨-, -, -, an⟩ := C80_tests N hN a x ha
  unfold mult
  by_cases hy0 : y = 0
  · rw [if_pos (b0.2 hy0), hy0, Int.mul_zero]
    exact ⟨fun _ => ⟨_, rfl, zero_is N hN⟩, fun h => absurd (Or.inl rfl) h⟩
  rw [if_neg fun h => hy0 (b0.1 h)]
  by_cases hy1 : y = 1
  · rw [if_pos (b1.2 hy1), hy1, Int.mul_one]
    exact ⟨fun _ => ⟨_, rfl, ha⟩, fun h => absurd (Or.inr (Or.inl rfl)) h⟩
  rw [if_neg fun h => hy1 (b1.1 h)]
  have hfit : Fits N x y ↔ (2 * (x * y).natAbs < span N ∧ 2 * y.natAbs < span N) := by
    unfold Fits
    simp only [hy0, hy1, false_or]
  rw [hfit]
  obtain ⟨sa1, sa2⟩ := strip_spec N hN a x ha
  obtain ⟨sb1, sb2⟩ := strip_spec N hN b y hb
  have hle := natAbs_le_mul x y hy0
  have hyx : x ≠ 0 → y.natAbs ≤ (x * y).natAbs := fun h => by
    rw [Int.mul_comm]; exact natAbs_le_mul y x h
  simp only [Option.bind_eq_bind]
  by_cases hra : InRange N x.natAbs
  · obtain ⟨a', ea, ia⟩ := sa1 hra
    rw [ea, Option.bind_some]
    by_cases hrb : InRange N y.natAbs
    · obtain ⟨b', eb, ib⟩ := sb1 hrb
      rw [eb, Option.bind_some]
      obtain ⟨va, ra⟩ := ia.nat
      obtain ⟨vb, rb⟩ := ib.nat
      obtain ⟨m1, m2⟩ := mult_words hN ia.1.toValid ib.1.toValid
      rw [va, vb, ← Int.natAbs_mul] at m1 m2
      cases hm : multLoop (b'.data.take b'.len) (a'.data.take a'.len) (List.replicate N 0) with
      | none =>
        have h1 := m2 (by rw [← vb]; exact ib.1.ge (by omega)) hm
        exact ⟨fun h => absurd h (by omega), fun _ => rfl⟩
      | some rs =>
        rw [Option.bind_some]
        obtain ⟨hc, hv⟩ := m1 rs hm
        have hn := hc.toValid.neg hN
        rw [reduce_data] at hn
        rw [hn]
        dsimp only
        rw [hv]
        by_cases hr : 2 * (x * y).natAbs < span N
        · rw [decide_eq_false (by omega), if_pos rfl]
          refine ⟨fun _ => ?_, fun h => absurd ⟨hr, rb⟩ h⟩
          have hi : Is N (⟨rs, min (a'.len + b'.len) N⟩ : Big).reduceLen ((x * y).natAbs : Nat) := by
            rw [← hv]
            exact is_nat hc (by rw [reduce_data]; dsimp only; omega)
          obtain ⟨c, ec, ic⟩ := negateIf_spec N hN _ _ hi (a.isNegative N != b.isNegative N)
          refine ⟨c, ec, ?_⟩
          have hsgn : (if (a.isNegative N != b.isNegative N) = true then -((x * y).natAbs : Int)
              else (x * y).natAbs) = x * y := by
            have hs : (a.isNegative N != b.isNegative N) = decide ((x < 0) ≠ (y < 0)) := by
              rw [ha.1.neg_iff_int hN, hb.1.neg_iff_int hN, ha.2, hb.2]
              by_cases h1 : x < 0 <;> by_cases h2 : y < 0 <;> simp [h1, h2]
            rw [hs]
            rcases Int.lt_or_le x 0 with h1 | h1 <;> rcases Int.lt_or_le y 0 with h2 | h2
            · have := Int.mul_pos_of_neg_of_neg h1 h2
              rw [if_neg (by simp [h1, h2])]
              omega
            · have := Int.mul_nonpos_of_nonpos_of_nonneg (Int.le_of_lt h1) h2
              rw [if_pos (by simp [h1, Int.not_lt.2 h2])]
              omega
            · have := Int.mul_nonpos_of_nonneg_of_nonpos h1 (Int.le_of_lt h2)
              rw [if_pos (by simp [h2, Int.not_lt.2 h1])]
              omega
            · have := Int.mul_nonneg h1 h2
              rw [if_neg (by simp [Int.not_lt.2 h1, Int.not_lt.2 h2])]
              omega
          rw [hsgn] at ic
          exact ic
        · rw [decide_eq_true (by omega), if_neg (by decide)]
          exact ⟨fun h => absurd h.1 hr, fun _ => rfl⟩
    · rw [sb2 hrb]
      exact ⟨fun h => absurd (by unfold InRange; omega) hrb, fun _ => rfl⟩
  · rw [sa2 hra]
    exact ⟨fun h => absurd (by unfold InRange; omega) hra, fun _ => rfl⟩

/-- C82: no product is made for which there is no room. -/
theorem C82_overflow (N : Nat) (hN : 0 < N) (a b : Big) (x y : Int) (ha : Is N a x) (hb : Is N b y)
    (h : ¬ InRange N (x * y)) : mult N a b = none := by
  apply (C82_mult N hN a b x y ha hb).2
  intro hf
  apply h
  rcases hf with rfl | rfl | hf
  · have := span_pos N
    unfold InRange
    omega
  · rw [Int.mul_one, ← ha.2]
    exact ha.1.range
  · unfold InRange
    omega

/-- What one would want: a product is made whenever there is room for it. -/
def C82_full (N : Nat) : Prop := ∀ (a b : Big) (x y : Int), Is N a x → Is N b y →
  InRange N (x * y) → ∃ c, mult N a b = some c ∧ Is N c (x * y)

/-- C82: the program stops at a product of 0 by the smallest number, though not
at one of the smallest number by 0, and at one of -1 by 2 to the power of
`32 * N - 1`. -/
theorem C82_fails (N : Nat) (hN : 1 < N) : ¬ C82_full N := by
  intro h
  have hlen : (List.replicate (N - 1) 0 ++ [2 ^ 31] : List Nat).length = N := by simp; omega
  have hv : value (List.replicate (N - 1) 0 ++ [2 ^ 31]) = span (N - 1) * 2 ^ 31 := by
    rw [value_append, value_replicate, List.length_replicate]
    simp [value]
  obtain ⟨k, hk, hk'⟩ := span_half (show 0 < N by omega)
  have hmin : Is N ⟨List.replicate (N - 1) 0 ++ [2 ^ 31], N⟩ (-(k : Int)) := by
    refine ⟨{ size := hlen, small := ?_, pos := by show 1 ≤ N; omega, le := Nat.le_refl _, high := ?_,
              top := Or.inr ?_ }, ?_⟩
    · intro w hw
      rcases List.mem_append.1 hw with hw | hw
      · rw [(List.mem_replicate.1 hw).2]; decide
      · rw [List.mem_singleton.1 hw]; decide
    · intro w hw
      rw [List.drop_eq_nil_of_le (by rw [hlen])] at hw
      simp at hw
    · show (List.replicate (N - 1) 0 ++ [2 ^ 31]).getD (N - 1) 0 ≠ 0
      rw [getD_get _ _ (by omega), List.getElem_append_right (by simp)]
      simp
    · unfold toInt
      dsimp only
      rw [hv, if_neg (by omega)]
      omega
  obtain ⟨c, hc, -⟩ := h _ _ 0 _ (zero_is N (by omega)) hmin (by
    rw [Int.zero_mul]; have := span_pos N; unfold InRange; omega)
  rw [(C82_mult N (by omega) _ _ 0 _ (zero_is N (by omega)) hmin).2] at hc
  · exact absurd hc (by simp)
  · unfold Fits
    have hp := span_pos (N - 1)
    omega

/-- 3 * -2^40 in three words. -/
example : mult 3 ⟨[3, 0, 0], 1⟩ ⟨[0, 0xFFFFFF00, 0xFFFFFFFF], 3⟩ =
    some ⟨[0, 0xFFFFFD00, 0xFFFFFFFF], 3⟩ ∧ Fits 3 3 (-2 ^ 40) := by
  refine ⟨by decide +kernel, Or.inr (Or.inr ?_)⟩
  decide +kernel

end C3.BigNum
