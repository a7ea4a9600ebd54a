import Verif.BigNum.LemmasAdd

/-! # C80: sums, differences, signs and comparisons of `BigInt`s -/

set_option autoImplicit false

namespace C3.BigNum

/-- C80: a sum is right, or the program stops because there is no room for it. -/
theorem C80_add (N : Nat) (hN : 0 < N) (a b : Big) (x y : Int) (ha : Is N a x) (hb : Is N b y) :
    (InRange N (x + y) → ∃ c, add N a b = some c ∧ Is N c (x + y)) ∧
    (¬ InRange N (x + y) → add N a b = none) := by
  obtain ⟨ha, rfl⟩ := ha
  obtain ⟨hb, rfl⟩ := hb
  obtain ⟨c, hc, hv, he⟩ := add_spec hN ha.toValid hb.toValid
  have h1 := ha.lt
  have h2 := hb.lt
  have h3 := hc.lt
  obtain ⟨k, hk, -⟩ := span_half hN
  rw [he, ha.neg hN, hb.neg hN, hc.neg hN]
  unfold InRange Is toInt
  simp only [ne_eq, decide_eq_decide]
  constructor
  · intro hr
    refine ⟨c, ?_, hc, ?_⟩
    · rw [if_pos]
      split at hr <;> split at hr <;> omega
    · split at hr <;> split at hr <;> split <;> omega
  · intro hr
    rw [if_neg]
    split at hr <;> split at hr <;> omega

/-- C80: so is a difference. -/
theorem C80_sub (N : Nat) (hN : 0 < N) (a b : Big) (x y : Int) (ha : Is N a x) (hb : Is N b y) :
    (InRange N (x - y) → ∃ c, sub N a b = some c ∧ Is N c (x - y)) ∧
    (¬ InRange N (x - y) → sub N a b = none) := by
  obtain ⟨ha, rfl⟩ := ha
  obtain ⟨hb, rfl⟩ := hb
  obtain ⟨c, hc, hv, he⟩ := sub_spec hN ha.toValid hb.toValid
  have h1 := ha.lt
  have h2 := hb.lt
  have h3 := hc.lt
  obtain ⟨k, hk, -⟩ := span_half hN
  rw [he, ha.neg hN, hb.neg hN, hc.neg hN]
  unfold InRange Is toInt
  simp only [decide_eq_decide]
  constructor
  · intro hr
    refine ⟨c, ?_, hc, ?_⟩
    · rw [if_pos]
      split at hr <;> split at hr <;> omega
    · split at hr <;> split at hr <;> split <;> omega
  · intro hr
    rw [if_neg]
    split at hr <;> split at hr <;> omega

/-- C80: so is the number with the other sign, by `negate` and by the operator. -/
theorem C80_negate (N : Nat) (hN : 0 < N) (a : Big) (x : Int) (ha : Is N a x) :
    (InRange N (-x) → ∃ c, negate N a = some c ∧ Is N c (-x)) ∧
    (¬ InRange N (-x) → negate N a = none) ∧ unaryMinus N a = negate N a := by
  obtain ⟨ha, rfl⟩ := ha
  have h1 := ha.lt
  obtain ⟨k, hk, -⟩ := span_half hN
  cases h0 : a.isZero with
  | true =>
    have hz := ha.isZero_iff.1 h0
    have hp := span_pos N
    have hx : toInt N a = 0 := by unfold toInt; rw [if_pos (by omega), hz]; rfl
    unfold negate unaryMinus
    simp only [h0, if_true]
    rw [hx]
    refine ⟨fun _ => ⟨a, rfl, ha, hx⟩, fun h => ?_, trivial⟩
    exact absurd (show InRange N (-0) by unfold InRange; omega) h
  | false =>
    have hz : value a.data ≠ 0 := fun h => by rw [ha.isZero_iff.2 h] at h0; exact absurd h0 (by decide)
    obtain ⟨c, hc, hv, he⟩ := negate_spec hN ha.toValid h0 hz
    have h3 := hc.lt
    unfold unaryMinus
    rw [h0, if_neg Bool.false_ne_true, he, ha.neg hN, hc.neg hN]
    unfold InRange Is toInt
    simp only [ne_eq, decide_eq_decide]
    refine ⟨?_, ?_, trivial⟩
    · intro hr
      refine ⟨c, ?_, hc, ?_⟩
      · rw [if_pos]
        split at hr <;> omega
      · split at hr <;> split <;> omega
    · intro hr
      rw [if_neg]
      split at hr <;> omega

/-- C80: so is the absolute value. -/
theorem C80_abs (N : Nat) (hN : 0 < N) (a : Big) (x : Int) (ha : Is N a x) :
    (InRange N x.natAbs → ∃ c, abs N a = some c ∧ Is N c x.natAbs) ∧
    (¬ InRange N x.natAbs → abs N a = none) := by
  unfold abs
  have hneg := ha.1.neg_iff_int hN
  rw [ha.2] at hneg
  rw [hneg]
  obtain ⟨h1, h2, h3⟩ := C80_negate N hN a x ha
  by_cases hx : x < 0
  · rw [decide_eq_true hx, if_pos rfl, h3, show ((x.natAbs : Nat) : Int) = -x by omega]
    exact ⟨h1, h2⟩
  · rw [decide_eq_false hx, if_neg Bool.false_ne_true, show ((x.natAbs : Nat) : Int) = x by omega]
    refine ⟨fun _ => ⟨a, rfl, ha⟩, fun h => absurd ?_ h⟩
    rw [← ha.2]
    exact ha.1.range

/-- C80: the comparisons, and the tests for 0, 1, odd and negative numbers. -/
theorem C80_compare (N : Nat) (hN : 0 < N) (a b : Big) (x y : Int) (ha : Is N a x) (hb : Is N b y) :
    (lessThan N a b = true ↔ x < y) ∧ (greaterThan N a b = true ↔ x > y) ∧
    (equals a b = true ↔ x = y) ∧ (greaterOrEqual N a b = true ↔ x ≥ y) := by
  obtain ⟨ha, rfl⟩ := ha
  obtain ⟨hb, rfl⟩ := hb
  unfold greaterOrEqual
  rw [greaterThan_eq, lessThan_spec hN ha.toValid hb.toValid, lessThan_spec hN hb.toValid ha.toValid,
    equals_spec ha hb]
  refine ⟨decide_eq_true_iff, decide_eq_true_iff, decide_eq_true_iff, ?_⟩
  rw [Bool.or_eq_true, decide_eq_true_eq, decide_eq_true_eq]
  omega

/-- C80: an integer has one form. -/
theorem C80_unique (N : Nat) (a b : Big) (x : Int) (ha : Is N a x) (hb : Is N b x) : a = b :=
  ha.1.ext_int hb.1 (ha.2.trans hb.2.symm)

theorem word0 {N : Nat} (hN : 0 < N) {a : Big} (ha : Valid N a) :
    ∃ t, value a.data = a.word 0 + 2 ^ 32 * t ∧ (a.len = 1 → t = 0) ∧ a.word 0 < 2 ^ 32 := by
  have hs := ha.size
  have := value_split a.data 0 (by omega)
  refine ⟨value (a.data.drop 1), ?_, ?_, ha.small _ (getD_mem _ _ (by omega))⟩
  · rw [this]
    simp [value, span, Big.word]
  · intro h
    apply value_zeros
    rw [← h]
    exact ha.high

/-- C80: the tests for 0, 1, odd and negative numbers. -/
theorem C80_tests (N : Nat) (hN : 0 < N) (a : Big) (x : Int) (ha : Is N a x) :
    (a.isZero = true ↔ x = 0) ∧ (a.isOne = true ↔ x = 1) ∧ (a.isOdd = true ↔ x % 2 = 1) ∧
    (a.isNegative N = true ↔ x < 0) := by
  obtain ⟨ha, rfl⟩ := ha
  have h1 := ha.lt
  obtain ⟨k, hk, hk'⟩ := span_half hN
  have hp := span_pos (N - 1)
  obtain ⟨t, ht, htl, hw⟩ := word0 hN ha.toValid
  refine ⟨?_, ?_, ?_, ?_⟩
  · rw [ha.isZero_iff]
    unfold toInt
    split <;> omega
  · unfold Big.isOne
    rw [Bool.and_eq_true, beq_iff_eq, beq_iff_eq]
    constructor
    · intro ⟨h2, h3⟩
      have := htl h2
      rw [toInt_of_nat (by omega)]
      omega
    · intro h
      have hv : value a.data = 1 := by
        unfold toInt at h
        split at h <;> omega
      have ht0 : t = 0 := by omega
      refine ⟨?_, by omega⟩
      rcases ha.top with h | h
      · exact h
      · have hpos := ha.pos
        have hle := ha.le
        have hsz := ha.size
        rcases Nat.lt_or_ge 1 a.len with h2 | h2
        · exfalso
          apply h
          have hd := drop_zero_of_lt a.data 1 (by omega) (by rw [hv]; decide)
          apply hd
          rw [Big.word, getD_get _ _ (by omega), List.mem_iff_getElem]
          refine ⟨a.len - 2, by rw [List.length_drop]; omega, ?_⟩
          rw [List.getElem_drop]
          congr 1
          omega
        · omega
  · unfold Big.isOdd
    rw [Nat.and_one_is_mod, bne_iff_ne]
    unfold toInt
    split <;> omega
  · rw [ha.neg_iff_int hN, decide_eq_true_eq]

/-- -3 in two words, and 5. -/
example : Is 2 ⟨[0xFFFFFFFD, 0xFFFFFFFF], 2⟩ (-3) ∧ Is 2 ⟨[5, 0], 1⟩ 5 := by
  constructor <;>
    exact ⟨{ size := by decide, small := by decide, pos := by decide, le := by decide,
             high := by decide, top := by decide }, by decide +kernel⟩

example : add 2 ⟨[0xFFFFFFFD, 0xFFFFFFFF], 2⟩ ⟨[5, 0], 1⟩ = some ⟨[2, 0], 1⟩ ∧
    sub 2 ⟨[5, 0], 1⟩ ⟨[0xFFFFFFFD, 0xFFFFFFFF], 2⟩ = some ⟨[8, 0], 1⟩ ∧
    negate 2 ⟨[5, 0], 1⟩ = some ⟨[0xFFFFFFFB, 0xFFFFFFFF], 2⟩ ∧
    add 2 ⟨[0xFFFFFFFF, 0x7FFFFFFF], 2⟩ ⟨[1, 0], 1⟩ = none := by decide +kernel

end C3.BigNum
