import Verif.BigNum.LemmasMulti
import Verif.BigNum.PropsBit

/-! # C84: division and remainder -/

set_option autoImplicit false

namespace C3.BigNum

theorem tdiv_abs (x y : Int) :
    x.tdiv y = if (decide (x < 0) != decide (y < 0)) then -((x.natAbs / y.natAbs : Nat) : Int)
      else (x.natAbs / y.natAbs : Nat) := by
  rcases Int.natAbs_eq x with hx | hx <;> rcases Int.natAbs_eq y with hy | hy <;>
    generalize x.natAbs = m at * <;> generalize y.natAbs = n at * <;> subst hx <;> subst hy
  · rw [if_neg (by simp; omega)]
    simp [Int.tdiv]
  · cases n with
    | zero => simp
    | succ n =>
      rw [if_pos (by simp; omega), Int.tdiv_neg]
      simp [Int.tdiv]
  · cases m with
    | zero => simp
    | succ m =>
      rw [if_pos (by simp; omega), Int.neg_tdiv]
      simp [Int.tdiv]
  · rw [Int.neg_tdiv, Int.tdiv_neg, Int.neg_neg]
    cases m with
    | zero => simp
    | succ m =>
      cases n with
      | zero => simp
      | succ n =>
        rw [if_neg (by simp; omega)]
        simp [Int.tdiv]

theorem tmod_abs (x y : Int) :
    x.tmod y = if decide (x < 0) then -((x.natAbs % y.natAbs : Nat) : Int)
      else (x.natAbs % y.natAbs : Nat) := by
  rcases Int.natAbs_eq x with hx | hx <;> rcases Int.natAbs_eq y with hy | hy <;>
    generalize x.natAbs = m at * <;> generalize y.natAbs = n at * <;> subst hx <;> subst hy
  · simp [Int.tmod]
  · rw [Int.tmod_neg]
    simp [Int.tmod]
  · rw [Int.neg_tmod]
    cases m with
    | zero => simp
    | succ m =>
      rw [if_pos (by simp; omega)]
      simp [Int.tmod]
  · rw [Int.neg_tmod, Int.tmod_neg]
    cases m with
    | zero => simp
    | succ m =>
      rw [if_pos (by simp; omega)]
      simp [Int.tmod]

/-- The words in use of a number that is not negative. -/
theorem Is.len_one {N : Nat} {b : Big} {n : Nat} (h : Is N b n) : b.len = 1 ↔ n < 2 ^ 32 := by
  have hv := h.nat.1
  constructor
  · intro h1
    have := h.1.lt_len
    rw [h1, hv] at this
    simpa [span] using this
  · intro h1
    rcases h.1.one_or_ge with h2 | h2
    · exact h2
    · have hp := h.1.pos
      rcases Nat.eq_or_lt_of_le hp with h3 | h3
      · exact h3.symm
      · have := span_mono (m := 1) (n := b.len - 1) (by omega)
        rw [hv] at h2
        simp only [span, Nat.pow_one] at this h2
        omega

theorem Is.word_top {N : Nat} {b : Big} {n : Nat} (h : Is N b n) (h0 : n ≠ 0) : b.word (b.len - 1) ≠ 0 := by
  have hv := h.nat.1
  exact top_ne h.1.size h.1.small h.1.pos h.1.le h.1.high (h.1.ge (by omega))

theorem Is.lessThan {N : Nat} (hN : 0 < N) {a b : Big} {m n : Nat} (ha : Is N a m) (hb : Is N b n) :
    lessThan N a b = decide (m < n) := by
  have := (C80_compare N hN a b m n ha hb).1
  rw [Bool.eq_iff_iff, this]
  simp

theorem isNeg {N : Nat} (hN : 0 < N) {a : Big} {x : Int} (ha : Is N a x) : a.isNegative N = decide (x < 0) := by
  rw [ha.1.toValid.neg_iff_int hN, ha.2]

/-- The division of numbers that are not negative, for the divisors that come out right. -/
theorem divide_spec {N : Nat} (hN : 1 < N) {a b : Big} {m n : Nat} (ha : Is N a m) (hb : Is N b n)
    (h0 : n ≠ 0) (h : n < 2 ^ 32 ∨ m = 0) :
    ∃ q r, divide N a b = some (q, r) ∧ Is N q (m / n : Nat) ∧ Is N r (m % n : Nat) := by
  unfold divide
  by_cases h1 : b.len = 1
  · rw [if_pos h1]
    have hn := hb.len_one.1 h1
    have hw : b.word 0 = n := by
      obtain ⟨t, t1, t2, t3⟩ := word0 (by omega) hb.1.toValid
      rw [hb.nat.1, t2 h1] at t1
      exact t1.symm
    exact singleDivide_spec (by omega) ha hw (by omega) hn
  · rw [if_neg h1]
    have hn : ¬ n < 2 ^ 32 := fun hn => h1 (hb.len_one.2 hn)
    have hm : m = 0 := h.resolve_left hn
    subst hm
    have hal : a.len = 1 := ha.len_one.2 (by decide)
    rw [multiDivide_short ha.1 hb.1 (by omega) (by have := hb.1.pos; omega) (hb.word_top h0)
      (by rw [ha.nat.1, Nat.zero_mul]; exact span_pos _)]
    exact ⟨_, _, rfl, by rw [Nat.zero_div]; exact zero_is N (by omega), by rw [Nat.zero_mod]; exact ha⟩

/-- C84 (part): division and remainder are right, with the quotient rounded
towards zero, if the divisor has one word or if the dividend is smaller in size
than the divisor.  Neither of the two may be the smallest number.
What is missing is every other divisor of more than one word:
`C84_same_bits` says for which of them the result is certainly wrong. -/
theorem C84_div_partial (N : Nat) (hN : 1 < N) (a b : Big) (x y : Int) (ha : Is N a x) (hb : Is N b y)
    (h0 : y ≠ 0) (hx : InRange N x.natAbs) (hy : InRange N y.natAbs)
    (h : y.natAbs < 2 ^ 32 ∨ x.natAbs < y.natAbs) :
    (∃ c, div N a b = some c ∧ Is N c (x.tdiv y)) ∧ (∃ c, mod N a b = some c ∧ Is N c (x.tmod y)) := by
  obtain ⟨a', ha1, ha2⟩ := (strip_spec N (by omega) a x ha).1 hx
  obtain ⟨b', hb1, hb2⟩ := (strip_spec N (by omega) b y hb).1 hy
  have hlt := Is.lessThan (by omega) ha2 hb2
  have hn0 : y.natAbs ≠ 0 := by omega
  constructor
  · unfold div
    rw [ha1, hb1, Option.bind_eq_bind, Option.bind_some, Option.bind_eq_bind, Option.bind_some, hlt]
    have key : ∃ q r, divide N (if decide (x.natAbs < y.natAbs) = true then zero N else a') b' = some (q, r) ∧
        Is N q (x.natAbs / y.natAbs : Nat) := by
      by_cases hc : x.natAbs < y.natAbs
      · rw [if_pos (by simpa using hc)]
        obtain ⟨q, r, e, hq, -⟩ := divide_spec (m := 0) hN (zero_is N (by omega)) hb2 hn0 (Or.inr rfl)
        refine ⟨q, r, e, ?_⟩
        rw [Nat.div_eq_of_lt hc, ← Nat.zero_div y.natAbs]
        exact hq
      · rw [if_neg (by simpa using hc)]
        obtain ⟨q, r, e, hq, -⟩ := divide_spec hN ha2 hb2 hn0 (Or.inl (h.resolve_right hc))
        exact ⟨q, r, e, hq⟩
    obtain ⟨q, r, e, hq⟩ := key
    dsimp only
    rw [e, Option.bind_some, isNeg (by omega) ha, isNeg (by omega) hb, tdiv_abs]
    exact negateIf_spec N (by omega) q _ hq _
  · unfold mod
    rw [ha1, hb1, Option.bind_eq_bind, Option.bind_some, Option.bind_eq_bind, Option.bind_some, hlt]
    by_cases hc : x.natAbs < y.natAbs
    · rw [if_pos (by simpa using hc), isNeg (by omega) ha, tmod_abs, Nat.mod_eq_of_lt hc]
      exact negateIf_spec N (by omega) a' _ ha2 _
    · rw [if_neg (by simpa using hc)]
      obtain ⟨q, r, e, -, hr⟩ := divide_spec hN ha2 hb2 hn0 (Or.inl (h.resolve_right hc))
      rw [e, Option.bind_some, isNeg (by omega) ha, tmod_abs]
      exact negateIf_spec N (by omega) r _ hr _

/-- C84: division by zero stops, and so does the division of the smallest
number, or by it. -/
theorem C84_stops (N : Nat) (hN : 1 < N) (a b : Big) (x y : Int) (ha : Is N a x) (hb : Is N b y)
    (h : y = 0 ∨ 2 * x = -(span N : Int) ∨ 2 * y = -(span N : Int)) :
    div N a b = none ∧ mod N a b = none := by
  have sa := strip_spec N (by omega) a x ha
  have sb := strip_spec N (by omega) b y hb
  by_cases hx : InRange N x.natAbs
  · by_cases hy : InRange N y.natAbs
    · have h0 : y = 0 := by
        unfold InRange at hx hy
        omega
      subst h0
      obtain ⟨a', ha1, ha2⟩ := sa.1 hx
      obtain ⟨b', hb1, hb2⟩ := sb.1 hy
      have hlt := Is.lessThan (by omega) ha2 hb2
      have hl : lessThan N a' b' = false := by rw [hlt]; simp
      have hb2' : Is N b' (0 : Nat) := hb2
      have hlen : b'.len = 1 := hb2'.len_one.2 (by decide)
      have hw : b'.word 0 = 0 := by
        obtain ⟨t, t1, t2, t3⟩ := word0 (by omega) hb2'.1.toValid
        rw [hb2'.nat.1] at t1
        omega
      have hd : divide N a' b' = none := by
        unfold divide singleDivide
        rw [if_pos hlen]
        dsimp only
        rw [hw]
        split <;> rfl
      constructor
      · unfold div
        rw [ha1, hb1, Option.bind_eq_bind, Option.bind_some, Option.bind_eq_bind, Option.bind_some, hl]
        dsimp only
        rw [if_neg (by decide), hd]
        rfl
      · unfold mod
        rw [ha1, hb1, Option.bind_eq_bind, Option.bind_some, Option.bind_eq_bind, Option.bind_some, hl]
        rw [if_neg (by decide), hd]
        rfl
    · constructor
      · unfold div
        rw [sb.2 hy]
        cases strip N a <;> rfl
      · unfold mod
        rw [sb.2 hy]
        rfl
  · constructor
    · unfold div
      rw [sa.2 hx]
      rfl
    · unfold mod
      rw [sa.2 hx]
      cases strip N b <;> rfl

/-- C84, the failure: two numbers of the same number of bits, the divisor of more
than one word and not the larger of the two.  The quotient is at least one, but
the library gives zero; the remainder is less than the divisor, but the library
gives the dividend.  (With the dividend in all of the `N` words, the library
writes behind an array.) -/
theorem C84_same_bits (N : Nat) (a b : Big) (m n : Nat) (ha : Is N a m) (hb : Is N b n)
    (hn : 2 ^ 32 ≤ n) (hle : n ≤ m) (hlog : Nat.log2 m = Nat.log2 n) (hm : m < span (N - 1)) :
    div N a b = some (zero N) ∧ mod N a b = some a := by
  have hN : 1 < N := by
    rcases Nat.lt_or_ge 1 N with h | h
    · exact h
    · have := span_mono (m := N - 1) (n := 0) (by omega)
      simp only [span, Nat.pow_zero] at this hm
      omega
  have hb1 : ¬ b.len = 1 := fun h => by have := hb.len_one.1 h; omega
  have hbp := hb.1.pos
  have hvb := hb.nat.1
  have hva := ha.nat.1
  have hbw := hb.word_top (by omega)
  have hbs := hb.1.size
  have hble := hb.1.le
  obtain ⟨s1, s2⟩ := leading_spec (b.word (b.len - 1)) 32 (hb.1.small _ (getD_mem _ _ (by omega))) hbw
  -- the divisor stays in its words
  have hshift : n * 2 ^ leading (b.word (b.len - 1)) 32 < span b.len := by
    have h1 := value_split b.data (b.len - 1) (by omega)
    rw [Nat.sub_add_cancel hbp, value_zeros _ hb.1.high, hvb] at h1
    have h2 := value_lt (b.data.take (b.len - 1)) fun w hw => hb.1.small w (List.mem_of_mem_take hw)
    rw [List.length_take, Nat.min_eq_left (by omega)] at h2
    have h3 : n < span (b.len - 1) * (b.word (b.len - 1) + 1) := by
      have : b.data.getD (b.len - 1) 0 = b.word (b.len - 1) := rfl
      rw [this] at h1
      rw [Nat.mul_add, Nat.mul_one]
      rw [Nat.mul_zero, Nat.add_zero] at h1
      omega
    calc n * 2 ^ leading (b.word (b.len - 1)) 32
        < span (b.len - 1) * (b.word (b.len - 1) + 1) * 2 ^ leading (b.word (b.len - 1)) 32 :=
          Nat.mul_lt_mul_of_pos_right h3 (Nat.pow_pos (by decide))
      _ = span (b.len - 1) * ((b.word (b.len - 1) + 1) * 2 ^ leading (b.word (b.len - 1)) 32) := Nat.mul_assoc ..
      _ ≤ span (b.len - 1) * 2 ^ 32 := Nat.mul_le_mul_left _ s2
      _ = span b.len := by rw [Nat.mul_comm, ← span_succ, Nat.sub_add_cancel hbp]
  -- and so does the dividend
  have hshift' : m * 2 ^ leading (b.word (b.len - 1)) 32 < span b.len := by
    have h1 : 2 ^ Nat.log2 n ≤ n := Nat.log2_self_le (by omega)
    have h2 : m < 2 ^ (Nat.log2 n + 1) := by rw [← hlog]; exact Nat.lt_log2_self
    rw [span_two_pow] at hshift ⊢
    generalize leading (b.word (b.len - 1)) 32 = s at *
    have h3 : 2 ^ (Nat.log2 n + s) < 2 ^ (32 * b.len) := by
      rw [Nat.pow_add]
      exact Nat.lt_of_le_of_lt (Nat.mul_le_mul_right _ h1) hshift
    have h4 : Nat.log2 n + s < 32 * b.len := (Nat.pow_lt_pow_iff_right (by decide)).1 h3
    calc m * 2 ^ s < 2 ^ (Nat.log2 n + 1) * 2 ^ s := Nat.mul_lt_mul_of_pos_right h2 (Nat.pow_pos (by decide))
      _ = 2 ^ (Nat.log2 n + 1 + s) := (Nat.pow_add ..).symm
      _ ≤ 2 ^ (32 * b.len) := Nat.pow_le_pow_right (by decide) (by omega)
  have hlen : a.len = b.len := by
    have h1 : m < span b.len := Nat.lt_of_le_of_lt (Nat.le_mul_of_pos_right _ (Nat.pow_pos (by decide))) hshift'
    have h2 : span (b.len - 1) ≤ n := by
      rcases hb.1.one_or_ge with h | h
      · exact absurd h hb1
      · omega
    have h3 : m < span a.len := by have := ha.1.lt_len; omega
    have h4 : span (a.len - 1) ≤ m := by have := ha.1.ge (by omega); omega
    have k1 : a.len - 1 < b.len := (Nat.pow_lt_pow_iff_right (a := 2 ^ 32) (by decide)).1 (Nat.lt_of_le_of_lt h4 h1)
    have k2 : b.len - 1 < a.len :=
      (Nat.pow_lt_pow_iff_right (a := 2 ^ 32) (by decide)).1 (Nat.lt_of_le_of_lt (Nat.le_trans h2 hle) h3)
    have := ha.1.pos
    omega
  have hlN : a.len < N := by
    have h4 : span (a.len - 1) ≤ m := by have := ha.1.ge (by omega); omega
    have := (Nat.pow_lt_pow_iff_right (a := 2 ^ 32) (by decide)).1 (Nat.lt_of_le_of_lt h4 hm)
    omega
  have hd : divide N a b = some (zero N, a) := by
    unfold divide
    rw [if_neg hb1]
    exact multiDivide_short ha.1 hb.1 hlN (by omega) hbw (by rw [hva, hlen]; exact hshift')
  have na : a.isNegative N = false := by rw [isNeg (by omega) ha]; simp
  have nb : b.isNegative N = false := by rw [isNeg (by omega) hb]; simp
  have hl : lessThan N a b = false := by
    rw [Is.lessThan (by omega) ha hb]; simpa using hle
  constructor
  · unfold div strip
    rw [na, nb]
    simp [hl, hd, negateIf]
  · unfold mod strip
    rw [na, nb]
    simp [hl, hd, negateIf]

/-- C84, the whole claim, which is false. -/
def C84_full (N : Nat) : Prop := ∀ (a b : Big) (x y : Int), Is N a x → Is N b y → y ≠ 0 →
  InRange N (x.tdiv y) →
  (∃ c, div N a b = some c ∧ Is N c (x.tdiv y)) ∧ (∃ c, mod N a b = some c ∧ Is N c (x.tmod y))

/-- C84: the whole claim does not hold: `x / x` is zero. -/
theorem C84_fails (N : Nat) (hN : 2 < N) : ¬ C84_full N := by
  intro h
  have hr : InRange N ((2 ^ 32 : Nat) : Int) := by
    have := span_mono (m := 3) (n := N) hN
    unfold InRange
    simp only [span] at this ⊢
    omega
  obtain ⟨a, -, ha⟩ := init_spec N (by omega) ((2 ^ 32 : Nat) : Int) hr
  have hm : 2 ^ 32 < span (N - 1) := by
    have := span_mono (m := 2) (n := N - 1) (by omega)
    simp only [span] at this ⊢
    omega
  obtain ⟨⟨c, h1, h2⟩, -⟩ := h a a _ _ ha ha (by decide) (by
    rw [Int.tdiv_self (by decide)]
    have := span_mono (m := 3) (n := N) hN
    unfold InRange
    simp only [span] at this ⊢
    omega)
  rw [(C84_same_bits N a a _ _ ha ha (Nat.le_refl _) (Nat.le_refl _) rfl hm).1] at h1
  cases h1
  rw [Int.tdiv_self (by decide)] at h2
  have := zero_is N (by omega)
  unfold Is at this h2
  omega

/-- `-17 / 5 = -3` and `-17 % 5 = -2`. -/
example : ∃ a b, init 4 (-17) = some a ∧ init 4 5 = some b ∧
    (∃ c, div 4 a b = some c ∧ Is 4 c (-3)) ∧ (∃ c, mod 4 a b = some c ∧ Is 4 c (-2)) := by
  obtain ⟨a, ha, ha'⟩ := init_spec 4 (by decide) (-17) (by decide)
  obtain ⟨b, hb, hb'⟩ := init_spec 4 (by decide) 5 (by decide)
  exact ⟨a, b, ha, hb, C84_div_partial 4 (by decide) a b (-17) 5 ha' hb' (by decide) (by decide) (by decide) (by decide)⟩

/-- `(2^40 + 1) / 2^40`. -/
example : ∃ a b, init 4 (2 ^ 40 + 1) = some a ∧ init 4 (2 ^ 40) = some b ∧
    div 4 a b = some (zero 4) ∧ mod 4 a b = some a := by
  obtain ⟨a, ha, ha'⟩ := init_spec 4 (by decide) (2 ^ 40 + 1) (by decide)
  obtain ⟨b, hb, hb'⟩ := init_spec 4 (by decide) (2 ^ 40) (by decide)
  exact ⟨a, b, ha, hb, C84_same_bits 4 a b (2 ^ 40 + 1) (2 ^ 40) ha' hb' (by decide) (by decide)
    (by decide) (by decide)⟩

end C3.BigNum
