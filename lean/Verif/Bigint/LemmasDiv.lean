import Verif.Bigint.LemmasBits

/-! Helper lemmas: division. -/

namespace C3.Bigint

theorem s_def (x : Int128) :
    x.s = if x.u < 2 ^ 127 then (x.u : Int) else (x.u : Int) - 2 ^ 128 := rfl

theorem or_one_u (x : Int128) (h : x.u % 2 = 0) :
    ({ x with low := x.low ||| 1#64 } : Int128).u = x.u + 1 := by
  unfold Int128.u at *
  have h2 : x.low.toNat % 2 = 0 := by omega
  have : (x.low ||| 1#64).toNat = x.low.toNat + 1 := by
    rw [BitVec.toNat_or]
    have h3 : x.low.toNat = 2 ^ 1 * (x.low.toNat / 2) := by omega
    have h4 := Nat.two_pow_add_eq_or_of_lt (show 1 < 2 ^ 1 by decide) (x.low.toNat / 2)
    rw [← h3] at h4
    exact h4.symm
  simp only [this]; omega

theorem udivLoop_spec (s : Nat) : ∀ (op1 op2 div : Int128) (d N : Nat), 0 < d →
    op2.u = d * 2 ^ s → op1.u < d * 2 ^ (s + 1) → N = div.u * 2 ^ (s + 1) * d + op1.u →
    N < 2 ^ 128 →
    ∃ q r, udivLoop s op1 op2 div = some (q, r) ∧ N = q.u * d + r.u ∧ r.u < d := by
  induction s with
  | zero =>
    intro op1 op2 div d N hd h2 h1 hN hlt
    obtain ⟨div1, e1, v1⟩ := shl64_u div 1
    obtain ⟨op3, e3, v3⟩ := lshr64_u op2 1
    have hdiv : div.u * 2 ≤ N := by
      rw [hN]
      calc div.u * 2 = div.u * 2 ^ (0 + 1) * 1 := by ring
        _ ≤ div.u * 2 ^ (0 + 1) * d := Nat.mul_le_mul_left _ hd
        _ ≤ _ := Nat.le_add_right _ _
    have v1' : div1.u = div.u * 2 := by
      rw [v1]; have : (1 : BitVec 64).toNat = 1 := rfl
      rw [this, Nat.pow_one]; omega
    simp only [Nat.pow_zero, Nat.mul_one] at h2
    unfold udivLoop
    simp only [e1, Option.bind_eq_bind, Option.bind_some, e3, ucomp_spec]
    have hu1 := op1.u_lt
    have hu2 := op2.u_lt
    by_cases hc : op1.u < op2.u
    · have : cmpInt op1.u op2.u = .LT := by unfold cmpInt; rw [if_pos (by omega)]
      simp only [this, ne_eq, not_true, ↓reduceIte]
      refine ⟨div1, op1, rfl, ?_, by omega⟩
      rw [hN, v1', Nat.pow_one]
    · have : cmpInt op1.u op2.u ≠ .LT := by
        unfold cmpInt; rw [if_neg (by omega)]; split <;> simp
      simp only [this, ne_eq, not_false_eq_true, ↓reduceIte]
      refine ⟨_, _, rfl, ?_, ?_⟩
      · rw [or_one_u _ (by omega), u_sub, hN, v1', Nat.add_mul]; 
        have : op1.u + (2 ^ 128 - op2.u) = 2 ^ 128 + (op1.u - op2.u) := by omega
        rw [this, Nat.add_mod_left, Nat.mod_eq_of_lt (by omega), Nat.pow_one]
        omega
      · rw [u_sub]
        have : op1.u + (2 ^ 128 - op2.u) = 2 ^ 128 + (op1.u - op2.u) := by omega
        rw [this, Nat.add_mod_left, Nat.mod_eq_of_lt (by omega)]
        rw [Nat.pow_one] at h1
        omega
  | succ s ih =>
    intro op1 op2 div d N hd h2 h1 hN hlt
    obtain ⟨div1, e1, v1⟩ := shl64_u div 1
    obtain ⟨op3, e3, v3⟩ := lshr64_u op2 1
    have hdiv : div.u * 2 ≤ N := by
      rw [hN]
      calc div.u * 2 = div.u * 2 * 1 := by ring
        _ ≤ div.u * 2 ^ (s + 1 + 1) * d := Nat.mul_le_mul (Nat.mul_le_mul_left _ (by
            have := Nat.two_pow_pos (s + 1); rw [Nat.pow_succ 2 (s+1)]; omega)) hd
        _ ≤ _ := Nat.le_add_right _ _
    have h1n : (1 : BitVec 64).toNat = 1 := rfl
    have v1' : div1.u = div.u * 2 := by
      rw [v1, h1n, Nat.pow_one]; omega
    have v3' : op3.u = d * 2 ^ s := by
      rw [v3, h1n, h2, Nat.pow_succ, Nat.pow_one, ← Nat.mul_assoc]; omega
    unfold udivLoop
    simp only [e1, Option.bind_eq_bind, Option.bind_some, e3, ucomp_spec]
    have hu1 := op1.u_lt
    have hu2 := op2.u_lt
    by_cases hc : op1.u < op2.u
    · have : cmpInt op1.u op2.u = .LT := by unfold cmpInt; rw [if_pos (by omega)]
      simp only [this, ne_eq, not_true, ↓reduceIte]
      refine ih op1 op3 div1 d N hd v3' (by rw [← h2]; exact hc) ?_ hlt
      rw [hN, v1']; ring
    · have : cmpInt op1.u op2.u ≠ .LT := by
        unfold cmpInt; rw [if_neg (by omega)]; split <;> simp
      simp only [this, ne_eq, not_false_eq_true, ↓reduceIte]
      have hsub : (i128_sub op1 op2).u = op1.u - op2.u := by
        rw [u_sub]
        have : op1.u + (2 ^ 128 - op2.u) = 2 ^ 128 + (op1.u - op2.u) := by omega
        rw [this, Nat.add_mod_left, Nat.mod_eq_of_lt (by omega)]
      refine ih _ op3 _ d N hd v3' ?_ ?_ hlt
      · rw [hsub, ← h2]
        rw [Nat.pow_succ, ← Nat.mul_assoc, ← h2] at h1
        omega
      · rw [hsub, or_one_u _ (by omega), hN, v1', Nat.add_mul, Nat.add_mul, Nat.one_mul,
          Nat.mul_comm (2 ^ (s + 1)) d, ← h2, Nat.pow_succ 2 (s + 1),
          show div.u * (2 ^ (s + 1) * 2) * d = div.u * 2 * 2 ^ (s + 1) * d by ring]
        omega

theorem udivrem_spec (a b : Int128) (hb : b.u ≠ 0) :
    ∃ q r, i128_udivrem a b = some (q, r) ∧ q.u = a.u / b.u ∧ r.u = a.u % b.u := by
  obtain ⟨ca, ea, ca1, ca2, ca3⟩ := clz_spec a
  obtain ⟨cb, eb, cb1, cb2, cb3⟩ := clz_spec b
  suffices ∃ q r, i128_udivrem a b = some (q, r) ∧ a.u = q.u * b.u + r.u ∧ r.u < b.u by
    obtain ⟨q, r, e, h1, h2⟩ := this
    refine ⟨q, r, e, ?_, ?_⟩
    · rw [h1, Nat.mul_comm, Nat.mul_add_div (by omega), Nat.div_eq_of_lt h2, Nat.add_zero]
    · rw [h1, Nat.mul_comm, Nat.mul_add_mod, Nat.mod_eq_of_lt h2]
  have hcb : cb.toNat < 128 := by
    rcases Nat.lt_or_ge cb.toNat 128 with h | h
    · exact h
    · rw [show 128 - cb.toNat = 0 by omega] at cb2; omega
  have cb3 := cb3 hcb
  have hshift : (cb - ca).toInt = (cb.toNat : Int) - ca.toNat := by
    rw [BitVec.toInt_eq_toNat_cond, BitVec.toNat_sub]
    split <;> omega
  unfold i128_udivrem
  simp only [ea, eb, Option.bind_eq_bind, Option.bind_some, hshift]
  by_cases hneg : (cb.toNat : Int) - ca.toNat < 0
  · simp only [hneg, ↓reduceIte]
    refine ⟨⟨0, 0⟩, a, rfl, by simp [Int128.u], ?_⟩
    have : 2 ^ (128 - ca.toNat) ≤ 2 ^ (128 - cb.toNat - 1) :=
      Nat.pow_le_pow_right (by omega) (by omega)
    omega
  · simp only [hneg, ↓reduceIte]
    have hca : ca.toNat < 128 := by omega
    have ca3 := ca3 hca
    obtain ⟨s, hs⟩ : ∃ s : Nat, s = cb.toNat - ca.toNat := ⟨_, rfl⟩
    have hs' : (cb.toNat : Int) - ca.toNat = (s : Int) := by omega
    rw [hs']
    obtain ⟨op2, e2, v2⟩ := shl64_u b (BitVec.ofInt 64 (s : Int))
    have hsn : (BitVec.ofInt 64 (s : Int)).toNat = s := by
      rw [BitVec.toNat_ofInt]; omega
    rw [hsn] at v2
    have hlt : b.u * 2 ^ s < 2 ^ (128 - ca.toNat) := by
      have := Nat.mul_lt_mul_of_pos_right cb2 (Nat.two_pow_pos s)
      rwa [← Nat.pow_add, show 128 - cb.toNat + s = 128 - ca.toNat by omega] at this
    have hlt2 : 2 ^ (128 - ca.toNat) ≤ 2 ^ 128 := Nat.pow_le_pow_right (by omega) (by omega)
    rw [Nat.mod_eq_of_lt (by omega)] at v2
    simp only [e2, Option.bind_some, Int.toNat_natCast]
    refine udivLoop_spec s a op2 ⟨0, 0⟩ b.u a.u (by omega) v2 ?_ (by simp [Int128.u]) a.u_lt
    have : 2 ^ (128 - ca.toNat) ≤ b.u * 2 ^ (s + 1) := by
      have := Nat.mul_le_mul_right (2 ^ (s + 1)) cb3
      rwa [← Nat.pow_add, show 128 - cb.toNat - 1 + (s + 1) = 128 - ca.toNat by omega] at this
    omega

theorem udiv_spec (a b : Int128) (hb : b.u ≠ 0) :
    ∃ q, i128_udiv a b = some q ∧ q.u = a.u / b.u := by
  obtain ⟨q, r, e, h1, _⟩ := udivrem_spec a b hb
  exact ⟨q, by unfold i128_udiv; rw [e]; rfl, h1⟩

theorem urem_spec (a b : Int128) (hb : b.u ≠ 0) :
    ∃ r, i128_urem a b = some r ∧ r.u = a.u % b.u := by
  obtain ⟨q, r, e, _, h2⟩ := udivrem_spec a b hb
  exact ⟨r, by unfold i128_urem; rw [e]; rfl, h2⟩

theorem topbit_s (x : Int128) : (x.high &&& 0x8000000000000000#64 ≠ 0) ↔ x.s < 0 := by
  have h1 := topbit x.high
  have h2 := high_lt x
  show ¬ (x.high &&& 0x8000000000000000#64 = 0#64) ↔ _
  rw [h1, h2]; omega

/-- Absolute value as computed by `sdiv` / `srem`. -/
theorem abs_u (x : Int128) :
    (if x.high &&& 0x8000000000000000#64 ≠ 0 then i128_neg x else x).u = x.s.natAbs := by
  have hu := x.u_lt
  by_cases h : x.s < 0
  · rw [if_pos ((topbit_s x).2 h), u_neg]
    unfold Int128.s at *
    split_ifs at * <;> omega
  · rw [if_neg (fun h' => h ((topbit_s x).1 h'))]
    unfold Int128.s at *
    split_ifs at * <;> omega

theorem topbit_val (x : BitVec 64) : x &&& 0x8000000000000000#64 = 0 ∨
    x &&& 0x8000000000000000#64 = 0x8000000000000000#64 := by
  have h : x.toNat &&& (0x8000000000000000#64).toNat = (x.toNat.testBit 63).toNat * 2 ^ 63 :=
    Nat.and_two_pow x.toNat 63
  cases h2 : x.toNat.testBit 63
  · left; apply BitVec.eq_of_toNat_eq; rw [BitVec.toNat_and, h, h2]; rfl
  · right; apply BitVec.eq_of_toNat_eq; rw [BitVec.toNat_and, h, h2]; rfl

theorem topbit_xor (a b : Int128) : ((b.high &&& 0x8000000000000000#64) ^^^
    (a.high &&& 0x8000000000000000#64) ≠ 0) ↔ (decide (a.s < 0) ≠ decide (b.s < 0)) := by
  have ha := topbit_s a
  have hb := topbit_s b
  rcases topbit_val a.high with h1 | h1 <;> rcases topbit_val b.high with h2 | h2 <;>
    rw [h1] at ha <;> rw [h2] at hb <;> rw [h1, h2] <;> simp at ha hb <;> simp <;> omega

/-- `i128_sdiv` truncates towards zero; only `INT128_MIN / -1` wraps. -/
theorem sdiv_spec (a b : Int128) (hb : b.u ≠ 0) :
    ∃ q, i128_sdiv a b = some q ∧ ((2 : Int) ^ 128 ∣ q.s - a.s.tdiv b.s) ∧
      (¬ (a.s = -2 ^ 127 ∧ b.s = -1) → q.s = a.s.tdiv b.s) := by
  have hbs : b.s ≠ 0 := by
    have := b.u_lt
    unfold Int128.s; split <;> omega
  obtain ⟨q0, e0, v0⟩ := udiv_spec
    (if a.high &&& 0x8000000000000000#64 ≠ 0 then i128_neg a else a)
    (if b.high &&& 0x8000000000000000#64 ≠ 0 then i128_neg b else b)
    (by rw [abs_u]; omega)
  rw [abs_u, abs_u] at v0
  have ra := s_range a
  have rb := s_range b
  unfold i128_sdiv
  simp only [e0, Option.bind_eq_bind, Option.bind_some]
  have hle : a.s.natAbs / b.s.natAbs ≤ a.s.natAbs := Nat.div_le_self _ _
  have hq : a.s.natAbs / b.s.natAbs = (a.s.tdiv b.s).natAbs := (Int.natAbs_tdiv a.s b.s).symm
  have hpos : 1 ≤ b.s.natAbs := by omega
  have hu0 := q0.u_lt
  by_cases hx : decide (a.s < 0) ≠ decide (b.s < 0)
  · have hsgn : a.s.tdiv b.s ≤ 0 := by
      by_cases h1 : a.s < 0
      · have h2 : 0 ≤ b.s := by by_contra h3; apply hx; simp [h1]; omega
        have := Int.tdiv_nonneg (show 0 ≤ -a.s by omega) h2
        rw [Int.neg_tdiv] at this; omega
      · have h2 : b.s < 0 := by by_contra h3; apply hx; simp at h1; simp [h1, h3]
        exact Int.tdiv_nonpos_of_nonneg_of_nonpos (by omega) (by omega)
    rw [if_pos ((topbit_xor a b).2 hx)]
    refine ⟨_, rfl, ?_⟩
    suffices (i128_neg q0).s = a.s.tdiv b.s by rw [this]; simp
    have hn := u_neg q0
    rw [s_def (i128_neg q0), hn]
    split <;> omega
  · have hsgn : 0 ≤ a.s.tdiv b.s := by
      by_cases h1 : a.s < 0
      · have h2 : b.s < 0 := by by_contra h3; apply hx; simp [h1]; omega
        exact Int.tdiv_nonneg_of_nonpos_of_nonpos (by omega) (by omega)
      · have h2 : 0 ≤ b.s := by by_contra h3; apply hx; simp [h1]; omega
        exact Int.tdiv_nonneg (by omega) h2
    rw [if_neg (fun h => hx ((topbit_xor a b).1 h))]
    refine ⟨_, rfl, ?_, ?_⟩
    · have := s_dvd q0
      have e : (q0.u : Int) = a.s.tdiv b.s := by omega
      rwa [e] at this
    · intro hno
      have : q0.u ≠ 2 ^ 127 := by
        intro h
        have ha : a.s.natAbs = 2 ^ 127 := by omega
        have ha' : a.s = -2 ^ 127 := by omega
        have hb1 : b.s.natAbs = 1 := by
          by_contra hne
          have : a.s.natAbs / b.s.natAbs ≤ a.s.natAbs / 2 := Nat.div_le_div_left (by omega) (by omega)
          omega
        apply hno
        refine ⟨ha', ?_⟩
        by_contra h3
        apply hx
        simp only [ha']
        have : b.s = 1 := by omega
        rw [this]; decide
      rw [s_def q0]
      split <;> omega

/-- `i128_srem`: the magnitude is right, the sign is negative when the operand signs differ. -/
theorem srem_val (a b : Int128) (hb : b.u ≠ 0) :
    ∃ r, i128_srem a b = some r ∧ r.s =
      if decide (a.s < 0) ≠ decide (b.s < 0) then -((a.s.natAbs % b.s.natAbs : Nat) : Int)
      else ((a.s.natAbs % b.s.natAbs : Nat) : Int) := by
  have hbs : b.s ≠ 0 := by
    have := b.u_lt
    unfold Int128.s; split <;> omega
  obtain ⟨q0, e0, v0⟩ := urem_spec
    (if a.high &&& 0x8000000000000000#64 ≠ 0 then i128_neg a else a)
    (if b.high &&& 0x8000000000000000#64 ≠ 0 then i128_neg b else b)
    (by rw [abs_u]; omega)
  rw [abs_u, abs_u] at v0
  have ra := s_range a
  have rb := s_range b
  unfold i128_srem
  simp only [e0, Option.bind_eq_bind, Option.bind_some]
  have hlt : a.s.natAbs % b.s.natAbs < b.s.natAbs := Nat.mod_lt _ (by omega)
  have hu0 := q0.u_lt
  rw [← v0]
  by_cases hx : decide (a.s < 0) ≠ decide (b.s < 0)
  · rw [if_pos ((topbit_xor a b).2 hx), if_pos hx]
    refine ⟨_, rfl, ?_⟩
    have hn := u_neg q0
    rw [s_def (i128_neg q0), hn]
    split <;> omega
  · rw [if_neg (fun h => hx ((topbit_xor a b).1 h)), if_neg hx]
    refine ⟨_, rfl, ?_⟩
    rw [s_def q0]
    split <;> omega

end C3.Bigint
