import Verif.I128Rt.Model

/-! # Lemmas about the division loop -/

set_option autoImplicit false

namespace C3.I128Rt

theorem or_add (k a b : Nat) (h : b < 2 ^ k) : a * 2 ^ k ||| b = a * 2 ^ k + b := by
  have := Nat.shiftLeft_add_eq_or_of_lt h a
  rw [Nat.shiftLeft_eq] at this
  exact this.symm

theorem pow_split (n : Nat) (h : n ≤ 64) : 2 ^ n * 2 ^ (64 - n) = 2 ^ 64 := by
  rw [← Nat.pow_add]; congr 1; omega

/-- The low bits of one word joined with the high bits of another. -/
theorem or_join (x y n : Nat) (hn : n ≤ 64) (hy : y < 2 ^ 64) :
    (x * 2 ^ n % 2 ^ 64) ||| (y / 2 ^ (64 - n)) = x * 2 ^ n % 2 ^ 64 + y / 2 ^ (64 - n) := by
  have hp := pow_split n hn
  have h1 : x * 2 ^ n % 2 ^ 64 = (x % 2 ^ (64 - n)) * 2 ^ n := by
    rw [← hp, Nat.mul_comm x, Nat.mul_mod_mul_left, Nat.mul_comm]
  rw [h1]
  apply or_add
  rw [Nat.div_lt_iff_lt_mul (Nat.two_pow_pos _), hp]
  exact hy

theorem ofAll_all (x : Bits) (hl : x.low < 2 ^ 64) (hh : x.high < 2 ^ 64) : ofAll x.all = x := by
  cases x with
  | mk l h =>
    simp only [ofAll, Bits.all, Bits.mk.injEq] at *
    omega

theorem all_ofAll (a : Nat) (h : a < 2 ^ 128) : (ofAll a).all = a := by
  simp only [ofAll, Bits.all]; omega

theorem ofAll_low (a : Nat) : (ofAll a).low < 2 ^ 64 := by
  simp only [ofAll]; omega

theorem ofAll_high (a : Nat) : (ofAll a).high < 2 ^ 64 := by
  simp only [ofAll]; omega

theorem signMask_cases (x : Nat) (h : x < 2 ^ 128) :
    (2 ^ 127 ≤ x ∧ signMask x = 2 ^ 128 - 1) ∨ (x < 2 ^ 127 ∧ signMask x = 0) := by
  unfold signMask
  by_cases h1 : x / 2 ^ 127 = 1
  · left; rw [if_pos h1]; exact ⟨by omega, rfl⟩
  · right; rw [if_neg h1]; exact ⟨by omega, rfl⟩

theorem and_ones (x : Nat) (h : x < 2 ^ 128) : x &&& (2 ^ 128 - 1) = x := by
  rw [Nat.and_two_pow_sub_one_eq_mod, Nat.mod_eq_of_lt h]

/-- One pass, in terms of the 128-bit numbers. -/
theorem pass_eq (d : Bits) (l : Loop) (hrl : l.r.low < 2 ^ 64) (hrh : l.r.high < 2 ^ 64)
    (hql : l.q.low < 2 ^ 64) (hqh : l.q.high < 2 ^ 64) (hc : l.carry ≤ 1) :
    ∃ q1 : Bits, q1.low < 2 ^ 64 ∧ q1.high < 2 ^ 64 ∧
      q1.all = (2 * l.q.all + l.carry) % 2 ^ 128 ∧
      pass d l =
        (let r1 := (2 * l.r.all + l.q.all / 2 ^ 127) % 2 ^ 128
         let s := signMask (sub128 (sub128 d.all r1) 1)
         some ⟨ofAll (sub128 r1 (d.all &&& s)), q1, s &&& 1⟩) := by
  obtain ⟨⟨rl, rh⟩, ⟨ql, qh⟩, c⟩ := l
  simp only at hrl hrh hql hqh hc
  have e1 : ∀ x y, y < 2 ^ 64 → (x * 2 ^ 1 % 2 ^ 64) ||| (y / 2 ^ 63) =
      x * 2 ^ 1 % 2 ^ 64 + y / 2 ^ 63 := fun x y h => or_join x y 1 (by omega) h
  have e2 : (ql * 2 ^ 1 % 2 ^ 64) ||| c = ql * 2 ^ 1 % 2 ^ 64 + c := by
    have : ql * 2 ^ 1 % 2 ^ 64 = (ql % 2 ^ 63) * 2 ^ 1 := by omega
    rw [this]; apply or_add; omega
  refine ⟨⟨ql * 2 ^ 1 % 2 ^ 64 + c, qh * 2 ^ 1 % 2 ^ 64 + ql / 2 ^ 63⟩, ?_, ?_, ?_, ?_⟩
  · show ql * 2 ^ 1 % 2 ^ 64 + c < 2 ^ 64
    omega
  · show qh * 2 ^ 1 % 2 ^ 64 + ql / 2 ^ 63 < 2 ^ 64
    omega
  · simp only [Bits.all]; omega
  · have hr : Bits.all ⟨rl * 2 ^ 1 % 2 ^ 64 + qh / 2 ^ 63, rh * 2 ^ 1 % 2 ^ 64 + rl / 2 ^ 63⟩ =
        (2 * Bits.all ⟨rl, rh⟩ + Bits.all ⟨ql, qh⟩ / 2 ^ 127) % 2 ^ 128 := by
      simp only [Bits.all]; omega
    have hsl : ∀ x, shl x 1 = some (x * 2 ^ 1 % 2 ^ 64) := fun x => by simp [shl]
    have hsr : ∀ x, shr x 63 = some (x / 2 ^ 63) := fun x => by simp [shr]
    unfold pass
    have h63 : (64 - 1 : Nat) = 63 := rfl
    simp only [h63, hsl, hsr, Option.bind_eq_bind, Option.bind_some, e1 rh rl hrl, e1 rl qh hqh,
      e1 qh ql hql, e2, hr]

/-- What holds before every pass with `j` passes to go: `a` is the quotient so
far without its last digit, which is in the carry. -/
structure Inv (n D j : Nat) (l : Loop) (a : Nat) : Prop where
  rl : l.r.low < 2 ^ 64
  rh : l.r.high < 2 ^ 64
  ql : l.q.low < 2 ^ 64
  qh : l.q.high < 2 ^ 64
  c : l.carry ≤ 1
  hj : j ≤ 128
  ha : a < 2 ^ (128 - j)
  q : l.q.all = (n % 2 ^ j) * 2 ^ (128 - j) + a
  eq : n / 2 ^ j = (2 * a + l.carry) * D + l.r.all
  lt : l.r.all < D

theorem div_step (n j : Nat) : n / 2 ^ j = 2 * (n / 2 ^ (j + 1)) + n % 2 ^ (j + 1) / 2 ^ j := by
  have h : n % 2 ^ (j + 1) / 2 ^ j = n / 2 ^ j % 2 := by
    rw [Nat.pow_succ, Nat.mod_mul_right_div_self]
  have h2 : n / 2 ^ (j + 1) = n / 2 ^ j / 2 := by
    rw [Nat.pow_succ, Nat.div_div_eq_div_mul]
  omega

theorem pass_inv {n D j : Nat} {d : Bits} {l : Loop} {a : Nat} (hn : n < 2 ^ 128)
    (hD : D < 2 ^ 128) (hd : d.all = D) (h : Inv n D (j + 1) l a)
    (hbig : D ≤ 2 ^ 127 ∨ (2 ^ 127 ≤ n ∧ j = 0 ∧ a = 0 ∧ l.carry = 0)) :
    ∃ l', pass d l = some l' ∧ Inv n D j l' (2 * a + l.carry) := by
  obtain ⟨q1, hq1l, hq1h, hq1, hp⟩ := pass_eq d l h.rl h.rh h.ql h.qh h.c
  have hc := h.c
  have hj := h.hj
  have ha := h.ha
  have hpw : 2 ^ j * 2 ^ (127 - j) = 2 ^ 127 := by rw [← Nat.pow_add]; congr 1; omega
  have hpa : 2 ^ (128 - (j + 1)) = 2 ^ (127 - j) := by congr 1; omega
  have hpb : 2 ^ (128 - j) = 2 * 2 ^ (127 - j) := by
    rw [Nat.mul_comm, ← Nat.pow_succ]; congr 1; omega
  rw [hpa] at ha
  have hq := h.q
  rw [hpa] at hq
  -- the bit that moves from the quotient to the remainder
  have hbit : l.q.all / 2 ^ 127 = n % 2 ^ (j + 1) / 2 ^ j := by
    rw [hq, ← hpw]
    rw [Nat.mul_comm (2 ^ j), ← Nat.div_div_eq_div_mul]
    congr 1
    rw [Nat.mul_comm, Nat.mul_add_div (Nat.two_pow_pos _), Nat.div_eq_of_lt ha]; rfl
  have hstep := div_step n j
  have heq := h.eq
  have hlt := h.lt
  have hnj : n / 2 ^ j ≤ n := Nat.div_le_self _ _
  generalize hA : (2 * a + l.carry) * D = A at heq
  have hA2 : (2 * (2 * a + l.carry)) * D = 2 * A := by rw [← hA, Nat.mul_assoc]
  -- the new remainder before the subtraction
  have hr1 : (2 * l.r.all + l.q.all / 2 ^ 127) % 2 ^ 128 = n / 2 ^ j - 2 * A := by
    rw [hbit]; rw [Nat.mod_eq_of_lt] <;> omega
  have hle : 2 * A ≤ n / 2 ^ j := by omega
  have hbit1 : n % 2 ^ (j + 1) / 2 ^ j ≤ 1 := by
    have : n % 2 ^ (j + 1) / 2 ^ j < 2 := by
      rw [Nat.div_lt_iff_lt_mul (Nat.two_pow_pos _), Nat.mul_comm, ← Nat.pow_succ]
      exact Nat.mod_lt _ (Nat.two_pow_pos _)
    omega
  generalize hR : n / 2 ^ j - 2 * A = R at hr1
  have hR2 : R < 2 * D := by omega
  have hRn : R < 2 ^ 128 := by omega
  have hclose : D ≤ 2 ^ 127 + R := by
    rcases hbig with h1 | ⟨h1, h2, h3, h4⟩
    · omega
    · subst h2
      have : A = 0 := by rw [← hA, h3, h4]; simp
      simp only [Nat.pow_zero, Nat.div_one] at *
      omega
  have hDR : R < D + 2 ^ 127 := by
    rcases hbig with h1 | ⟨h1, h2, h3, h4⟩
    · omega
    · omega
  have hDpos : 0 < D := by omega
  rw [hr1, hd] at hp
  simp only at hp
  -- the new quotient
  have hqn : q1.all = (n % 2 ^ j) * 2 ^ (128 - j) + (2 * a + l.carry) ∧
      2 * a + l.carry < 2 ^ (128 - j) := by
    rw [hpb]
    refine ⟨?_, by omega⟩
    rw [hq1, hq]
    have hm : n % 2 ^ (j + 1) = 2 ^ j * (n % 2 ^ (j + 1) / 2 ^ j) + n % 2 ^ j := by
      have h1 := Nat.div_add_mod (n % 2 ^ (j + 1)) (2 ^ j)
      rw [Nat.mod_mod_of_dvd n (Nat.pow_dvd_pow 2 (by omega : j ≤ j + 1))] at h1
      exact h1.symm
    generalize n % 2 ^ (j + 1) / 2 ^ j = b at hm hbit1
    have e : n % 2 ^ (j + 1) * 2 ^ (127 - j) = b * 2 ^ 127 + n % 2 ^ j * 2 ^ (127 - j) := by
      rw [hm, Nat.add_mul, Nat.mul_comm (2 ^ j) b, Nat.mul_assoc, hpw]
    have hlt2 : n % 2 ^ j * 2 ^ (127 - j) + 2 ^ (127 - j) ≤ 2 ^ 127 := by
      have h1 : n % 2 ^ j < 2 ^ j := Nat.mod_lt _ (Nat.two_pow_pos _)
      have h2 := Nat.mul_le_mul_right (2 ^ (127 - j)) h1
      rw [hpw, Nat.succ_mul] at h2
      exact h2
    rw [e, show n % 2 ^ j * (2 * 2 ^ (127 - j)) = 2 * (n % 2 ^ j * 2 ^ (127 - j)) by
      rw [Nat.mul_left_comm]]
    generalize n % 2 ^ j * 2 ^ (127 - j) = X at *
    generalize 2 ^ (127 - j) = P at *
    omega
  by_cases hge : D ≤ R
  · have hs : signMask (sub128 (sub128 D R) 1) = 2 ^ 128 - 1 := by
      rcases signMask_cases (sub128 (sub128 D R) 1) (by unfold sub128; omega) with ⟨_, h2⟩ | ⟨h1, _⟩
      · exact h2
      · unfold sub128 at h1; omega
    rw [hs] at hp
    refine ⟨_, hp, ?_⟩
    have hand : D &&& (2 ^ 128 - 1) = D := and_ones D hD
    have hsub : sub128 R D = R - D := by unfold sub128; omega
    have hone : (2 ^ 128 - 1) &&& 1 = 1 := by decide
    refine ⟨ofAll_low _, ofAll_high _, hq1l, hq1h, ?_, by omega, hqn.2, hqn.1, ?_, ?_⟩
    · show (2 ^ 128 - 1) &&& 1 ≤ 1
      rw [hone]; exact Nat.le_refl _
    · show n / 2 ^ j = (2 * (2 * a + l.carry) + ((2 ^ 128 - 1) &&& 1)) * D
          + (ofAll (sub128 R (D &&& (2 ^ 128 - 1)))).all
      rw [hand, hsub, hone, all_ofAll _ (by omega), Nat.add_mul, hA2]; omega
    · show (ofAll (sub128 R (D &&& (2 ^ 128 - 1)))).all < D
      rw [hand, hsub, all_ofAll _ (by omega)]; omega
  · have hs : signMask (sub128 (sub128 D R) 1) = 0 := by
      rcases signMask_cases (sub128 (sub128 D R) 1) (by unfold sub128; omega) with ⟨h1, _⟩ | ⟨_, h2⟩
      · unfold sub128 at h1; omega
      · exact h2
    rw [hs] at hp
    refine ⟨_, hp, ?_⟩
    have hsub : sub128 R (D &&& 0) = R := by unfold sub128; rw [Nat.and_zero]; omega
    have hone : 0 &&& 1 = 0 := by decide
    refine ⟨ofAll_low _, ofAll_high _, hq1l, hq1h, ?_, by omega, hqn.2, hqn.1, ?_, ?_⟩
    · show 0 &&& 1 ≤ 1
      rw [hone]; omega
    · show n / 2 ^ j = (2 * (2 * a + l.carry) + (0 &&& 1)) * D + (ofAll (sub128 R (D &&& 0))).all
      rw [hsub, hone, all_ofAll _ (by omega), Nat.add_zero, hA2]; omega
    · show (ofAll (sub128 R (D &&& 0))).all < D
      rw [hsub, all_ofAll _ (by omega)]; omega

theorem loop_inv {n D : Nat} {d : Bits} (hn : n < 2 ^ 128) (hD : D < 2 ^ 128) (hd : d.all = D) :
    ∀ (j : Nat) (l : Loop) (a : Nat), Inv n D j l a →
      (D ≤ 2 ^ 127 ∨ (2 ^ 127 ≤ n ∧ j = 1 ∧ a = 0 ∧ l.carry = 0)) →
      ∃ l' a', loop d j l = some l' ∧ Inv n D 0 l' a' := by
  intro j
  induction j with
  | zero => intro l a h _; exact ⟨l, a, rfl, h⟩
  | succ j ih =>
    intro l a h hb
    obtain ⟨l', hp, hi⟩ := pass_inv hn hD hd h (by
      rcases hb with hb | ⟨h1, h2, h3, h4⟩
      · exact Or.inl hb
      · exact Or.inr ⟨h1, by omega, h3, h4⟩)
    have hl : loop d (j + 1) l = loop d j l' := by
      simp only [loop, hp, Option.bind_eq_bind, Option.bind_some]
    rw [hl]
    rcases hb with hb | ⟨h1, h2, h3, h4⟩
    · exact ih l' _ hi (Or.inl hb)
    · have : j = 0 := by omega
      subst this
      exact ⟨l', _, rfl, hi⟩

/-- The answer asked for. -/
def want (rem : Bool) (n D : Nat) : Nat := if rem then n % D else n / D

/-- From a split of the dividend whose upper part is below the divisor the loop
finds quotient and remainder. -/
theorem finish_eq {n D sr : Nat} {d q r : Bits} (rem : Bool) (hn : n < 2 ^ 128) (hD : D < 2 ^ 128)
    (hd : d.all = D) (hsr : sr ≤ 128)
    (hrl : r.low < 2 ^ 64) (hrh : r.high < 2 ^ 64) (hql : q.low < 2 ^ 64) (hqh : q.high < 2 ^ 64)
    (hr : r.all = n / 2 ^ sr) (hq : q.all = (n % 2 ^ sr) * 2 ^ (128 - sr)) (hlt : n / 2 ^ sr < D)
    (hb : D ≤ 2 ^ 127 ∨ (2 ^ 127 ≤ n ∧ sr = 1)) :
    finish d rem sr q r = some (want rem n D) := by
  obtain ⟨l', a', hl, hi⟩ := loop_inv hn hD hd sr ⟨r, q, 0⟩ 0
    ⟨hrl, hrh, hql, hqh, by simp, hsr, Nat.two_pow_pos _, by simpa using hq, by simp [hr],
      by rw [hr]; exact hlt⟩ (by
      rcases hb with h | ⟨h1, h2⟩
      · exact Or.inl h
      · exact Or.inr ⟨h1, h2, rfl, rfl⟩)
  have heq := hi.eq
  have hlt' := hi.lt
  have hq' := hi.q
  have hc := hi.c
  simp only [Nat.pow_zero, Nat.div_one, Nat.mod_one, Nat.zero_mul, Nat.zero_add] at heq hq'
  have hmod : n % D = l'.r.all := by
    rw [heq, Nat.mul_comm, Nat.mul_add_mod, Nat.mod_eq_of_lt hlt']
  have hdiv : n / D = 2 * a' + l'.carry := by
    rw [heq, Nat.mul_comm, Nat.mul_add_div (by omega), Nat.div_eq_of_lt hlt']; rfl
  have hle : n / D ≤ n := Nat.div_le_self _ _
  simp only [finish, hl, Option.bind_eq_bind, Option.bind_some, want]
  cases rem with
  | true => simp [hmod]
  | false =>
    have : a' * 2 % 2 ^ 128 = a' * 2 ^ 1 := by omega
    simp only [Bool.false_eq_true, if_false, hq', this]
    rw [or_add 1 _ _ (by omega), hdiv]
    congr 1; omega

/-- Shifting a two word number right by less than a word. -/
theorem split_low (n : Bits) (k : Nat) (hk0 : 0 < k) (hk : k < 64) (hl : n.low < 2 ^ 64) :
    shr n.high k = some (n.high / 2 ^ k) ∧
    shl n.low (64 - k) = some (n.low * 2 ^ (64 - k) % 2 ^ 64) ∧
    (do some ((← shl n.high (64 - k)) ||| (← shr n.low k))) =
      some (n.high * 2 ^ (64 - k) % 2 ^ 64 + n.low / 2 ^ k) ∧
    n.high * 2 ^ (64 - k) % 2 ^ 64 + n.low / 2 ^ k < 2 ^ 64 ∧
    n.high / 2 ^ k * 2 ^ 64 + (n.high * 2 ^ (64 - k) % 2 ^ 64 + n.low / 2 ^ k) = n.all / 2 ^ k ∧
    (n.low * 2 ^ (64 - k) % 2 ^ 64) * 2 ^ 64 = (n.all % 2 ^ k) * 2 ^ (128 - k) := by
  have hp := pow_split k (by omega)
  have hj := or_join n.high n.low (64 - k) (by omega) hl
  rw [show 64 - (64 - k) = k by omega] at hj
  have hPpos := Nat.two_pow_pos k
  have hQpos := Nat.two_pow_pos (64 - k)
  have h128 : 2 ^ (128 - k) = 2 ^ (64 - k) * 2 ^ 64 := by rw [← Nat.pow_add]; congr 1; omega
  have hhigh : n.high * 2 ^ (64 - k) % 2 ^ 64 = (n.high % 2 ^ k) * 2 ^ (64 - k) := by
    rw [← hp, Nat.mul_mod_mul_right]
  have hlow : n.low * 2 ^ (64 - k) % 2 ^ 64 = (n.low % 2 ^ k) * 2 ^ (64 - k) := by
    rw [← hp, Nat.mul_mod_mul_right]
  have hall : n.all = 2 ^ k * (n.high * 2 ^ (64 - k)) + n.low := by
    rw [Bits.all, ← hp]
    rw [Nat.mul_left_comm]
  refine ⟨by simp [shr, hk], by simp [shl]; omega, ?_, ?_, ?_, ?_⟩
  · have a1 : shl n.high (64 - k) = some (n.high * 2 ^ (64 - k) % 2 ^ 64) := by
      rw [shl, if_pos (by omega)]
    have a2 : shr n.low k = some (n.low / 2 ^ k) := by rw [shr, if_pos hk]
    rw [a1, a2]
    simp only [Option.bind_eq_bind, Option.bind_some, hj]
  · rw [hhigh]
    have h1 : n.high % 2 ^ k < 2 ^ k := Nat.mod_lt _ hPpos
    have h2 := Nat.mul_le_mul_right (2 ^ (64 - k)) h1
    rw [hp, Nat.succ_mul] at h2
    have h3 : n.low / 2 ^ k < 2 ^ (64 - k) := by
      rw [Nat.div_lt_iff_lt_mul hPpos, Nat.mul_comm, hp]; exact hl
    omega
  · rw [hhigh, hall, Nat.mul_add_div hPpos]
    have h1 := Nat.div_add_mod n.high (2 ^ k)
    have h2 : n.high * 2 ^ (64 - k) =
        n.high / 2 ^ k * 2 ^ 64 + n.high % 2 ^ k * 2 ^ (64 - k) := by
      conv => lhs; rw [← h1]
      rw [Nat.add_mul, Nat.mul_comm (2 ^ k), Nat.mul_assoc, hp]
    rw [h2]; omega
  · rw [hlow, hall, Nat.mul_add_mod, h128, Nat.mul_assoc]

end C3.I128Rt
