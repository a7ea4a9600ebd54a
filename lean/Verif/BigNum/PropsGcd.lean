import Verif.BigNum.ModelGcd
import Verif.BigNum.PropsDiv
import Verif.BigNum.PropsMul

/-! # C86: greatest common divisor and least common multiple -/

set_option autoImplicit false

namespace C3.BigNum

theorem Is.isZero {N : Nat} {a : Big} {n : Nat} (h : Is N a n) : a.isZero = decide (n = 0) := by
  have := h.1.isZero_iff
  rw [h.nat.1] at this
  rw [Bool.eq_iff_iff, this]
  simp

/-- The remainder of numbers that are not negative. -/
theorem mod_nat {N : Nat} (hN : 1 < N) {a b : Big} {m n : Nat} (ha : Is N a m) (hb : Is N b n)
    (h0 : n ≠ 0) (h : n < 2 ^ 32 ∨ m < n) : ∃ c, mod N a b = some c ∧ Is N c (m % n : Nat) := by
  have ra := ha.nat.2
  have rb := hb.nat.2
  have := (C84_div_partial N hN a b m n ha hb (by omega) (by unfold InRange; omega) (by unfold InRange; omega)
    (by simpa using h)).2
  exact this

theorem gcdLoop_spec {N : Nat} (hN : 1 < N) (m : Nat) : ∀ (n : Nat) (a b : Big), Is N a m → Is N b n →
    m < 2 ^ 32 → ∃ c, gcdLoop N (a, b) b = some c ∧ Is N c (Nat.gcd m n : Nat) := by
  induction m using Nat.strongRecOn with
  | ind m ih =>
    intro n a b ha hb hm
    rw [gcdLoop]
    dsimp only
    rw [ha.isZero]
    by_cases h0 : m = 0
    · subst h0
      rw [if_pos (by decide), Nat.gcd_zero_left]
      exact ⟨b, rfl, hb⟩
    · rw [if_neg (by simpa using h0)]
      obtain ⟨r, r1, r2⟩ := mod_nat hN hb ha h0 (Or.inl hm)
      have e : gcdPass N (a, b) = some (r, a) := by
        unfold gcdPass
        rw [r1]
        rfl
      rw [e, Nat.gcd_rec]
      have hlt := Nat.mod_lt n (Nat.pos_of_ne_zero h0)
      exact ih (n % m) hlt m r a r2 ha (by omega)

theorem gcdLoop_spec' {N : Nat} (hN : 1 < N) {m n : Nat} {a b : Big} (ha : Is N a m) (hb : Is N b n)
    (h : m < 2 ^ 32 ∨ n < 2 ^ 32) : ∃ c, gcdLoop N (a, b) b = some c ∧ Is N c (Nat.gcd m n : Nat) := by
  by_cases hm : m < 2 ^ 32
  · exact gcdLoop_spec hN m n a b ha hb hm
  · have hn : n < 2 ^ 32 := h.resolve_left hm
    rw [gcdLoop]
    dsimp only
    rw [ha.isZero, if_neg (by simp; omega)]
    obtain ⟨r, r1, r2⟩ := mod_nat hN hb ha (by omega) (Or.inr (by omega))
    have e : gcdPass N (a, b) = some (r, a) := by
      unfold gcdPass
      rw [r1]
      rfl
    rw [Nat.mod_eq_of_lt (by omega)] at r2
    rw [e, Nat.gcd_comm]
    exact gcdLoop_spec hN n m r a r2 ha hn

/-- C86 (part): `gcd` is right if one of the two numbers fits in one word. What
is missing is two numbers of more than one word: `C86_gcd_runs` says for which
of them `gcd` never returns. -/
theorem C86_gcd_partial (N : Nat) (hN : 1 < N) (a b : Big) (x y : Int) (ha : Is N a x) (hb : Is N b y)
    (hx : InRange N x.natAbs) (hy : InRange N y.natAbs) (h : x.natAbs < 2 ^ 32 ∨ y.natAbs < 2 ^ 32) :
    ∃ c, gcd N a b = some c ∧ Is N c (Int.gcd x y : Nat) := by
  obtain ⟨a', ha1, ha2⟩ := (C80_abs N (by omega) a x ha).1 hx
  obtain ⟨b', hb1, hb2⟩ := (C80_abs N (by omega) b y hb).1 hy
  unfold gcd
  rw [ha1, hb1]
  exact gcdLoop_spec' hN ha2 hb2 h

/-- The absolute value of a number that is not negative. -/
theorem abs_nat {N : Nat} (hN : 0 < N) {a : Big} {n : Nat} (ha : Is N a n) : abs N a = some a := by
  unfold abs
  rw [isNeg hN ha, if_neg (by simp)]

/-- C86 (part): `lcm` is right if one of the two numbers fits in one word, the
product of the two fits, and not both are zero; with both zero it stops. -/
theorem C86_lcm_partial (N : Nat) (hN : 1 < N) (a b : Big) (x y : Int) (ha : Is N a x) (hb : Is N b y)
    (hx : InRange N x.natAbs) (hy : InRange N y.natAbs) (hxy : InRange N (x * y).natAbs)
    (h : x.natAbs < 2 ^ 32 ∨ y.natAbs < 2 ^ 32) :
    ((x ≠ 0 ∨ y ≠ 0) → ∃ c, lcm N a b = some c ∧ Is N c (Int.lcm x y : Nat)) ∧
    (x = 0 → y = 0 → lcm N a b = none) := by
  obtain ⟨a', ha1, ha2⟩ := (C80_abs N (by omega) a x ha).1 hx
  obtain ⟨b', hb1, hb2⟩ := (C80_abs N (by omega) b y hb).1 hy
  obtain ⟨g, hg1, hg2⟩ : ∃ g, mult N b' a' = some g ∧ Is N g (y.natAbs * x.natAbs : Nat) := by
    have hr := ha2.nat.2
    have hxy' : 2 * (y.natAbs * x.natAbs) < span N := by
      unfold InRange at hxy
      rw [Int.natAbs_mul, Nat.mul_comm x.natAbs] at hxy
      omega
    obtain ⟨g, g1, g2⟩ := (C82_mult N (by omega) b' a' _ _ hb2 ha2).1 (Or.inr (Or.inr ⟨by
      rw [← Int.natCast_mul, Int.natAbs_natCast]; exact hxy', by rw [Int.natAbs_natCast]; exact hr⟩))
    exact ⟨g, g1, by rw [Int.natCast_mul]; exact g2⟩
  obtain ⟨d, hd1, hd2⟩ := gcdLoop_spec' hN ha2 hb2 h
  have e : lcm N a b = div N g d := by
    unfold lcm
    have hgcd : gcd N a' b' = some d := by
      unfold gcd
      rw [abs_nat (by omega) ha2, abs_nat (by omega) hb2]
      exact hd1
    simp only [ha1, hb1, hg1, hgcd, Option.bind_eq_bind, Option.bind_some]
  rw [e]
  constructor
  · intro h0
    have hgp : 0 < Nat.gcd x.natAbs y.natAbs := by
      rcases h0 with h0 | h0
      · exact Nat.gcd_pos_of_pos_left _ (by omega)
      · exact Nat.gcd_pos_of_pos_right _ (by omega)
    have hc : Nat.gcd x.natAbs y.natAbs < 2 ^ 32 ∨
        y.natAbs * x.natAbs < Nat.gcd x.natAbs y.natAbs := by
      rcases Nat.eq_zero_or_pos x.natAbs with hx0 | hx0
      · right; rw [hx0] at hgp ⊢; simpa using hgp
      · rcases Nat.eq_zero_or_pos y.natAbs with hy0 | hy0
        · right; rw [hy0] at hgp ⊢; simpa using hgp
        · left
          have h1 := Nat.gcd_le_left y.natAbs hx0
          have h2 := Nat.gcd_le_right x.natAbs hy0
          omega
    have r1 := hg2.nat.2
    have r2 := hd2.nat.2
    have := (C84_div_partial N hN g d _ _ hg2 hd2 (by omega) (by unfold InRange; omega)
      (by unfold InRange; omega) (by rw [Int.natAbs_natCast, Int.natAbs_natCast]; exact hc)).1
    obtain ⟨c, c1, c2⟩ := this
    refine ⟨c, c1, ?_⟩
    have he : Int.lcm x y = y.natAbs * x.natAbs / Nat.gcd x.natAbs y.natAbs := by
      rw [Nat.mul_comm]; rfl
    rw [he]
    exact c2
  · intro h0 h1
    subst h0
    subst h1
    exact (C84_stops N hN g d _ _ hg2 hd2 (Or.inl (by simp))).1

/-- A remainder of two numbers of the same number of bits. -/
theorem mod_same {N : Nat} {a b : Big} {m n : Nat} (ha : Is N a m) (hb : Is N b n)
    (hn : 2 ^ 32 ≤ n) (hlog : Nat.log2 m = Nat.log2 n) (hm : m < span (N - 1)) :
    mod N a b = some a := by
  by_cases h : m < n
  · have hN : 1 < N := by
      have := hb.nat.2
      rcases Nat.lt_or_ge 1 N with h | h
      · exact h
      · have h1 := span_mono (m := N) (n := 1) (by omega)
        simp only [span, Nat.pow_one] at h1 this
        omega
    obtain ⟨c, c1, c2⟩ := mod_nat hN ha hb (by omega) (Or.inr h)
    rw [Nat.mod_eq_of_lt h] at c2
    rw [c1, C80_unique N c a _ c2 ha]
  · exact (C84_same_bits N a b m n ha hb hn (by omega) hlog hm).2

/-- C86, the failure: for two numbers of the same number of bits, of more than
one word, `gcd` never returns: its loop runs any number of passes. -/
theorem C86_gcd_runs (N : Nat) (a b : Big) (m n : Nat) (ha : Is N a m) (hb : Is N b n)
    (hm32 : 2 ^ 32 ≤ m) (hn32 : 2 ^ 32 ≤ n) (hlog : Nat.log2 m = Nat.log2 n)
    (hm : m < span (N - 1)) (hn : n < span (N - 1)) (k : Nat) :
    abs N a = some a ∧ abs N b = some b ∧
    ∃ s, gcdRun N (a, b) k = some s ∧ s.1.isZero = false := by
  have hN : 0 < N := by
    rcases Nat.eq_zero_or_pos N with h | h
    · subst h
      simp only [span, Nat.pow_zero] at hm
      omega
    · exact h
  refine ⟨abs_nat hN ha, abs_nat hN hb, ?_⟩
  have za : a.isZero = false := by rw [ha.isZero]; simp; omega
  have zb : b.isZero = false := by rw [hb.isZero]; simp; omega
  have key : gcdRun N (a, b) k = some (a, b) ∨ gcdRun N (a, b) k = some (b, a) := by
    induction k with
    | zero => exact Or.inl rfl
    | succ k ih =>
      rw [gcdRun]
      rcases ih with ih | ih <;> rw [ih]
      · right
        show (if a.isZero then none else gcdPass N (a, b)) = _
        rw [za, if_neg (by decide), gcdPass, mod_same hb ha hm32 hlog.symm hn]
        rfl
      · left
        show (if b.isZero then none else gcdPass N (b, a)) = _
        rw [zb, if_neg (by decide), gcdPass, mod_same ha hb hn32 hlog hm]
        rfl
  rcases key with h | h
  · exact ⟨_, h, za⟩
  · exact ⟨_, h, zb⟩

theorem gcdRun_pass (N : Nat) (s s' : Big × Big) (h0 : s.1.isZero = false) (h : gcdPass N s = some s')
    (k : Nat) : gcdRun N s (k + 1) = gcdRun N s' k := by
  induction k with
  | zero =>
    rw [gcdRun, gcdRun, gcdRun, Option.bind_eq_bind, Option.bind_some, h0, if_neg (by decide), h]
  | succ k ih =>
    rw [gcdRun, ih, gcdRun]

/-- `gcd` gives a number only if its loop ends. -/
theorem gcdLoop_ends (N : Nat) (s : Big × Big) (g c : Big) (h : gcdLoop N s g = some c) :
    ∃ k s', gcdRun N s k = some s' ∧ s'.1.isZero = true := by
  refine gcdLoop.partial_correctness N (fun s _ _ => ∃ k s', gcdRun N s k = some s' ∧ s'.1.isZero = true)
    ?_ s g c h
  intro f hf s g r hr
  by_cases h0 : s.1.isZero = true
  · exact ⟨0, s, rfl, h0⟩
  · rw [if_neg h0] at hr
    cases hp : gcdPass N s with
    | none => rw [hp] at hr; cases hr
    | some s' =>
      rw [hp] at hr
      obtain ⟨k, t, h1, h2⟩ := hf s' s'.2 r hr
      exact ⟨k + 1, t, by rw [gcdRun_pass N s s' (by simpa using h0) hp]; exact h1, h2⟩

/-- C86, the failure: for such numbers the model of `gcd` has no result. -/
theorem C86_gcd_none (N : Nat) (a b : Big) (m n : Nat) (ha : Is N a m) (hb : Is N b n)
    (hm32 : 2 ^ 32 ≤ m) (hn32 : 2 ^ 32 ≤ n) (hlog : Nat.log2 m = Nat.log2 n)
    (hm : m < span (N - 1)) (hn : n < span (N - 1)) : gcd N a b = none := by
  have hr := C86_gcd_runs N a b m n ha hb hm32 hn32 hlog hm hn
  unfold gcd
  rw [(hr 0).1, (hr 0).2.1]
  show gcdLoop N (a, b) b = none
  cases h : gcdLoop N (a, b) b with
  | none => rfl
  | some c =>
    obtain ⟨k, t, h1, h2⟩ := gcdLoop_ends N _ _ _ h
    obtain ⟨-, -, t', h3, h4⟩ := hr k
    rw [h1] at h3
    cases h3
    rw [h2] at h4
    cases h4

/-- `gcd(-12, 2^40) = 4`, `lcm(-12, 10) = 60`. -/
example : ∃ a b c, init 4 (-12) = some a ∧ init 4 (2 ^ 40) = some b ∧ gcd 4 a b = some c ∧ Is 4 c 4 := by
  obtain ⟨a, ha, ha'⟩ := init_spec 4 (by decide) (-12) (by decide)
  obtain ⟨b, hb, hb'⟩ := init_spec 4 (by decide) (2 ^ 40) (by decide)
  obtain ⟨c, h1, h2⟩ := C86_gcd_partial 4 (by decide) a b (-12) (2 ^ 40) ha' hb' (by decide) (by decide) (by decide)
  exact ⟨a, b, c, ha, hb, h1, h2⟩

example : ∃ a b c, init 4 (-12) = some a ∧ init 4 10 = some b ∧ lcm 4 a b = some c ∧ Is 4 c 60 := by
  obtain ⟨a, ha, ha'⟩ := init_spec 4 (by decide) (-12) (by decide)
  obtain ⟨b, hb, hb'⟩ := init_spec 4 (by decide) 10 (by decide)
  obtain ⟨c, h1, h2⟩ := (C86_lcm_partial 4 (by decide) a b (-12) 10 ha' hb' (by decide) (by decide) (by decide)
    (by decide)).1 (by decide)
  exact ⟨a, b, c, ha, hb, h1, h2⟩

/-- `gcd(2^40, 2^40)` runs a thousand passes, and any other number. -/
example : ∃ a s, init 4 (2 ^ 40) = some a ∧ gcdRun 4 (a, a) 1000 = some s ∧ s.1.isZero = false := by
  obtain ⟨a, ha, ha'⟩ := init_spec 4 (by decide) (2 ^ 40) (by decide)
  obtain ⟨-, -, s, h1, h2⟩ := C86_gcd_runs 4 a a (2 ^ 40) (2 ^ 40) ha' ha' (by decide) (by decide) rfl
    (by decide) (by decide) 1000
  exact ⟨a, s, ha, h1, h2⟩

end C3.BigNum
