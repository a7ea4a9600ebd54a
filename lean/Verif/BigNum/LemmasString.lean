import Verif.BigNum.ModelString
import Verif.BigNum.SpecString
import Verif.BigNum.PropsGcd

set_option autoImplicit false

namespace C3.BigNum

/-- The number that digits stand for, lowest first. -/
def lowFirst (r : Nat) : List Nat → Nat
  | [] => 0
  | d :: ds => d + r * lowFirst r ds

theorem horner_append (r : Nat) (ds : List Nat) (d : Nat) : horner r (ds ++ [d]) = horner r ds * r + d := by
  unfold horner
  rw [List.foldl_append]
  rfl

theorem horner_reverse (r : Nat) (ds : List Nat) : horner r ds.reverse = lowFirst r ds := by
  induction ds with
  | nil => rfl
  | cons d ds ih => rw [List.reverse_cons, horner_append, ih, lowFirst, Nat.mul_comm, Nat.add_comm]

theorem chars_get (d : Nat) (h10 : 10 ≤ d) (h36 : d < 36) : chars[d - 10]? = some (d + 55) := by
  unfold chars
  rw [List.getElem?_map, List.getElem?_range (by omega)]
  show some (65 + (d - 10)) = _
  congr 1
  omega

theorem digitChar_eq (d : Nat) (h : d < 36) : digitChar d = some (charOf d) := by
  unfold digitChar charOf
  by_cases h10 : d < 10
  · rw [if_pos h10, if_pos h10]
  · rw [if_neg h10, if_neg h10, chars_get d (by omega) h]

theorem Is.word_zero {N : Nat} (hN : 0 < N) {b : Big} {n : Nat} (hb : Is N b n) (hn : n < 2 ^ 32) :
    b.word 0 = n := by
  obtain ⟨t, t1, t2, t3⟩ := word0 hN hb.1.toValid
  rw [hb.nat.1, t2 (hb.len_one.2 hn)] at t1
  exact t1.symm

/-- The digits of a number, lowest first. -/
theorem digitsLoop_spec {N : Nat} (hN : 0 < N) (r : Nat) (hr : 2 ≤ r) (hr36 : r ≤ 36) (rb : Big)
    (hrb : rb.word 0 = r) (n : Nat) : ∀ a, Is N a n →
    ∃ ds : List Nat, digitsLoop N rb a = some (ds.map charOf) ∧ (∀ d ∈ ds, d < r) ∧
      lowFirst r ds = n ∧ (n ≠ 0 → ds ≠ []) ∧ (∀ d ∈ ds.getLast?, d ≠ 0) := by
  induction n using Nat.strongRecOn with
  | ind n ih =>
    intro a ha
    rw [digitsLoop, ha.isZero]
    by_cases h0 : n = 0
    · subst h0
      rw [if_pos (by decide)]
      exact ⟨[], rfl, by simp, rfl, by simp, by simp⟩
    · rw [if_neg (by simpa using h0)]
      obtain ⟨q, m, e, hq, hm⟩ := singleDivide_spec hN ha hrb (by omega) (by omega)
      have hlt : n / r < n := Nat.div_lt_self (by omega) (by omega)
      obtain ⟨ds, d1, d2, d3, d4, d5⟩ := ih (n / r) hlt q hq
      have hmod := Nat.mod_lt n (show 0 < r by omega)
      have hw : m.word 0 = n % r := hm.word_zero hN (by omega)
      refine ⟨n % r :: ds, ?_, ?_, ?_, by simp, ?_⟩
      · rw [e, Option.bind_eq_bind, Option.bind_some, hw, digitChar_eq _ (by omega), d1]
        rfl
      · intro d hd
        rcases List.mem_cons.1 hd with rfl | hd
        · exact hmod
        · exact d2 d hd
      · rw [lowFirst, d3, Nat.mod_add_div]
      · intro d hd
        cases ds with
        | nil =>
          rw [lowFirst] at d3
          have hnr := Nat.mod_add_div n r
          rw [← d3] at hnr
          simp only [List.getLast?_singleton, Option.mem_def, Option.some.injEq] at hd
          omega
        | cons e es =>
          rw [List.getLast?_cons_cons] at hd
          exact d5 d hd

theorem digitOf_some (c d r : Nat) (h : IsDigit c d) (hd : d < r) : digitOf c r = some (d : Int) := by
  obtain ⟨h36, h⟩ := h
  unfold charOf at h
  unfold digitOf
  have key : (if 48 ≤ c ∧ c ≤ 57 then some ((c : Int) - 48)
    else if 65 ≤ c ∧ c ≤ 90 then some ((c : Int) - 55)
    else if 97 ≤ c ∧ c ≤ 122 then some ((c : Int) - 87) else none) = some (d : Int) := by
    split at h
    · rw [if_pos (by omega)]
      congr 1
      omega
    · rcases h with h | h
      · rw [if_neg (by omega), if_pos (by omega)]
        congr 1
        omega
      · rw [if_neg (by omega), if_neg (by omega), if_pos (by omega)]
        congr 1
        omega
  rw [key]
  show (if (d : Int) ≥ r then none else some (d : Int)) = _
  rw [if_neg (by omega)]

theorem digitOf_none (c r : Nat) (h : ∀ d, d < r → ¬ IsDigit c d) : digitOf c r = none := by
  unfold digitOf
  have key : ∀ (v : Option Int), (∀ z, v = some z → ∃ d : Nat, z = d ∧ IsDigit c d) →
      (v.bind fun v => if v ≥ (r : Int) then none else some v) = none := by
    intro v hv
    cases v with
    | none => rfl
    | some z =>
      obtain ⟨d, rfl, hd⟩ := hv z rfl
      show (if (d : Int) ≥ r then none else some (d : Int)) = none
      rw [if_pos]
      by_cases hlt : d < r
      · exact absurd hd (h d hlt)
      · omega
  apply key
  intro z hz
  unfold IsDigit charOf
  split at hz
  · cases hz
    refine ⟨c - 48, by omega, by omega, Or.inl ?_⟩
    rw [if_pos (by omega)]
    omega
  · split at hz
    · cases hz
      refine ⟨c - 55, by omega, by omega, Or.inl ?_⟩
      rw [if_neg (by omega)]
      omega
    · split at hz
      · cases hz
        exact ⟨c - 87, by omega, by omega, Or.inr ⟨by omega, by omega⟩⟩
      · cases hz

/-- The sign. -/
def sgn (neg : Bool) (n : Nat) : Int := if neg then -(n : Int) else n

theorem fits_sgn (N m d : Nat) (neg : Bool) (hm : 2 * m < span N) (hm1 : 1 ≤ m) (hN : 0 < N) :
    Fits N m (sgn neg d) ↔ 2 * (m * d) < span N := by
  have hsp : (2 : Nat) ^ 32 ≤ span N := by
    have := span_mono (m := 1) (n := N) hN
    simpa [span] using this
  have habs : ((m : Int) * sgn neg d).natAbs = m * d := by
    rw [Int.natAbs_mul]
    unfold sgn
    split <;> simp
  have habs2 : (sgn neg d).natAbs = d := by
    unfold sgn
    split <;> simp
  have hle : d ≤ m * d := Nat.le_mul_of_pos_left d hm1
  unfold Fits
  rw [habs, habs2]
  constructor
  · rintro (h | h | h)
    · have : d = 0 := by rw [← habs2, h]; rfl
      rw [this]
      omega
    · have : d = 1 := by rw [← habs2, h]; rfl
      rw [this, Nat.mul_one]
      exact hm
    · exact h.1
  · intro h
    exact Or.inr (Or.inr ⟨h, by omega⟩)

/-- What the loop makes of digits. -/
theorem parseLoop_ok {N : Nat} (hN : 0 < N) (r : Nat) (hr : 2 ≤ r) (rb : Big) (hrb : Is N rb r) (neg : Bool)
    (cs ds : List Nat) (hd : Digits r cs ds) : ∀ (self mul : Big) (v m : Nat), Is N self (sgn neg v) →
    Is N mul m → 1 ≤ m → (cs = [] ∨ (2 * (v + m * lowFirst r ds) < span N ∧ 2 * (m * r ^ (ds.length - 1)) < span N)) →
    ∃ b, parseLoop N r rb neg cs self mul = some (.ok b) ∧ Is N b (sgn neg (v + m * lowFirst r ds)) := by
  induction hd with
  | nil =>
    intro self mul v m hs hm h1 h
    exact ⟨self, rfl, by simpa [lowFirst] using hs⟩
  | @cons c d cs ds hcd hds ih =>
    intro self mul v m hs hm h1 h
    replace h := h.resolve_left (by simp)
    have h2m := hm.nat.2
    have hsp : (2 : Nat) ^ 32 ≤ span N := by
      have := span_mono (m := 1) (n := N) hN
      simpa [span] using this
    have e1 : v + m * (d + r * lowFirst r ds) = v + m * d + m * r * lowFirst r ds := by ring
    rw [lowFirst, e1] at h
    rw [parseLoop, digitOf_some c d r hcd.1 hcd.2]
    obtain ⟨t, t1, t2⟩ := init_spec N hN (sgn neg d) (by
      have := hcd.1.1
      unfold sgn InRange
      split <;> omega)
    have hmd : 2 * (m * d) < span N := by omega
    obtain ⟨p, p1, p2⟩ := (C82_mult N hN mul t m _ hm t2).1 ((fits_sgn N m d neg h2m h1 hN).2 hmd)
    have hsum : sgn neg v + (m : Int) * sgn neg d = sgn neg (v + m * d) := by
      unfold sgn
      split <;> push_cast <;> ring
    obtain ⟨s, s1, s2⟩ := (C80_add N hN self p _ _ hs p2).1 (by
      rw [hsum]
      unfold sgn InRange
      split <;> omega)
    rw [hsum] at s2
    have tt : (if neg then -(d : Int) else (d : Int)) = sgn neg d := rfl
    have hnext : ∃ m', nextMultiplier N rb cs mul = some m' ∧ (cs = [] ∨ Is N m' (m * r : Nat)) := by
      unfold nextMultiplier
      cases hds with
      | nil => exact ⟨mul, rfl, Or.inl rfl⟩
      | @cons c' d' cs' ds' hcd' hds' =>
        obtain ⟨m', m1, m2⟩ := (C82_mult N hN mul rb m r hm hrb).1 (by
          have : m * r ≤ m * r ^ ((d :: d' :: ds').length - 1) := by
            apply Nat.mul_le_mul_left
            show r ≤ r ^ (ds'.length + 1)
            exact Nat.le_self_pow (by omega) r
          have hh := hrb.nat.2
          refine Or.inr (Or.inr ⟨?_, ?_⟩)
          · rw [← Int.natCast_mul, Int.natAbs_natCast]
            omega
          · simpa using hh)
        exact ⟨m', m1, Or.inr (by rw [Int.natCast_mul]; exact m2)⟩
    obtain ⟨m', m1, m2⟩ := hnext
    simp only [tt, t1, p1, s1, m1, Option.bind_eq_bind, Option.bind_some]
    rw [lowFirst, e1]
    cases hds with
    | nil => exact ⟨s, rfl, by simpa [lowFirst] using s2⟩
    | @cons c' d' cs' ds' hcd' hds' =>
      have m2 := m2.resolve_left (by simp)
      refine ih s m' (v + m * d) (m * r) s2 m2 (Nat.one_le_iff_ne_zero.2 ?_) (Or.inr ⟨h.1, ?_⟩)
      · have : 0 < m * r := Nat.mul_pos h1 (by omega)
        omega
      · have := h.2
        simp only [List.length_cons, Nat.add_sub_cancel] at this ⊢
        rw [Nat.pow_succ] at this
        calc 2 * (m * r * r ^ ds'.length) = 2 * (m * (r ^ ds'.length * r)) := by ring
          _ < span N := this

/-- Where the loop stops. -/
theorem parseLoop_stop {N : Nat} (hN : 0 < N) (r : Nat) (hr : 2 ≤ r) (rb : Big) (hrb : Is N rb r) (neg : Bool)
    (cs ds : List Nat) (hd : Digits r cs ds) : ∀ (self mul : Big) (v m : Nat), Is N self (sgn neg v) →
    Is N mul m → 1 ≤ m → 2 * v ≤ span N →
    (span N < 2 * (v + m * lowFirst r ds) ∨ span N ≤ 2 * (m * r ^ (ds.length - 1)) ∨
      (neg = false ∧ span N ≤ 2 * (v + m * lowFirst r ds))) →
    parseLoop N r rb neg cs self mul = none := by
  induction hd with
  | nil =>
    intro self mul v m hs hm h1 hv h
    have h2m := hm.nat.2
    simp only [lowFirst, Nat.mul_zero, Nat.add_zero, List.length_nil, Nat.zero_sub, Nat.pow_zero, Nat.mul_one] at h
    rcases h with h | h | ⟨rfl, h⟩
    · omega
    · omega
    · have := hs.nat.2
      omega
  | @cons c d cs ds hcd hds ih =>
    intro self mul v m hs hm h1 hv h
    have h2m := hm.nat.2
    have hsp : (2 : Nat) ^ 32 ≤ span N := by
      have := span_mono (m := 1) (n := N) hN
      simpa [span] using this
    have e1 : v + m * (d + r * lowFirst r ds) = v + m * d + m * r * lowFirst r ds := by ring
    rw [lowFirst, e1] at h
    rw [parseLoop, digitOf_some c d r hcd.1 hcd.2]
    obtain ⟨t, t1, t2⟩ := init_spec N hN (sgn neg d) (by
      have := hcd.1.1
      unfold sgn InRange
      split <;> omega)
    have tt : (if neg then -(d : Int) else (d : Int)) = sgn neg d := rfl
    have hmu := C82_mult N hN mul t m _ hm t2
    rw [fits_sgn N m d neg h2m h1 hN] at hmu
    by_cases hmd : 2 * (m * d) < span N
    · obtain ⟨p, p1, p2⟩ := hmu.1 hmd
      have hsum : sgn neg v + (m : Int) * sgn neg d = sgn neg (v + m * d) := by
        unfold sgn
        split <;> push_cast <;> ring
      have hadd := C80_add N hN self p _ _ hs p2
      rw [hsum] at hadd
      by_cases hin : InRange N (sgn neg (v + m * d))
      · obtain ⟨s, s1, s2⟩ := hadd.1 hin
        simp only [tt, t1, p1, s1, Option.bind_eq_bind, Option.bind_some]
        have hv' : 2 * (v + m * d) ≤ span N := by
          unfold InRange sgn at hin
          split at hin <;> omega
        cases hds with
        | nil =>
          exfalso
          simp only [lowFirst, Nat.mul_zero, Nat.add_zero, List.length_cons, List.length_nil, Nat.zero_add,
            Nat.sub_self, Nat.pow_zero, Nat.mul_one] at h
          rcases h with h | h | ⟨rfl, h⟩
          · omega
          · omega
          · have := s2.nat.2
            omega
        | @cons c' d' cs' ds' hcd' hds' =>
          have hmr := C82_mult N hN mul rb m r hm hrb
          unfold nextMultiplier
          show ((mult N mul rb).bind fun m' => parseLoop N r rb neg (c' :: cs') s m') = none
          by_cases hf : Fits N m r
          · obtain ⟨m', m1, m2⟩ := hmr.1 hf
            rw [← Int.natCast_mul] at m2
            rw [m1]
            have hmp : 0 < m * r := Nat.mul_pos h1 (by omega)
            refine ih s m' (v + m * d) (m * r) s2 m2 hmp hv' ?_
            rcases h with h | h | h
            · exact Or.inl h
            · refine Or.inr (Or.inl ?_)
              simp only [List.length_cons, Nat.add_sub_cancel] at h ⊢
              rw [Nat.pow_succ] at h
              calc span N ≤ 2 * (m * (r ^ ds'.length * r)) := h
                _ = _ := by ring
            · exact Or.inr (Or.inr h)
          · rw [hmr.2 hf]
            rfl
      · simp only [tt, t1, p1, hadd.2 hin, Option.bind_eq_bind, Option.bind_some, Option.bind_none]
    · simp only [tt, t1, hmu.2 hmd, Option.bind_eq_bind, Option.bind_some, Option.bind_none]

end C3.BigNum
