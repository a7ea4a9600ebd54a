import Verif.Bigint.LemmasString

/-!
# Properties C01–C10: compile-time integers

Every statement uses only the model's entry points (`int_add`, …) and `Spec.lean`.
`some` on the right-hand side says that no undefined behaviour is reached.
-/

set_option linter.unusedVariables false

namespace C3.Bigint

/-- A constant of type `t` whose value is `v` reduced to `t` (used in the examples only). -/
def mk (t : TypeKind) (v : Int) : CInt :=
  let b := BitVec.ofInt 128 v
  ⟨⟨b.extractLsb' 64 64, b.extractLsb' 0 64⟩, t⟩

/-! ## C01 -/

/-- C01, addition. -/
theorem C01_add (a b : CInt) (h : a.type = b.type) :
    ∃ r, int_add a b = some r ∧ r.type = a.type ∧ Wraps a.type (a.val + b.val) r.val := by
  have h1 := dvd_mod_pow (a.i.u + b.i.u) 128
  rw [← u_add] at h1
  obtain ⟨r, e1, e2⟩ := extend_wraps (i128_add a.i b.i) a.type (a.val + b.val) (by
    have := Int.dvd_sub (Int.dvd_sub h1 (val_dvd a)) (val_dvd b)
    rwa [Nat.cast_add, show ∀ x y z w v : Int, x - (y + z) - (w - y) - (v - z) = x - (w + v) by
      intros; ring] at this)
  exact ⟨⟨r, a.type⟩, bind_of e1 rfl, rfl, e2⟩

/-- C01, subtraction. -/
theorem C01_sub (a b : CInt) (h : a.type = b.type) :
    ∃ r, int_sub a b = some r ∧ r.type = a.type ∧ Wraps a.type (a.val - b.val) r.val := by
  have h1 := dvd_mod_pow (a.i.u + (2 ^ 128 - b.i.u)) 128
  rw [← u_sub] at h1
  obtain ⟨r, e1, e2⟩ := extend_wraps (i128_sub a.i b.i) a.type (a.val - b.val) (by
    have := Int.dvd_add (Int.dvd_add (Int.dvd_sub h1 (val_dvd a)) (val_dvd b))
      (Int.dvd_refl (2 ^ 128))
    rw [Nat.cast_add, Nat.cast_sub (Nat.le_of_lt b.i.u_lt), Nat.cast_pow, Nat.cast_two] at this
    rwa [show ∀ x y z w v p : Int, x - (y + (p - z)) - (w - y) + (v - z) + p = x - (w - v) by
      intros; ring] at this)
  exact ⟨⟨r, a.type⟩, bind_of e1 rfl, rfl, e2⟩

/-- C01, multiplication. -/
theorem C01_mul (a b : CInt) (h : a.type = b.type) :
    ∃ r, int_mul a b = some r ∧ r.type = a.type ∧ Wraps a.type (a.val * b.val) r.val := by
  have h1 := dvd_mod_pow (a.i.u * b.i.u) 128
  rw [← u_mult] at h1
  obtain ⟨r, e1, e2⟩ := extend_wraps (i128_mult a.i b.i) a.type (a.val * b.val) (by
    have := Int.dvd_sub (Int.dvd_sub h1 (Dvd.dvd.mul_right (val_dvd a) b.val))
      (Dvd.dvd.mul_right (val_dvd b) a.i.u)
    rwa [Nat.cast_mul, show ∀ x y z w v : Int, x - y * z - (w - y) * v - (v - z) * y = x - w * v by
      intros; ring] at this)
  exact ⟨⟨r, a.type⟩, bind_of e1 rfl, rfl, e2⟩

/-- C01, negation. -/
theorem C01_neg (a : CInt) :
    ∃ r, int_neg a = some r ∧ r.type = a.type ∧ Wraps a.type (-a.val) r.val := by
  obtain ⟨r, h1, h2, h3⟩ := C01_sub ⟨⟨0, 0⟩, a.type⟩ a rfl
  have h0 : CInt.val ⟨⟨0, 0⟩, a.type⟩ = 0 := by
    have e : (⟨0, 0⟩ : Int128).u = 0 := rfl
    unfold CInt.val Int128.s
    split
    · rw [if_pos (by rw [e]; omega), e]; rfl
    · rw [e]; rfl
  rw [h0, Int.zero_sub] at h3
  exact ⟨r, h1, h2, h3⟩

/-- C01, bitwise complement (`~a = -a - 1` in two's complement). -/
theorem C01_not (a : CInt) :
    ∃ r, int_not a = some r ∧ r.type = a.type ∧ Wraps a.type (-a.val - 1) r.val := by
  obtain ⟨r, e1, e2⟩ := extend_wraps (i128_not a.i) a.type (-a.val - 1) (by
    rw [u_not]
    have h := a.i.u_lt
    have := Int.dvd_add (val_dvd a) (Int.dvd_refl (2 ^ 128))
    rw [Nat.cast_sub (by omega), Nat.cast_sub (by omega), Nat.cast_pow, Nat.cast_two, Nat.cast_one]
    rwa [show ∀ p x v : Int, p - 1 - x - (-v - 1) = v - x + p by intros; ring])
  exact ⟨⟨r, a.type⟩, bind_of e1 rfl, rfl, e2⟩

/-- C01, additions and subtractions of a machine word (used for `++`, enum values, ranges). -/
theorem C01_add64 (a : CInt) (n : BitVec 64) :
    ∃ r, int_add64 a n = some r ∧ r.type = a.type ∧ Wraps a.type (a.val + n.toNat) r.val := by
  have h1 := dvd_mod_pow (a.i.u + n.toNat) 128
  rw [← u_add64] at h1
  obtain ⟨r, e1, e2⟩ := extend_wraps (i128_add64 a.i n) a.type (a.val + n.toNat) (by
    have := Int.dvd_sub h1 (val_dvd a)
    rwa [Nat.cast_add, show ∀ x y z w : Int, x - (y + z) - (w - y) = x - (w + z) by
      intros; ring] at this)
  exact ⟨⟨r, a.type⟩, bind_of e1 rfl, rfl, e2⟩

theorem C01_sub64 (a : CInt) (n : BitVec 64) :
    ∃ r, int_sub64 a n = some r ∧ r.type = a.type ∧ Wraps a.type (a.val - n.toNat) r.val := by
  have h1 := dvd_mod_pow (a.i.u + (2 ^ 128 - n.toNat)) 128
  rw [← u_sub64] at h1
  obtain ⟨r, e1, e2⟩ := extend_wraps (i128_sub64 a.i n) a.type (a.val - n.toNat) (by
    have := Int.dvd_add (Int.dvd_sub h1 (val_dvd a)) (Int.dvd_refl (2 ^ 128))
    have hn := n.isLt
    rw [Nat.cast_add, Nat.cast_sub (by omega), Nat.cast_pow, Nat.cast_two] at this
    rwa [show ∀ x y z w p : Int, x - (y + (p - z)) - (w - y) + p = x - (w - z) by
      intros; ring] at this)
  exact ⟨⟨r, a.type⟩, bind_of e1 rfl, rfl, e2⟩

example : (mk .I32 2147483647).WF ∧ (mk .I32 1).WF ∧
    (int_add (mk .I32 2147483647) (mk .I32 1)).map CInt.val = some (-2147483648) := by decide +kernel
example : (int_mul (mk .I128 (2 ^ 126)) (mk .I128 6)).map CInt.val = some (-2 ^ 127) := by
  decide +kernel
example : (int_not (mk .U8 5)).map CInt.val = some 250 := by decide +kernel

/-! ## C02 -/

/-- C02 (partial: the one quotient that is not representable, `MIN / -1` of a signed type narrower
than 128 bits, is excluded; see `C02_min_not_wrapped`).  Folding rejects a zero divisor and
otherwise produces the truncated quotient, in range of the type. -/
theorem C02_div_partial (a b : CInt) (h : a.type = b.type) (ha : a.WF) (hb : b.WF)
    (hmin : ¬ (a.type.signed = true ∧ a.type.bits < 128 ∧ a.val = a.type.minVal ∧ b.val = -1)) :
    (b.val = 0 ∧ sema_fold_div a b = some .error) ∨
    (b.val ≠ 0 ∧ ∃ r, sema_fold_div a b = some (.const r) ∧ r.type = a.type ∧
      Wraps a.type (a.val.tdiv b.val) r.val) := by
  unfold sema_fold_div
  by_cases hz : b.val = 0
  · left; refine ⟨hz, ?_⟩; rw [if_pos ((is_zero_iff b).2 hz)]; rfl
  right
  refine ⟨hz, ?_⟩
  rw [if_neg (fun h => hz ((is_zero_iff b).1 h))]
  have hbu : b.i.u ≠ 0 := by
    intro h0
    apply hz
    unfold CInt.val
    split
    · unfold Int128.s; rw [h0]; rfl
    · rw [h0]; rfl
  unfold int_div
  rw [is_signed_eq]
  cases hs : a.type.signed
  · obtain ⟨q, h1, h2⟩ := udiv_spec a.i b.i hbu
    refine ⟨⟨q, a.type⟩, by rw [if_neg Bool.false_ne_true, h1]; rfl, rfl, ?_⟩
    have hv : CInt.val ⟨q, a.type⟩ = a.val.tdiv b.val := by
      rw [val_unsigned _ (by exact hs), val_unsigned _ hs, val_unsigned _ (h ▸ hs), ← Int.ofNat_tdiv]
      show ((q.u : Nat) : Int) = _
      rw [h2]
    rw [hv]
    refine ⟨?_, by simp⟩
    rw [← hv]
    show CInt.WF ⟨q, a.type⟩
    rw [wf_unsigned _ (by exact hs)]
    rw [wf_unsigned _ hs] at ha
    show q.u < _
    rw [h2]
    exact lt_of_le_of_lt (Nat.div_le_self _ _) ha
  · obtain ⟨q, h1, h2, h3⟩ := sdiv_spec a.i b.i hbu
    refine ⟨⟨q, a.type⟩, by rw [if_pos rfl, h1]; rfl, rfl, ?_⟩
    have hbs : b.type.signed = true := h ▸ hs
    rw [val_signed a hs, val_signed b hbs, val_signed _ (by exact hs)]
    show Wraps a.type _ q.s
    have hqr := s_range q
    by_cases h128 : a.type.bits = 128
    · refine ⟨?_, by rw [h128]; exact h2⟩
      unfold TypeKind.InRange TypeKind.minVal TypeKind.maxVal
      rw [h128, hs, if_pos rfl, if_pos rfl]
      omega
    · have hlt : a.type.bits < 128 := by have := bits_le a.type; omega
      have hmin' : ¬ (a.i.s = a.type.minVal ∧ b.i.s = -1) := by
        rintro ⟨e1, e2⟩
        exact hmin ⟨hs, hlt, by rw [val_signed a hs, e1], by rw [val_signed b hbs, e2]⟩
      have har := (wf_iff a).1 ha
      have hbz : b.i.s ≠ 0 := by rwa [val_signed b hbs] at hz
      rw [val_signed a hs] at har
      have hmm : a.type.minVal = - a.type.maxVal - 1 ∧ -2 ^ 127 < a.type.minVal ∧
          0 ≤ a.type.maxVal := by
        revert hs hlt; cases a.type <;> decide
      have heq : q.s = a.i.s.tdiv b.i.s := h3 (fun h => absurd h.1 (by
        have := hmm.2.1; have := har.1; clear h2 hqr h3; omega))
      rw [heq]
      clear h2 hqr h3 heq h1
      replace hmm : a.type.minVal = - a.type.maxVal - 1 ∧ 0 ≤ a.type.maxVal := ⟨hmm.1, hmm.2.2⟩
      refine ⟨?_, by simp⟩
      exact tdiv_in_range hmm.1 hmm.2 har.1 har.2 hbz hmin'

/-- C02 fails for `MIN / -1` of the signed types below 128 bits: the folded constant is `2 ^ (N-1)`,
which is not a value of the type (`bigint.c:int_div` does not wrap its result).  `int.min / -1` is
the smallest instance that can reach the folder (narrower operands are promoted first). -/
theorem C02_min_not_wrapped :
    (mk .I32 (-2147483648)).WF ∧ (mk .I32 (-1)).WF ∧
    ∃ r, sema_fold_div (mk .I32 (-2147483648)) (mk .I32 (-1)) = some (.const r) ∧
      r.val = 2147483648 ∧ ¬ r.WF :=
  ⟨by decide +kernel, by decide +kernel, mk .I32 2147483648,
    by decide +kernel, by decide +kernel, by decide +kernel⟩

example : (mk .I64 (-7)).WF ∧ (mk .I64 2).WF ∧
    sema_fold_div (mk .I64 (-7)) (mk .I64 2) = some (.const (mk .I64 (-3))) ∧
    sema_fold_div (mk .I64 (-7)) (mk .I64 0) = some .error := by decide +kernel

/-! ## C03 -/

/-- C03 (partial: positive divisors; for negative ones see `C03_neg_divisor`).  The remainder is the
one of truncating division. -/
theorem C03_rem_partial (a b : CInt) (h : a.type = b.type) (ha : a.WF) (hb : b.WF)
    (hpos : 0 ≤ b.val) :
    (b.val = 0 ∧ sema_fold_mod a b = some .error) ∨
    (b.val ≠ 0 ∧ ∃ r, sema_fold_mod a b = some (.const r) ∧ r.type = a.type ∧ r.WF ∧
      a.val = a.val.tdiv b.val * b.val + r.val ∧ r.val.natAbs < b.val.natAbs ∧
      (r.val = 0 ∨ (r.val < 0 ↔ a.val < 0))) := by
  unfold sema_fold_mod
  by_cases hz : b.val = 0
  · left; refine ⟨hz, ?_⟩; rw [if_pos ((is_zero_iff b).2 hz)]; rfl
  right
  refine ⟨hz, ?_⟩
  rw [if_neg (fun h => hz ((is_zero_iff b).1 h))]
  have hbu : b.i.u ≠ 0 := by
    intro h0
    apply hz
    unfold CInt.val
    split
    · unfold Int128.s; rw [h0]; rfl
    · rw [h0]; rfl
  have main : ∃ r, int_rem a b = some r ∧ r.type = a.type ∧ r.val = a.val.tmod b.val := by
    unfold int_rem
    rw [is_signed_eq]
    cases hs : a.type.signed
    · obtain ⟨q, h1, h2⟩ := urem_spec a.i b.i hbu
      refine ⟨⟨q, a.type⟩, by rw [if_neg Bool.false_ne_true, h1]; rfl, rfl, ?_⟩
      rw [val_unsigned _ (by exact hs), val_unsigned _ hs, val_unsigned _ (h ▸ hs), ← Int.ofNat_tmod]
      show ((q.u : Nat) : Int) = _
      rw [h2]
    · obtain ⟨q, h1, h2⟩ := srem_val a.i b.i hbu
      have hbs : b.type.signed = true := h ▸ hs
      refine ⟨⟨q, a.type⟩, by rw [if_pos rfl, h1]; rfl, rfl, ?_⟩
      rw [val_signed a hs, val_signed b hbs, val_signed _ (by exact hs)]
      rw [val_signed b hbs] at hpos hz
      show q.s = _
      rw [h2]
      obtain ⟨m, hm⟩ := Int.eq_ofNat_of_zero_le hpos
      rw [hm]
      obtain ⟨n, hn | hn⟩ := Int.eq_nat_or_neg a.i.s
      · rw [hn, if_neg (by simp; omega), ← Int.ofNat_tmod]; rfl
      · by_cases hn0 : n = 0
        · rw [hn, hn0]; simp
        rw [hn, if_pos (by simp; omega), Int.neg_tmod, ← Int.ofNat_tmod, Int.natAbs_neg]; rfl
  obtain ⟨r, h1, h2, h3⟩ := main
  have hmod := Int.tdiv_mul_add_tmod a.val b.val
  have habs : r.val.natAbs < b.val.natAbs := by
    rw [h3, Int.natAbs_tmod]; exact Nat.mod_lt _ (by omega)
  have hsgn : r.val = 0 ∨ (r.val < 0 ↔ a.val < 0) := by
    rw [h3]
    rcases Int.lt_or_le a.val 0 with hneg | hnn
    · have : a.val.tmod b.val ≤ 0 := by
        rw [show a.val = -(-a.val) by omega, Int.neg_tmod]
        have := Int.tmod_nonneg b.val (a := -a.val) (by omega)
        omega
      omega
    · have := Int.tmod_nonneg b.val hnn
      omega
  refine ⟨r, by exact bind_of h1 rfl, h2, ?_, by rw [h3]; exact hmod.symm, habs, hsgn⟩
  have har := (wf_iff a).1 ha
  have hle : r.val.natAbs ≤ a.val.natAbs := by
    rw [h3, Int.natAbs_tmod]; exact Nat.mod_le _ _
  have h0 : a.type.minVal ≤ 0 ∧ 0 ≤ a.type.maxVal := by cases a.type <;> decide
  rw [wf_iff, h2]
  omega

/-- C03 fails for every negative divisor that does not divide the dividend: the folded remainder
is the negation of the run-time one. -/
theorem C03_neg_divisor (a b : CInt) (h : a.type = b.type) (hb : b.val < 0)
    (hdvd : ¬ b.val ∣ a.val) :
    ∃ r, sema_fold_mod a b = some (.const r) ∧ r.val = - (a.val.tmod b.val) ∧
      r.val ≠ a.val.tmod b.val := by
  have hbs : b.type.signed = true := by
    cases hs : b.type.signed
    · rw [val_unsigned _ hs] at hb; omega
    · rfl
  have has : a.type.signed = true := h ▸ hbs
  have hbu : b.i.u ≠ 0 := by
    intro h0
    rw [val_signed b hbs] at hb
    unfold Int128.s at hb
    rw [h0] at hb
    revert hb; decide
  obtain ⟨q, h1, h2⟩ := srem_val a.i b.i hbu
  have hne : a.val.tmod b.val ≠ 0 := fun h0 => hdvd (Int.dvd_of_tmod_eq_zero h0)
  have hv : CInt.val ⟨q, a.type⟩ = - (a.val.tmod b.val) := by
    rw [val_signed a has, val_signed b hbs, val_signed _ (by exact has)]
    rw [val_signed b hbs] at hb
    show q.s = _
    rw [h2]
    obtain ⟨m, hm | hm⟩ := Int.eq_nat_or_neg b.i.s
    · omega
    rw [hm, Int.tmod_neg]
    have hm0 : m ≠ 0 := by omega
    obtain ⟨n, hn | hn⟩ := Int.eq_nat_or_neg a.i.s
    · rw [hn, if_pos (by simp; omega), ← Int.ofNat_tmod, Int.natAbs_neg]; rfl
    · by_cases hn0 : n = 0
      · rw [hn, hn0]; simp
      rw [hn, if_neg (by simp; omega), Int.neg_tmod, ← Int.ofNat_tmod, Int.natAbs_neg,
        Int.natAbs_neg, Int.neg_neg]; rfl
  refine ⟨⟨q, a.type⟩, ?_, hv, by rw [hv]; omega⟩
  unfold sema_fold_mod int_rem
  rw [if_neg (fun h0 => by have := (is_zero_iff b).1 h0; omega), is_signed_eq, has, if_pos rfl, h1]
  rfl

example : sema_fold_mod (mk .I32 7) (mk .I32 (-2)) = some (.const (mk .I32 (-1))) ∧
    sema_fold_mod (mk .I32 (-7)) (mk .I32 (-2)) = some (.const (mk .I32 1)) ∧
    sema_fold_mod (mk .I32 (-7)) (mk .I32 2) = some (.const (mk .I32 (-1))) ∧
    ¬ (mk .I32 (-2)).val ∣ (mk .I32 7).val := by decide +kernel

/-! ## C04 -/

/-- C04: the folder rejects exactly the shift amounts outside `0 ≤ n < N`; otherwise `<<` is
multiplication by `2 ^ n` wrapped to the type and `>>` is division by `2 ^ n` rounded down. No C
shift out of range is executed. -/
theorem C04_shift (shr : Bool) (a n : CInt) (ha : a.WF) :
    (¬ (0 ≤ n.val ∧ n.val < a.type.bits) ∧ sema_fold_shift shr a n = some .error) ∨
    ((0 ≤ n.val ∧ n.val < a.type.bits) ∧ ∃ r, sema_fold_shift shr a n = some (.const r) ∧
      r.type = a.type ∧ r.WF ∧
      (shr = false → Wraps a.type (a.val * 2 ^ n.val.toNat) r.val) ∧
      (shr = true → r.val = a.val / 2 ^ n.val.toNat)) := by
  unfold sema_fold_shift
  rw [bitsize_eq]
  have hb : ((BitVec.ofNat 64 a.type.bits).toNat : Int) = a.type.bits := by cases a.type <;> rfl
  have hge : int_ucomp n (BitVec.ofNat 64 a.type.bits) .GE = true ↔ n.val ≥ a.type.bits := by
    unfold int_ucomp
    rw [unsigned_compare_spec, matches_iff, hb]; rfl
  by_cases h1 : n.val ≥ a.type.bits
  · left; rw [if_pos (hge.2 h1)]; exact ⟨by omega, rfl⟩
  rw [if_neg (fun h => h1 (hge.1 h))]
  by_cases h2 : n.val < 0
  · left; rw [if_pos ((is_neg_iff n).2 h2)]; exact ⟨by omega, rfl⟩
  rw [if_neg (fun h => h2 ((is_neg_iff n).1 h))]
  right
  refine ⟨by omega, ?_⟩
  have hlow : n.i.low.toNat = n.val.toNat := by
    have hbits := bits_le a.type
    have e : n.val = n.i.u := by
      cases hs : n.type.signed
      · exact val_unsigned _ hs
      · rw [val_signed _ hs] at h2 ⊢; exact s_of_nonneg _ h2
    rw [e] at h1 ⊢
    have : n.i.u = n.i.high.toNat * 2 ^ 64 + n.i.low.toNat := rfl
    omega
  cases shr
  · obtain ⟨r, e1, e2, e3⟩ := shl_spec a n.i.low
    refine ⟨r, ?_, e2, ?_, ?_, by simp⟩
    · rw [if_neg Bool.false_ne_true]; exact bind_of e1 rfl
    · show r.type.InRange _; rw [e2]; exact e3.1
    · intro _; rw [← hlow]; exact e3
  · obtain ⟨r, e1, e2, e3⟩ := shr_spec a n.i.low ha
    refine ⟨r, ?_, e2, ?_, by simp, ?_⟩
    · rw [if_pos rfl]; exact bind_of e1 rfl
    · have har := (wf_iff a).1 ha
      have h0 : a.type.minVal ≤ 0 ∧ 0 ≤ a.type.maxVal := by cases a.type <;> decide
      rw [wf_iff, e2, e3]
      generalize n.i.low.toNat = k
      have hp : (0 : Int) < 2 ^ k := by positivity
      replace hp : (1 : Int) ≤ 2 ^ k := by omega
      rcases Int.lt_or_le a.val 0 with hneg | hnn
      · have h3 : a.val / 2 ^ k < 0 := Int.ediv_neg_of_neg_of_pos hneg (by omega)
        have h4 : a.val ≤ a.val / 2 ^ k := by
          rw [Int.le_ediv_iff_mul_le (by omega)]; nlinarith
        omega
      · have h3 := Int.ediv_nonneg hnn (by omega : (0 : Int) ≤ 2 ^ k)
        have h4 := Int.ediv_le_self (2 ^ k) hnn
        omega
    · intro _; rw [← hlow]; exact e3

example : (mk .I8 (-128)).WF ∧ sema_fold_shift true (mk .I8 (-128)) (mk .I32 7) =
      some (.const (mk .I8 (-1))) ∧
    sema_fold_shift false (mk .U128 3) (mk .U8 127) = some (.const (mk .U128 (2 ^ 127))) ∧
    sema_fold_shift false (mk .U8 3) (mk .I32 8) = some .error ∧
    sema_fold_shift false (mk .U8 3) (mk .I32 (-1)) = some .error := by decide +kernel

/-! ## C05 -/

/-- C05: `&`, `|`, `^` combine the `N`-bit two's complement patterns and stay in range. -/
theorem C05_bitwise (a b : CInt) (h : a.type = b.type) (ha : a.WF) (hb : b.WF) :
    ((int_and a b).WF ∧ (int_and a b).type = a.type ∧
      BitVec.ofInt a.type.bits (int_and a b).val =
        BitVec.ofInt a.type.bits a.val &&& BitVec.ofInt a.type.bits b.val) ∧
    ((int_or a b).WF ∧ (int_or a b).type = a.type ∧
      BitVec.ofInt a.type.bits (int_or a b).val =
        BitVec.ofInt a.type.bits a.val ||| BitVec.ofInt a.type.bits b.val) ∧
    ((int_xor a b).WF ∧ (int_xor a b).type = a.type ∧
      BitVec.ofInt a.type.bits (int_xor a b).val =
        BitVec.ofInt a.type.bits a.val ^^^ BitVec.ofInt a.type.bits b.val) := by
  refine ⟨⟨?_, rfl, ?_⟩, ⟨?_, rfl, ?_⟩, ⟨?_, rfl, ?_⟩⟩
  · refine bitwise_wf i128_and (fun _ x y => x &&& y) bv_and (fun _ _ _ => BitVec.signExtend_and)
      ?_ a b h ha hb
    rintro n x y hx hy a b rfl rfl
    rw [BitVec.toNat_and]; exact Nat.and_lt_two_pow _ hy
  · rw [ofInt_val _ _ (bits_le _), ofInt_val _ _ (bits_le _), ofInt_val _ _ (bits_le _),
      ← BitVec.setWidth_and]
    exact congrArg _ (bv_and _ _)
  · refine bitwise_wf i128_or (fun _ x y => x ||| y) bv_or (fun _ _ _ => signExtend_or' _ _)
      ?_ a b h ha hb
    rintro n x y hx hy a b rfl rfl
    rw [BitVec.toNat_or]; exact Nat.or_lt_two_pow hx hy
  · rw [ofInt_val _ _ (bits_le _), ofInt_val _ _ (bits_le _), ofInt_val _ _ (bits_le _),
      ← BitVec.setWidth_or]
    exact congrArg _ (bv_or _ _)
  · refine bitwise_wf i128_xor (fun _ x y => x ^^^ y) bv_xor (fun _ _ _ => signExtend_xor' _ _)
      ?_ a b h ha hb
    rintro n x y hx hy a b rfl rfl
    rw [BitVec.toNat_xor]; exact Nat.xor_lt_two_pow hx hy
  · rw [ofInt_val _ _ (bits_le _), ofInt_val _ _ (bits_le _), ofInt_val _ _ (bits_le _),
      ← BitVec.setWidth_xor]
    exact congrArg _ (bv_xor _ _)

example : (mk .I16 (-2)).WF ∧ (mk .I16 255).WF ∧ (int_xor (mk .I16 (-2)) (mk .I16 255)).val = -255 := by
  decide +kernel

/-! ## C06 -/

/-- C06: comparisons are the order of the mathematical values, for every pair of types. -/
theorem C06_compare (a b : CInt) (op : CmpOp) :
    int_comp a b op = true ↔ op.holds a.val b.val := by
  unfold int_comp; rw [compare_spec, matches_iff]

/-- C06, against a signed machine word. -/
theorem C06_icomp (a : CInt) (n : BitVec 64) (op : CmpOp) :
    int_icomp a n op = true ↔ op.holds a.val n.toInt := by
  unfold int_icomp; rw [signed_compare_spec, matches_iff]

/-- C06, against an unsigned machine word. -/
theorem C06_ucomp (a : CInt) (n : BitVec 64) (op : CmpOp) :
    int_ucomp a n op = true ↔ op.holds a.val n.toNat := by
  unfold int_ucomp; rw [unsigned_compare_spec, matches_iff]

example : int_comp (mk .I128 (-1)) (mk .U128 (2 ^ 128 - 1)) .LT = true ∧
    int_comp (mk .U64 (2 ^ 63)) (mk .I64 (-2 ^ 63)) .GT = true := by decide +kernel

/-! ## C07 -/

/-- C07: the range check accepts exactly the values of the target type. -/
theorem C07_fits (c : CInt) (t : TypeKind) : int_fits c t = true ↔ t.InRange c.val := fits_spec c t

/-- C07: the reported width is representable and minimal. -/
theorem C07_bits_needed (c : CInt) : ∃ n, int_bits_needed c = some n ∧
    FitsBits c.type.signed n.toNat c.val ∧
    ∀ m, FitsBits c.type.signed m c.val → n.toNat ≤ m := bits_needed_spec c

example : int_fits (mk .U128 (2 ^ 127)) .I128 = false ∧ int_fits (mk .I128 (-128)) .I8 = true ∧
    int_bits_needed (mk .I32 (-129)) = some 9 ∧ int_bits_needed (mk .U32 256) = some 9 := by
  decide +kernel

/-! ## C08 -/

/-- C08: conversion is reduction to the target type. -/
theorem C08_conv (c : CInt) (t : TypeKind) (hc : c.WF) :
    ∃ r, int_conv c t = some r ∧ r.type = t ∧ Wraps t c.val r.val := conv_spec c t hc

example : (mk .I16 (-2)).WF ∧ int_conv (mk .I16 (-2)) .U64 = some (mk .U64 (2 ^ 64 - 2)) ∧
    int_conv (mk .U128 (2 ^ 128 - 200)) .I8 = some (mk .I8 56) := by decide +kernel

/-! ## C09 -/

/-- C09: printing gives sign, prefix and the digits of the absolute value without leading zeros;
the 130-byte digit buffer and the result buffer suffice. -/
theorem C09_print (c : CInt) (radix : BitVec 64) (h2 : 2 ≤ radix.toNat) (h16 : radix.toNat ≤ 16)
    (use_prefix : Bool) :
    ∃ ds : List Nat, int_to_str c radix use_prefix = some
        ((if c.val < 0 then ['-'] else []) ++ (if use_prefix then radixPrefix radix.toNat else []) ++
          ds.map digitChar) ∧
      (∀ d ∈ ds, d < radix.toNat) ∧ ds ≠ [] ∧ (ds.head? = some 0 → ds = [0]) ∧
      positional radix.toNat ds = c.val.natAbs := to_str_spec c radix h2 h16 use_prefix

/-- C09: reading the decimal text of a non-negative constant gives the constant back. -/
theorem C09_read_back (c : CInt) (h : 0 ≤ c.val) :
    ∃ s, int_to_str c 10 false = some s ∧ i128_from_str s = c.i := by
  obtain ⟨ds, h1, h2, h3, h4, h5⟩ := to_str_spec c 10 (by decide) (by decide) false
  rw [if_neg (by omega)] at h1
  refine ⟨_, h1, u_inj ?_⟩
  show (i128_from_str (ds.map digitChar)).u = _
  rw [from_str_spec ds h2, show (10 : Nat) = (10 : BitVec 64).toNat from rfl, h5]
  have hu : c.val = c.i.u := by
    cases hs : c.type.signed
    · exact val_unsigned _ hs
    · rw [val_signed _ hs] at h ⊢; exact s_of_nonneg _ (by omega)
  rw [hu, Int.natAbs_natCast, Nat.mod_eq_of_lt c.i.u_lt]

example : int_to_str (mk .I128 (-2 ^ 127)) 16 true = some "-0x80000000000000000000000000000000".toList ∧
    int_to_str (mk .U128 (2 ^ 128 - 1)) 10 false =
      some "340282366920938463463374607431768211455".toList := by decide +kernel

/-! ## C10 -/

/-- C10: the 64-bit counters. -/
theorem C10_word (n : BitVec 64) :
    (∃ c, clz64 n = some c ∧ LeadingZeros 64 n.toNat c.toNat) ∧
    (∃ c, ctz64 n = some c ∧ TrailingZeros 64 n.toNat c.toNat) ∧
    (popcnt64 n).toNat = bitCount 64 n.toNat := by
  obtain ⟨c, h1, -, h2⟩ := ctz64_spec n
  exact ⟨clz64_spec n, ⟨c, h1, h2⟩, popcnt64_spec n⟩

/-- C10: the 128-bit counters. -/
theorem C10_wide (a : Int128) :
    (∃ c, i128_clz a = some c ∧ LeadingZeros 128 a.u c.toNat) ∧
    (∃ c, i128_ctz a = some c ∧ TrailingZeros 128 a.u c.toNat) ∧
    (i128_popcnt a).toNat = bitCount 128 a.u := ⟨clz_spec a, ctz_spec a, popcnt_spec a⟩

example : clz64 0x00f0#64 = some 56 ∧ i128_ctz ⟨0x30#64, 0⟩ = some 68 ∧
    i128_popcnt ⟨0xff#64, 0x8001#64⟩ = 10 := by decide +kernel

end C3.Bigint
