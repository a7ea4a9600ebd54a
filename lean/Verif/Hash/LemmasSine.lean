import Mathlib.Analysis.Complex.Trigonometric
import Mathlib.Analysis.Complex.Basic
import Mathlib.Tactic.LinearCombination
import Mathlib.Tactic.NormNum
import Mathlib.Tactic.Ring
import Mathlib.Tactic.FieldSimp
import Mathlib.Tactic.Linarith

/-! # Sines of 1 to 64, to 15 digits

The powers of a rational close to `exp I`, with a bound of the error. -/

set_option autoImplicit false

namespace C3.Hash.Sine

open Complex Finset

/-- The sum of twenty terms of `exp I` is `(C + S I) / D`. -/
def D : ℤ := 121645100408832000
def C : ℤ := 65725128248453315
def S : ℤ := 102360822438075317

/-- The powers of it: numerators. -/
def pw : Nat → ℤ × ℤ
  | 0 => (1, 0)
  | k + 1 => ((pw k).1 * C - (pw k).2 * S, (pw k).1 * S + (pw k).2 * C)

/-- The sum. -/
noncomputable def p : ℂ := ((C : ℂ) + (S : ℂ) * I) / (D : ℂ)

theorem D_ne : (D : ℂ) ≠ 0 := by norm_num [D]

theorem sum_eq : ∑ m ∈ range 20, I ^ m / (m.factorial : ℂ) = p := by
  have h : ∀ m, I ^ m = I ^ (m % 4) := Complex.I_pow_eq_pow_mod
  have h2 : I ^ 2 = -1 := I_sq
  have h3 : I ^ 3 = -I := by rw [pow_succ, I_sq]; ring
  have e : ∀ m, I ^ m = if m % 4 = 0 then 1 else if m % 4 = 1 then I else if m % 4 = 2 then -1 else -I := by
    intro m
    rw [h m]
    have : m % 4 < 4 := Nat.mod_lt _ (by norm_num)
    generalize m % 4 = r at this
    match r, this with
    | 0, _ => simp
    | 1, _ => simp
    | 2, _ => simp
    | 3, _ => simp [h3]
  simp only [e, sum_range_succ, sum_range_zero, p, C, S, D, Nat.factorial]
  norm_num
  ring

theorem close : ‖exp I - p‖ ≤ 1 / 10 ^ 18 := by
  have h := Complex.exp_bound (x := I) (by simp) (n := 20) (by norm_num)
  rw [sum_eq] at h
  refine le_trans h ?_
  simp only [norm_I, one_pow, one_mul, Nat.factorial]
  norm_num

theorem norm_pow_exp (k : Nat) : ‖exp I ^ k‖ = 1 := by
  rw [norm_pow]
  have : ‖exp I‖ = 1 := by
    have := norm_exp_ofReal_mul_I 1
    simpa using this
  rw [this, one_pow]

theorem close_pow (k : Nat) (hk : k ≤ 64) : ‖exp I ^ k - p ^ k‖ ≤ 2 * k / 10 ^ 18 := by
  induction k with
  | zero => simp
  | succ k ih =>
    have ih := ih (by omega)
    have h1 : ‖p ^ k‖ ≤ 2 := by
      have := norm_sub_norm_le (p ^ k) (exp I ^ k)
      rw [norm_pow_exp, norm_sub_rev] at this
      have hk' : (k : ℝ) ≤ 64 := by exact_mod_cast (by omega : k ≤ 64)
      have : 2 * (k : ℝ) / 10 ^ 18 ≤ 1 := by
        rw [div_le_one (by positivity)]; linarith
      linarith
    have h2 : exp I ^ (k + 1) - p ^ (k + 1) = exp I * (exp I ^ k - p ^ k) + (exp I - p) * p ^ k := by ring
    have hn := norm_pow_exp 1
    rw [pow_one] at hn
    calc ‖exp I ^ (k + 1) - p ^ (k + 1)‖
        ≤ ‖exp I * (exp I ^ k - p ^ k)‖ + ‖(exp I - p) * p ^ k‖ := by rw [h2]; exact norm_add_le _ _
      _ = ‖exp I ^ k - p ^ k‖ + ‖exp I - p‖ * ‖p ^ k‖ := by rw [norm_mul, norm_mul, hn, one_mul]
      _ ≤ 2 * k / 10 ^ 18 + 1 / 10 ^ 18 * 2 := by
        refine add_le_add ih (mul_le_mul close h1 (norm_nonneg _) (by positivity))
      _ = 2 * ((k + 1 : ℕ) : ℝ) / 10 ^ 18 := by push_cast; ring

theorem pow_eq (k : Nat) : p ^ k = (((pw k).1 : ℂ) + ((pw k).2 : ℂ) * I) / ((D ^ k : ℤ) : ℂ) := by
  induction k with
  | zero => simp [pw]
  | succ k ih =>
    have hd : ((D ^ k : ℤ) : ℂ) ≠ 0 := by
      push_cast; exact pow_ne_zero _ D_ne
    rw [pow_succ, ih, p, div_mul_div_comm, pow_succ D k]
    push_cast
    congr 1
    simp only [pw]
    push_cast
    have : I * I = -1 := I_mul_I
    linear_combination (((pw k).2 : ℂ) * (S : ℂ)) * this

theorem sin_close (k : Nat) (hk : k ≤ 64) :
    |Real.sin k - ((pw k).2 : ℝ) / ((D ^ k : ℤ) : ℝ)| ≤ 128 / 10 ^ 18 := by
  have h1 := close_pow k hk
  have h2 := abs_im_le_norm (exp I ^ k - p ^ k)
  have h3 : (exp I ^ k).im = Real.sin k := by
    rw [← Complex.exp_nat_mul]
    have := exp_ofReal_mul_I_im k
    rw [← this]; simp
  have h4 : (p ^ k).im = ((pw k).2 : ℝ) / ((D ^ k : ℤ) : ℝ) := by
    rw [pow_eq]
    have : (((pw k).1 : ℂ) + ((pw k).2 : ℂ) * I) / ((D ^ k : ℤ) : ℂ) =
        (((((pw k).1 : ℝ) / ((D ^ k : ℤ) : ℝ)) : ℝ) : ℂ) + (((((pw k).2 : ℝ) / ((D ^ k : ℤ) : ℝ)) : ℝ) : ℂ) * I := by
      push_cast; ring
    rw [this, add_im, ofReal_im, im_ofReal_mul, I_im, mul_one, zero_add]
  rw [sub_im, h3, h4] at h2
  refine le_trans (le_trans h2 h1) ?_
  have hk' : (k : ℝ) ≤ 64 := by exact_mod_cast hk
  rw [div_le_div_iff_of_pos_right (by positivity)]
  linarith

/-- What is to be computed: the integer part of the sine times 2 ^ 32. -/
def ok (k : Nat) (t : Nat) : Bool :=
  let s := (pw k).2.natAbs
  let d := D.natAbs ^ k
  t * d * 10 ^ 18 + 2 ^ 32 * 128 * d ≤ 2 ^ 32 * s * 10 ^ 18 &&
    2 ^ 32 * s * 10 ^ 18 + 2 ^ 32 * 128 * d < (t + 1) * d * 10 ^ 18

theorem floor_eq (k t : Nat) (hk : k ≤ 64) (h : ok k t = true) : ⌊2 ^ 32 * |Real.sin k|⌋₊ = t := by
  simp only [ok, Bool.and_eq_true, decide_eq_true_eq] at h
  obtain ⟨h1, h2⟩ := h
  have hc := sin_close k hk
  have hD : (0 : ℝ) < ((D.natAbs ^ k : ℕ) : ℝ) := by
    have : 0 < D.natAbs ^ k := Nat.pow_pos (by decide)
    exact_mod_cast this
  have hDD : ((D ^ k : ℤ) : ℝ) = ((D.natAbs ^ k : ℕ) : ℝ) := by
    have : (D : ℤ) = (D.natAbs : ℤ) := by decide
    rw [this]; push_cast; simp
  have ha : |((pw k).2 : ℝ) / ((D ^ k : ℤ) : ℝ)| = ((pw k).2.natAbs : ℝ) / ((D.natAbs ^ k : ℕ) : ℝ) := by
    rw [abs_div, hDD, abs_of_pos hD, Nat.cast_natAbs]
    push_cast; rfl
  have hb := abs_abs_sub_abs_le (Real.sin k) (((pw k).2 : ℝ) / ((D ^ k : ℤ) : ℝ))
  rw [ha] at hb
  have hb := le_trans hb hc
  rw [abs_le] at hb
  have h1' : ((t * D.natAbs ^ k * 10 ^ 18 + 2 ^ 32 * 128 * D.natAbs ^ k : ℕ) : ℝ) ≤
      ((2 ^ 32 * (pw k).2.natAbs * 10 ^ 18 : ℕ) : ℝ) := by exact_mod_cast h1
  have h2' : ((2 ^ 32 * (pw k).2.natAbs * 10 ^ 18 + 2 ^ 32 * 128 * D.natAbs ^ k : ℕ) : ℝ) <
      (((t + 1) * D.natAbs ^ k * 10 ^ 18 : ℕ) : ℝ) := by exact_mod_cast h2
  generalize hd : ((D.natAbs ^ k : ℕ) : ℝ) = d at *
  generalize ((pw k).2.natAbs) = s at *
  have hx : 0 ≤ 2 ^ 32 * |Real.sin k| := by positivity
  generalize |Real.sin k| = x at *
  have e : ((D.natAbs : ℕ) : ℝ) ^ k = d := by rw [← hd]; push_cast; rfl
  push_cast [e] at h1' h2'
  have q1 : (t : ℝ) ≤ 2 ^ 32 * ((s : ℝ) / d - 128 / 10 ^ 18) := by
    have : (t : ℝ) * d ≤ (2 ^ 32 * ((s : ℝ) / d - 128 / 10 ^ 18)) * d := by
      have : (2 ^ 32 * ((s : ℝ) / d - 128 / 10 ^ 18)) * d = 2 ^ 32 * (s - 128 / 10 ^ 18 * d) := by
        field_simp
      rw [this]; linarith
    exact le_of_mul_le_mul_right this hD
  have q2 : 2 ^ 32 * ((s : ℝ) / d + 128 / 10 ^ 18) < (t : ℝ) + 1 := by
    have : (2 ^ 32 * ((s : ℝ) / d + 128 / 10 ^ 18)) * d < ((t : ℝ) + 1) * d := by
      have : (2 ^ 32 * ((s : ℝ) / d + 128 / 10 ^ 18)) * d = 2 ^ 32 * (s + 128 / 10 ^ 18 * d) := by
        field_simp
      rw [this]; linarith
    exact lt_of_mul_lt_mul_right this hD.le
  rw [Nat.floor_eq_iff hx]
  constructor <;> linarith [hb.1, hb.2]

end C3.Hash.Sine
