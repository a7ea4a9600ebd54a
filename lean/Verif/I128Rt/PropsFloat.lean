import Verif.I128Rt.LemmasFix

/-! # C78, C79: conversions between 128-bit integers and floating point -/

set_option autoImplicit false

namespace C3.I128Rt

/-- **C78**, unsigned: `(double)a` and `(float)a` of a `uint128` are the
floating point numbers nearest to `a`, the even one of two equally near.  (A
number too large for `float` gets the exponent field 255 and the mantissa of a
power of two, the bits of infinity, as IEEE 754 asks.) -/
theorem C78_unsigned (a : Nat) (ha : a < 2 ^ 128) (h0 : a ≠ 0) :
    (∃ x m, floatFromU128 double a = some (binary64.encode false x m) ∧ Nearest binary64 a x m) ∧
    (∃ x m, floatFromU128 single a = some (binary32.encode false x m) ∧ Nearest binary32 a x m) := by
  constructor
  · unfold floatFromU128
    rw [if_neg h0]
    exact convert_nearest double binary64 double_good shr128 (2 ^ 128) (by omega) (by omega)
      shr128_right false a h0 ha
  · unfold floatFromU128
    rw [if_neg h0]
    exact convert_nearest single binary32 single_good shr128 (2 ^ 128) (by omega) (by omega)
      shr128_right false a h0 ha

theorem signed_aux (F : Fmt) (G : Ieee) (hF : F.Good G) (a : Nat) (ha : a < 2 ^ 128) (h0 : a ≠ 0)
    (hm : a ≠ 2 ^ 127) :
    ∃ x m, floatFromI128 F a = some (G.encode (decide (toInt a < 0)) x m) ∧
      Nearest G (toInt a).natAbs x m := by
  unfold floatFromI128
  rw [if_neg h0]
  simp only
  rcases sign_cases a ha with ⟨s1, s2, s3, s4⟩ | ⟨s1, s2, s3, s4⟩
  · rw [applySub a _ ha (Or.inl s1), s2, s1]
    have hneg : decide (toInt a < 0) = false := by simp [s3]
    have habs : (toInt a).natAbs = a := by omega
    rw [hneg, habs]
    exact convert_nearest F G hF sar128 (2 ^ 127) (by omega) (by omega)
      sar128_right false a h0 s4
  · rw [applySub a _ ha (Or.inr s1), s2, s1]
    have hneg : decide (toInt a < 0) = true := by
      rw [decide_eq_true_iff, s3]; omega
    have habs : (toInt a).natAbs = 2 ^ 128 - a := by omega
    rw [hneg, habs]
    exact convert_nearest F G hF sar128 (2 ^ 127) (by omega) (by omega)
      sar128_right true (2 ^ 128 - a) (by omega) (by omega)

/-- **C78**, signed, for every number but the smallest. -/
theorem C78_signed_partial (a : Nat) (ha : a < 2 ^ 128) (h0 : a ≠ 0) (hm : toInt a ≠ -2 ^ 127) :
    (∃ x m, floatFromI128 double a = some (binary64.encode (decide (toInt a < 0)) x m) ∧
      Nearest binary64 (toInt a).natAbs x m) ∧
    (∃ x m, floatFromI128 single a = some (binary32.encode (decide (toInt a < 0)) x m) ∧
      Nearest binary32 (toInt a).natAbs x m) := by
  have hm' : a ≠ 2 ^ 127 := by
    intro h
    apply hm
    unfold toInt
    rw [if_neg (by omega), h]; omega
  exact ⟨signed_aux _ _ double_good a ha h0 hm', signed_aux _ _ single_good a ha h0 hm'⟩

theorem C78_zero (F : Fmt) : floatFromU128 F 0 = some 0 ∧ floatFromI128 F 0 = some 0 := ⟨rfl, rfl⟩

/-- **C78** fails for the smallest `int128`, -2^127: it becomes -1.5 * 2^128.
-2^127 is a floating point number, and its encoding is what should come out. -/
theorem C78_signed_fails :
    toInt (2 ^ 127) = -2 ^ 127 ∧
    floatFromI128 double (2 ^ 127) = some (binary64.encode true (1023 + 128) (2 ^ 52 + 2 ^ 51)) ∧
    floatFromI128 double (2 ^ 127) ≠ some (binary64.encode true (1023 + 127) (2 ^ 52)) ∧
    floatFromI128 single (2 ^ 127) ≠ some (binary32.encode true (127 + 127) (2 ^ 23)) ∧
    2 ^ 52 * 2 ^ (1023 + 127) = 2 ^ 127 * 2 ^ binary64.offset := by
  decide +kernel

/-- 2^53 + 1 is halfway between two doubles and goes to the even one; 2^53 + 3
goes up. -/
example : floatFromU128 double (2 ^ 53 + 1) = some (binary64.encode false (1023 + 53) (2 ^ 52)) ∧
    floatFromU128 double (2 ^ 53 + 3) = some (binary64.encode false (1023 + 53) (2 ^ 52 + 2)) ∧
    floatFromI128 single (ofInt (-5)) = some (binary32.encode true (127 + 2) (5 * 2 ^ 21)) ∧
    floatFromU128 single (2 ^ 128 - 1) = some (255 * 2 ^ 23) := by decide +kernel

/-- **C79**, unsigned: the cast of a `double` or `float` to `uint128` is its
integer part; numbers too large give the largest `uint128` and negative ones 0.
The exponent field 0 of numbers below the smallest normal one and the field of
infinity are included. -/
theorem C79_unsigned (neg : Bool) (x m : Nat) :
    (x < 2 ^ 11 → 2 ^ 52 ≤ m → m < 2 ^ 53 → fixuint double (binary64.encode neg x m) =
      some (if neg then 0 else min (binary64.floor x m) (2 ^ 128 - 1))) ∧
    (x < 2 ^ 8 → 2 ^ 23 ≤ m → m < 2 ^ 24 → fixuint single (binary32.encode neg x m) =
      some (if neg then 0 else min (binary32.floor x m) (2 ^ 128 - 1))) :=
  ⟨fun h1 h2 h3 => fixuint_eq double binary64 double_good neg x m h1 h2 h3,
   fun h1 h2 h3 => fixuint_eq single binary32 single_good neg x m h1 h2 h3⟩

/-- The number a floating point number is rounded to toward zero. -/
def Ieee.trunc (G : Ieee) (neg : Bool) (x m : Nat) : Int :=
  if neg then -(G.floor x m : Int) else G.floor x m

theorem fixint_aux (F : Fmt) (G : Ieee) (hF : F.Good G) (neg : Bool) (x m : Nat)
    (hx : x < 2 ^ F.expBits) (h1 : 2 ^ G.sig ≤ m) (h2 : m < 2 ^ (G.sig + 1)) :
    ∃ r, fixint F (G.encode neg x m) = some r ∧
      (-2 ^ 127 ≤ G.trunc neg x m → G.trunc neg x m < 2 ^ 127 → toInt r = G.trunc neg x m) ∧
      (2 ^ 128 ≤ G.floor x m → toInt r = if neg then -2 ^ 127 else 2 ^ 127 - 1) ∧
      (2 ^ 127 ≤ G.floor x m → G.floor x m < 2 ^ 128 →
        toInt r = if neg ∧ G.floor x m ≠ 2 ^ 127 then 2 ^ 128 - (G.floor x m : Int)
          else (G.floor x m : Int) - 2 ^ 128) := by
  refine ⟨_, fixint_eq F G hF neg x m hx h1 h2, ?_⟩
  unfold Ieee.trunc
  generalize G.floor x m = v
  have hi : ∀ y, y < 2 ^ 127 → toInt y = y := fun y h => by unfold toInt; rw [if_pos h]
  have hj : ∀ y, 2 ^ 127 ≤ y → toInt y = (y : Int) - 2 ^ 128 := fun y h => by
    unfold toInt; rw [if_neg (by omega)]
  by_cases hv : 2 ^ 128 ≤ v
  · simp only [hv, if_true]
    cases neg with
    | true => simp only [if_true]; rw [hj _ (by omega)]; omega
    | false => simp only [Bool.false_eq_true, if_false]; rw [hi _ (by omega)]; omega
  · simp only [hv, if_false]
    cases neg with
    | true =>
      simp only [if_true, true_and]
      by_cases h3 : (2 ^ 128 - v) % 2 ^ 128 < 2 ^ 127
      · rw [hi _ h3]
        refine ⟨fun _ _ => by omega, fun h => h.elim, ?_⟩
        intro h4 h5
        rw [if_pos (by omega)]; omega
      · rw [hj _ (by omega)]
        refine ⟨fun _ _ => by omega, fun h => h.elim, ?_⟩
        intro h4 h5
        rw [if_neg (by omega)]; omega
    | false =>
      simp only [Bool.false_eq_true, if_false, false_and]
      by_cases h3 : v < 2 ^ 127
      · rw [hi _ h3]
        exact ⟨fun _ _ => by omega, fun h => h.elim, fun _ _ => by omega⟩
      · rw [hj _ (by omega)]
        exact ⟨fun _ _ => by omega, fun h => h.elim, fun _ _ => by omega⟩

/-- **C79**, signed: the cast of a `double` or `float` to `int128` is its integer
part whenever that is an `int128`, and numbers of magnitude 2^128 and more give
the largest or the smallest `int128`.  The numbers between 2^127 and 2^128 are
left out, see `C79_signed_fails`. -/
theorem C79_signed_partial (neg : Bool) (x m : Nat) :
    (x < 2 ^ 11 → 2 ^ 52 ≤ m → m < 2 ^ 53 → ∃ r, fixint double (binary64.encode neg x m) = some r ∧
      (-2 ^ 127 ≤ binary64.trunc neg x m → binary64.trunc neg x m < 2 ^ 127 →
        toInt r = binary64.trunc neg x m) ∧
      (2 ^ 128 ≤ binary64.floor x m → toInt r = if neg then -2 ^ 127 else 2 ^ 127 - 1)) ∧
    (x < 2 ^ 8 → 2 ^ 23 ≤ m → m < 2 ^ 24 → ∃ r, fixint single (binary32.encode neg x m) = some r ∧
      (-2 ^ 127 ≤ binary32.trunc neg x m → binary32.trunc neg x m < 2 ^ 127 →
        toInt r = binary32.trunc neg x m) ∧
      (2 ^ 128 ≤ binary32.floor x m → toInt r = if neg then -2 ^ 127 else 2 ^ 127 - 1)) := by
  constructor
  · intro h1 h2 h3
    obtain ⟨r, a, b, c, _⟩ := fixint_aux double binary64 double_good neg x m h1 h2 h3
    exact ⟨r, a, b, c⟩
  · intro h1 h2 h3
    obtain ⟨r, a, b, c, _⟩ := fixint_aux single binary32 single_good neg x m h1 h2 h3
    exact ⟨r, a, b, c⟩

/-- **C79** fails between 2^127 and 2^128: larger numbers are held at the ends
of `int128`, but these come out with the opposite sign. -/
theorem C79_signed_fails (neg : Bool) (x m : Nat) (h1 : x < 2 ^ 11) (h2 : 2 ^ 52 ≤ m)
    (h3 : m < 2 ^ 53) (h4 : 2 ^ 127 < binary64.floor x m) (h5 : binary64.floor x m < 2 ^ 128) :
    ∃ r, fixint double (binary64.encode neg x m) = some r ∧
      (neg = true → 0 < toInt r) ∧ (neg = false → toInt r < 0) := by
  obtain ⟨r, a, _, _, d⟩ := fixint_aux double binary64 double_good neg x m h1 h2 h3
  refine ⟨r, a, ?_, ?_⟩
  · intro h
    rw [d (by omega) h5, if_pos ⟨h, by omega⟩]; omega
  · intro h
    subst h
    rw [d (by omega) h5, if_neg (by simp)]; omega

example : fixint double (binary64.encode true (1023 + 3) (2 ^ 52 + 2 ^ 51)) = some (ofInt (-12)) ∧
    binary64.trunc true (1023 + 3) (2 ^ 52 + 2 ^ 51) = -12 ∧
    fixuint single (binary32.encode false (127 + 30) (2 ^ 23 + 1)) = some (2 ^ 30 + 2 ^ 7) ∧
    2 ^ 127 < binary64.floor (1023 + 127) (2 ^ 52 + 1) ∧
    binary64.floor (1023 + 127) (2 ^ 52 + 1) < 2 ^ 128 := by decide +kernel

end C3.I128Rt
