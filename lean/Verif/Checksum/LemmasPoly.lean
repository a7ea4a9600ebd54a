import Verif.Checksum.Spec

/-! # Bits as polynomials -/

set_option autoImplicit false

namespace C3.Checksum

open Polynomial

/-- A word of bits and the next bits behind it. -/
theorem poly_append (a b : List Bool) : poly (a ++ b) = X ^ b.length * poly a + poly b := by
  induction a with
  | nil => simp [poly]
  | cons x l ih =>
    simp only [List.cons_append, poly, ih, List.length_append]
    split
    · ring
    · ring

theorem poly_false (n : Nat) : poly (List.replicate n false) = 0 := by
  induction n with
  | zero => rfl
  | succ n ih => simp [List.replicate_succ, poly, ih]

theorem poly_pad (a : List Bool) (n : Nat) :
    poly (a ++ List.replicate n false) = X ^ n * poly a := by
  rw [poly_append, poly_false]; simp

theorem two_zero (p : (ZMod 2)[X]) : p + p = 0 := CharTwo.add_self_eq_zero p

theorem poly_xor : ∀ (a b : List Bool), a.length = b.length →
    poly (List.zipWith xor a b) = poly a + poly b
  | [], [], _ => by simp [poly]
  | x :: a, y :: b, h => by
    have hl : a.length = b.length := by simpa using h
    have h2 := two_zero (X ^ b.length)
    simp only [List.zipWith_cons_cons, poly, poly_xor a b hl, List.length_zipWith, hl, Nat.min_self]
    cases x <;> cases y <;> simp
    · ring
    · ring
    · linear_combination -h2

theorem poly_degree (a : List Bool) : (poly a).degree < a.length := by
  induction a with
  | nil => simp [poly]
  | cons b l ih =>
    rw [poly]
    refine lt_of_le_of_lt (degree_add_le _ _) ?_
    rw [max_lt_iff]
    constructor
    · split
      · rw [degree_X_pow, List.length_cons]
        exact_mod_cast Nat.lt_succ_self _
      · rw [degree_zero]; exact WithBot.bot_lt_coe _
    · refine lt_trans ih ?_
      rw [List.length_cons]
      exact_mod_cast Nat.lt_succ_self _

theorem poly_inj : ∀ (a b : List Bool), a.length = b.length → poly a = poly b → a = b
  | [], [], _, _ => rfl
  | x :: a, y :: b, h, e => by
    have hl : a.length = b.length := by simpa using h
    have hc := congrArg (fun p => coeff p a.length) e
    have ha : coeff (poly a) a.length = 0 := coeff_eq_zero_of_degree_lt (poly_degree a)
    have hb : coeff (poly b) a.length = 0 := by
      rw [hl]; exact coeff_eq_zero_of_degree_lt (poly_degree b)
    simp only [poly, coeff_add, ha, hb, add_zero] at hc
    have hxy : x = y := by
      cases x <;> cases y <;> simp_all
    subst hxy
    have := poly_inj a b hl (by
      simp only [poly, hl] at e
      exact add_left_cancel e)
    rw [this]

/-! ## Words -/

theorem bitsUp_length {w : Nat} (x : BitVec w) : (bitsUp x).length = w := by simp [bitsUp]
theorem bitsDown_length {w : Nat} (x : BitVec w) : (bitsDown x).length = w := by simp [bitsDown]

theorem bitsUp_get {w : Nat} (x : BitVec w) (i : Nat) (h : i < (bitsUp x).length) :
    (bitsUp x)[i] = x.getLsbD i := by simp [bitsUp]

theorem bitsDown_get {w : Nat} (x : BitVec w) (i : Nat) (h : i < (bitsDown x).length) :
    (bitsDown x)[i] = x.getLsbD (w - 1 - i) := by simp [bitsDown]

theorem bitsUp_xor {w : Nat} (x y : BitVec w) :
    bitsUp (x ^^^ y) = List.zipWith xor (bitsUp x) (bitsUp y) := by
  apply List.ext_getElem
  · simp [bitsUp]
  · intro i h1 h2
    simp [bitsUp, BitVec.getLsbD_xor]

theorem bitsDown_xor {w : Nat} (x y : BitVec w) :
    bitsDown (x ^^^ y) = List.zipWith xor (bitsDown x) (bitsDown y) := by
  apply List.ext_getElem
  · simp [bitsDown]
  · intro i h1 h2
    simp [bitsDown, BitVec.getLsbD_xor]

theorem up_xor {w : Nat} (x y : BitVec w) :
    poly (bitsUp (x ^^^ y)) = poly (bitsUp x) + poly (bitsUp y) := by
  rw [bitsUp_xor, poly_xor]; simp [bitsUp]

theorem down_xor {w : Nat} (x y : BitVec w) :
    poly (bitsDown (x ^^^ y)) = poly (bitsDown x) + poly (bitsDown y) := by
  rw [bitsDown_xor, poly_xor]; simp [bitsDown]

/-- Shifting the low bits out. -/
theorem bitsUp_shift {w k : Nat} (h : k ≤ w) (x : BitVec w) :
    bitsUp (x >>> k) = (bitsUp x).drop k ++ List.replicate k false := by
  apply List.ext_getElem
  · simp [bitsUp]; omega
  · intro i h1 h2
    have h1' : i < w := by simpa [bitsUp] using h1
    rw [bitsUp_get, BitVec.getLsbD_ushiftRight]
    by_cases hi : i < w - k
    · rw [List.getElem_append_left (by simp [bitsUp]; omega), List.getElem_drop, bitsUp_get]
    · rw [List.getElem_append_right (by simp [bitsUp]; omega), List.getElem_replicate]
      exact BitVec.getLsbD_of_ge _ _ (by omega)

theorem bitsDown_shift {w k : Nat} (h : k ≤ w) (x : BitVec w) :
    bitsDown (x <<< k) = (bitsDown x).drop k ++ List.replicate k false := by
  apply List.ext_getElem
  · simp [bitsDown]; omega
  · intro i h1 h2
    have h1' : i < w := by simpa [bitsDown] using h1
    rw [bitsDown_get, BitVec.getLsbD_shiftLeft]
    by_cases hi : i < w - k
    · rw [List.getElem_append_left (by simp [bitsDown]; omega), List.getElem_drop, bitsDown_get]
      have e : w - 1 - i - k = w - 1 - (k + i) := by omega
      have h3 : w - 1 - i < w := by omega
      have h4 : ¬ (w - 1 - i < k) := by omega
      simp [e, h3, h4]
    · rw [List.getElem_append_right (by simp [bitsDown]; omega), List.getElem_replicate]
      have h4 : w - 1 - i < k := by omega
      simp [h4]

theorem bitsUp_inj {w : Nat} (x y : BitVec w) (h : bitsUp x = bitsUp y) : x = y := by
  apply BitVec.eq_of_getLsbD_eq
  intro i hi
  have h1 := bitsUp_get x i (by simpa [bitsUp] using hi)
  have h2 := bitsUp_get y i (by simpa [bitsUp] using hi)
  simp only [h] at h1
  rw [← h1, h2]

theorem bitsDown_inj {w : Nat} (x y : BitVec w) (h : bitsDown x = bitsDown y) : x = y := by
  apply BitVec.eq_of_getLsbD_eq
  intro i hi
  have h1 := bitsDown_get x (w - 1 - i) (by simp [bitsDown]; omega)
  have h2 := bitsDown_get y (w - 1 - i) (by simp [bitsDown]; omega)
  simp only [h] at h1
  have e : w - 1 - (w - 1 - i) = i := by omega
  rw [e] at h1 h2
  rw [← h1, h2]

theorem flat_inj {f : BitVec 8 → List Bool} (hl : ∀ c, (f c).length = 8)
    (hf : ∀ a b, f a = f b → a = b) :
    ∀ (a b : List (BitVec 8)), a.length = b.length → a.flatMap f = b.flatMap f → a = b
  | [], [], _, _ => rfl
  | x :: a, y :: b, h, e => by
    simp only [List.flatMap_cons] at e
    have := List.append_inj e (by rw [hl, hl])
    rw [hf x y this.1, flat_inj hl hf a b (by simpa using h) this.2]

theorem flat_length {f : BitVec 8 → List Bool} (hl : ∀ c, (f c).length = 8) (a : List (BitVec 8)) :
    (a.flatMap f).length = 8 * a.length := by
  induction a with
  | nil => rfl
  | cons x a ih => simp [List.flatMap_cons, ih, hl]; omega

/-! ## Division -/

/-- What a step of a check has to do: `s'` is `s` with eight more bits of the message. -/
theorem crc_fold {w : Nat} (G : (ZMod 2)[X]) (P : BitVec w → (ZMod 2)[X])
    (M : BitVec 8 → List Bool) (hM : ∀ c, (M c).length = 8)
    (step : BitVec w → BitVec 8 → BitVec w)
    (h : ∀ s c, G ∣ P (step s c) - (X ^ 8 * P s + X ^ w * poly (M c)))
    (data : List (BitVec 8)) (s : BitVec w) :
    G ∣ P (data.foldl step s) - (X ^ (8 * data.length) * P s + X ^ w * poly (data.flatMap M)) := by
  induction data generalizing s with
  | nil => simp [poly]
  | cons c data ih =>
    obtain ⟨q1, h1⟩ := ih (step s c)
    obtain ⟨q2, h2⟩ := h s c
    refine ⟨q1 + X ^ (8 * data.length) * q2, ?_⟩
    rw [List.foldl_cons, List.flatMap_cons, poly_append, flat_length hM, List.length_cons]
    have e : 8 * (data.length + 1) = 8 * data.length + 8 := by omega
    rw [e, pow_add]
    linear_combination h1 + X ^ (8 * data.length) * h2

theorem mod_of_dvd {G p f : (ZMod 2)[X]} (hG : G.Monic) (hd : p.degree < G.degree)
    (h : G ∣ p - f) : p = f %ₘ G := by
  obtain ⟨q, hq⟩ := h
  have := (div_modByMonic_unique (f := f) (g := G) (-q) p hG ⟨by linear_combination hq, hd⟩).2
  exact this.symm

/-- Nothing shorter than the generator is a multiple of it, however far it is shifted. -/
theorem small_multiple {G e : (ZMod 2)[X]} {n : Nat} (hc : G.coeff 0 = 1)
    (hd : e.degree < G.degree) (h : G ∣ X ^ n * e) : e = 0 := by
  have hcop : IsCoprime G (X : (ZMod 2)[X]) := by
    refine ⟨1, -G.divX, ?_⟩
    have := G.divX_mul_X_add
    rw [hc] at this
    simp only [map_one] at this
    linear_combination -this
  have h1 : G ∣ e := (hcop.pow_right (n := n)).dvd_of_dvd_mul_left h
  have : NoZeroDivisors (ZMod 2) := ⟨fun {a b} => by revert a b; decide⟩
  exact eq_zero_of_dvd_of_degree_lt h1 hd

end C3.Checksum
