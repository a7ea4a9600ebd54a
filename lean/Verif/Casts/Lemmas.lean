import Verif.Casts.Spec
import Verif.Bigint.Props
import Mathlib.Data.Int.ModEq
import Mathlib.Data.Int.Bitwise

set_option autoImplicit false

namespace C3.Casts
open C3.Bigint

@[simp] theorem bitsize_eq (t : TypeKind) : type_kind_bitsize t = t.bits := by cases t <;> rfl
@[simp] theorem is_signed_eq (t : TypeKind) : type_kind_is_signed t = t.signed := by cases t <;> rfl

theorem bits_pos (t : TypeKind) : 8 ≤ t.bits := by cases t <;> decide

theorem size_le (s t : TypeKind) : type_size s ≤ type_size t ↔ s.bits ≤ t.bits := by
  cases s <;> cases t <;> decide

theorem size_eq (s t : TypeKind) : type_size s = type_size t ↔ s.bits = t.bits := by
  cases s <;> cases t <;> decide

/-! ## Registers -/

theorem reg_eq (t : TypeKind) (x : Int) : reg t x =
    if t.signed then (BitVec.ofInt t.bits x).toInt else ((BitVec.ofInt t.bits x).toNat : Int) := by
  cases t <;> rfl

theorem reg_modEq (t : TypeKind) (x : Int) : reg t x ≡ x [ZMOD 2 ^ t.bits] := by
  rw [reg_eq]
  unfold Int.ModEq
  split
  · rw [BitVec.toInt_ofInt]
    have := Int.bmod_emod (m := 2 ^ t.bits) (x := x)
    simpa using this
  · rw [BitVec.toNat_ofInt, Int.toNat_of_nonneg (Int.emod_nonneg _ (by positivity))]
    push_cast
    rw [Int.emod_emod]

theorem reg_inRange (t : TypeKind) (x : Int) : t.InRange (reg t x) := by
  rw [reg_eq]
  unfold TypeKind.InRange TypeKind.minVal TypeKind.maxVal
  split
  · have h1 := BitVec.le_toInt (BitVec.ofInt t.bits x)
    have h2 := BitVec.toInt_lt (x := BitVec.ofInt t.bits x)
    constructor <;> omega
  · have h2 := (BitVec.ofInt t.bits x).isLt
    have h3 : (((BitVec.ofInt t.bits x).toNat : Nat) : Int) < (2 : Int) ^ t.bits := by exact_mod_cast h2
    constructor <;> omega

theorem wraps_iff_modEq (t : TypeKind) (x r : Int) :
    Wraps t x r ↔ t.InRange r ∧ x ≡ r [ZMOD 2 ^ t.bits] := by
  unfold Wraps
  rw [Int.modEq_iff_dvd]

theorem reg_wraps (t : TypeKind) (x : Int) : Wraps t x (reg t x) :=
  (wraps_iff_modEq t x _).2 ⟨reg_inRange t x, (reg_modEq t x).symm⟩

theorem wraps_self {t : TypeKind} {x : Int} (h : t.InRange x) : Wraps t x x :=
  (wraps_iff_modEq t x x).2 ⟨h, Int.ModEq.refl x⟩

theorem reg_of_wraps {t : TypeKind} {x r : Int} (h : Wraps t x r) : reg t x = r :=
  (reg_wraps t x).unique h

theorem reg_self {t : TypeKind} {x : Int} (h : t.InRange x) : reg t x = x :=
  reg_of_wraps (wraps_self h)

theorem reg_eq_iff {t : TypeKind} {x : Int} : reg t x = x ↔ t.InRange x :=
  ⟨fun h => h ▸ reg_inRange t x, reg_self⟩

theorem eval_lit (env : Env) (c : CInt) (hc : c.WF) : eval env (.lit c) = some c.val := by
  have hu : ((c.i.high.toNat * 2 ^ 64 + c.i.low.toNat : Nat) : Int) = (c.i.u : Int) := rfl
  simp only [eval]
  rw [hu]
  congr 1
  apply reg_of_wraps
  rw [wraps_iff_modEq]
  refine ⟨hc, ?_⟩
  unfold CInt.val
  split
  · unfold Int128.s
    split
    · exact Int.ModEq.refl _
    · rw [Int.modEq_iff_dvd]
      have : ((2:Int) ^ c.type.bits) ∣ 2 ^ 128 := pow_dvd_pow 2 (by cases c.type <;> decide)
      have h : (c.i.u : Int) - 2 ^ 128 - c.i.u = -(2 ^ 128) := by ring
      rw [h]
      exact Int.dvd_neg.2 this
  · exact Int.ModEq.refl _

/-! ## Bitwise operators respect congruence modulo a power of two -/

theorem modEq_bit_iff (w : Nat) (x y : Int) :
    x ≡ y [ZMOD 2 ^ (w + 1)] ↔ Int.bodd x = Int.bodd y ∧ Int.div2 x ≡ Int.div2 y [ZMOD 2 ^ w] := by
  have hx := Int.bodd_add_div2 x
  have hy := Int.bodd_add_div2 y
  rw [Int.modEq_iff_dvd, Int.modEq_iff_dvd, pow_succ]
  generalize hdx : Int.div2 x = a at *
  generalize hdy : Int.div2 y = b at *
  generalize hbx : Int.bodd x = p at *
  generalize hby : Int.bodd y = q at *
  constructor
  · intro h
    obtain ⟨k, hk⟩ := h
    have hpq : p = q := by
      have h2 : ((2 : Int) ^ w * 2 * k) = 2 * (2 ^ w * k) := by ring
      rw [h2] at hk
      generalize (2 : Int) ^ w * k = m at hk
      cases p <;> cases q <;> simp_all <;> omega
    subst hpq
    refine ⟨rfl, k, ?_⟩
    have h2 : ((2 : Int) ^ w * 2 * k) = 2 * (2 ^ w * k) := by ring
    rw [h2] at hk
    generalize (2 : Int) ^ w * k = m at hk ⊢
    omega
  · rintro ⟨hpq, k, hk⟩
    subst hpq
    refine ⟨k, ?_⟩
    have h2 : ((2 : Int) ^ w * 2 * k) = 2 * (2 ^ w * k) := by ring
    rw [h2]
    generalize (2 : Int) ^ w * k = m at hk ⊢
    omega

theorem div2_bit' (b : Bool) (n : Int) : Int.div2 (Int.bit b n) = n := by
  rw [Int.div2_val, Int.bit_val]; cases b <;> (simp; try omega)

theorem bitwise_congr (f : Int → Int → Int) (g : Bool → Bool → Bool)
    (hf : ∀ a m b n, f (Int.bit a m) (Int.bit b n) = Int.bit (g a b) (f m n)) (w : Nat) :
    ∀ x x' y y' : Int, x ≡ x' [ZMOD 2 ^ w] → y ≡ y' [ZMOD 2 ^ w] → f x y ≡ f x' y' [ZMOD 2 ^ w] := by
  induction w with
  | zero => intro x x' y y' _ _; exact Int.modEq_one
  | succ w ih =>
    intro x x' y y' hx hy
    rw [modEq_bit_iff] at hx hy
    have e1 := hf (Int.bodd x) (Int.div2 x) (Int.bodd y) (Int.div2 y)
    have e2 := hf (Int.bodd x') (Int.div2 x') (Int.bodd y') (Int.div2 y')
    simp only [Int.bit_decomp] at e1 e2
    rw [e1, e2, modEq_bit_iff]
    simp only [Int.bodd_bit, div2_bit']
    exact ⟨by rw [hx.1, hy.1], ih _ _ _ _ hx.2 hy.2⟩

theorem land_congr {w : Nat} {x x' y y' : Int} (hx : x ≡ x' [ZMOD 2 ^ w]) (hy : y ≡ y' [ZMOD 2 ^ w]) :
    Int.land x y ≡ Int.land x' y' [ZMOD 2 ^ w] :=
  bitwise_congr Int.land (· && ·) Int.land_bit w _ _ _ _ hx hy
theorem lor_congr {w : Nat} {x x' y y' : Int} (hx : x ≡ x' [ZMOD 2 ^ w]) (hy : y ≡ y' [ZMOD 2 ^ w]) :
    Int.lor x y ≡ Int.lor x' y' [ZMOD 2 ^ w] :=
  bitwise_congr Int.lor (· || ·) Int.lor_bit w _ _ _ _ hx hy
theorem xor_congr {w : Nat} {x x' y y' : Int} (hx : x ≡ x' [ZMOD 2 ^ w]) (hy : y ≡ y' [ZMOD 2 ^ w]) :
    Int.xor x y ≡ Int.xor x' y' [ZMOD 2 ^ w] :=
  bitwise_congr Int.xor xor Int.lxor_bit w _ _ _ _ hx hy

end C3.Casts
