import Verif.Hash.Spec

set_option autoImplicit false

namespace C3.Hash

theorem rotr_eq (x : Word) (n : Nat) (h : n < 32) :
    (x >>> n) ||| (x <<< (32 - n)) = x.rotateRight n := by
  rw [BitVec.rotateRight_eq_rotateRightAux_of_lt h]
  rfl

theorem rotl_eq (x : Word) (n : Nat) (h : n < 32) :
    (x <<< n) ||| (x >>> (32 - n)) = x.rotateLeft n := by
  rw [BitVec.rotateLeft_eq_rotateLeftAux_of_lt h]
  rfl

/-- Four bytes as a word. -/
theorem word_eq (a b c d : Byte) :
    ((a.zeroExtend 32 <<< 24) ||| (b.zeroExtend 32 <<< 16) ||| (c.zeroExtend 32 <<< 8) |||
      d.zeroExtend 32 : Word) = a ++ b ++ c ++ d := by
  apply BitVec.eq_of_toNat_eq
  have ha := a.isLt
  have hb := b.isLt
  have hc := c.isLt
  have hd := d.isLt
  have e : ∀ (x : Byte) (k : Nat), k ≤ 24 → (x.zeroExtend 32 <<< k : Word).toNat = x.toNat <<< k := by
    intro x k hk
    have hx := x.isLt
    rw [BitVec.toNat_shiftLeft, BitVec.toNat_setWidth, Nat.mod_eq_of_lt (a := x.toNat) (by omega),
      Nat.mod_eq_of_lt]
    rw [Nat.shiftLeft_eq]
    calc x.toNat * 2 ^ k < 2 ^ 8 * 2 ^ k := Nat.mul_lt_mul_of_pos_right hx (Nat.two_pow_pos k)
      _ = 2 ^ (8 + k) := by rw [Nat.pow_add]
      _ ≤ 2 ^ 32 := Nat.pow_le_pow_right (by omega) (by omega)
  have e0 : (d.zeroExtend 32 : Word).toNat = d.toNat := by
    rw [BitVec.toNat_setWidth, Nat.mod_eq_of_lt (by omega)]
  simp only [BitVec.toNat_or, BitVec.toNat_append, e a 24 (by omega), e b 16 (by omega),
    e c 8 (by omega), e0, Nat.shiftLeft_or_distrib, ← Nat.shiftLeft_add]

theorem byte_eq (w : Word) (k : Nat) : ((w >>> k).truncate 8 : Byte) = w.extractLsb' k 8 := by
  apply BitVec.eq_of_toNat_eq
  simp [BitVec.extractLsb'_toNat]

end C3.Hash
