import Verif.Bigint.Spec

/-! Helper lemmas: every `Int128` operation against `BitVec 128` / `Nat` / `Int`. -/

namespace C3.Bigint

/-- The 128 bits. -/
def Int128.bv (x : Int128) : BitVec 128 := x.high ++ x.low

theorem Int128.bv_toNat (x : Int128) : x.bv.toNat = x.u := by
  unfold Int128.bv Int128.u
  have h : x.high.toNat <<< 64 ||| x.low.toNat = x.high.toNat * 2 ^ 64 + x.low.toNat := by
    rw [Nat.mul_comm, Nat.two_pow_add_eq_or_of_lt x.low.isLt, Nat.shiftLeft_eq, Nat.mul_comm]
  rw [← h]
  exact BitVec.toNat_append x.high x.low

theorem Int128.u_lt (x : Int128) : x.u < 2 ^ 128 := by
  have := x.high.isLt
  have := x.low.isLt
  unfold Int128.u
  omega

theorem Int128.bv_toInt (x : Int128) : x.bv.toInt = x.s := by
  rw [BitVec.toInt_eq_toNat_cond, x.bv_toNat]
  unfold Int128.s
  have := x.u_lt
  split <;> split <;> first | rfl | omega 

theorem u_inj {x y : Int128} (h : x.u = y.u) : x = y := by
  have := x.high.isLt; have := x.low.isLt
  have := y.high.isLt; have := y.low.isLt
  unfold Int128.u at h
  have h1 : x.high = y.high := BitVec.eq_of_toNat_eq (by omega)
  have h2 : x.low = y.low := BitVec.eq_of_toNat_eq (by omega)
  cases x; cases y; simp_all

theorem one_toNat : (1 : BitVec 64).toNat = 1 := rfl

theorem u_add (a b : Int128) : (i128_add a b).u = (a.u + b.u) % 2 ^ 128 := by
  have := a.high.isLt; have := a.low.isLt
  have := b.high.isLt; have := b.low.isLt
  unfold i128_add Int128.u
  simp only [BitVec.lt_def, BitVec.toNat_add]
  split <;> (try simp only [BitVec.toNat_add, one_toNat]) <;> omega

theorem u_add64 (a : Int128) (b : BitVec 64) : (i128_add64 a b).u = (a.u + b.toNat) % 2 ^ 128 := by
  have := a.high.isLt; have := a.low.isLt
  have := b.isLt
  unfold i128_add64 Int128.u
  simp only [BitVec.lt_def, BitVec.toNat_add]
  split <;> (try simp only [BitVec.toNat_add, one_toNat]) <;> omega

theorem u_sub (a b : Int128) : (i128_sub a b).u = (a.u + (2 ^ 128 - b.u)) % 2 ^ 128 := by
  have := a.high.isLt; have := a.low.isLt
  have := b.high.isLt; have := b.low.isLt
  unfold i128_sub Int128.u
  simp only [GT.gt, BitVec.lt_def, BitVec.toNat_sub]
  split <;> (try simp only [BitVec.toNat_sub, one_toNat]) <;> omega

theorem u_sub64 (a : Int128) (b : BitVec 64) :
    (i128_sub64 a b).u = (a.u + (2 ^ 128 - b.toNat)) % 2 ^ 128 := by
  have := a.high.isLt; have := a.low.isLt
  have := b.isLt
  unfold i128_sub64 Int128.u
  simp only [GT.gt, BitVec.lt_def, BitVec.toNat_sub]
  split <;> (try simp only [BitVec.toNat_sub, one_toNat]) <;> omega

theorem u_not (a : Int128) : (i128_not a).u = 2 ^ 128 - 1 - a.u := by
  have := a.high.isLt; have := a.low.isLt
  unfold i128_not Int128.u
  simp only [BitVec.toNat_not]; omega

theorem u_neg (a : Int128) : (i128_neg a).u = (2 ^ 128 - a.u) % 2 ^ 128 := by
  unfold i128_neg
  have := a.u_lt
  split
  · rename_i h
    have : a.u = 0 := by unfold Int128.u; simp [h.1, h.2]
    omega
  · rename_i h
    rw [u_add64, u_not]
    have : a.u ≠ 0 := by
      intro h0
      apply h
      unfold Int128.u at h0
      constructor <;> apply BitVec.eq_of_toNat_eq <;> simp <;> omega
    simp; omega

theorem bv_and (a b : Int128) : (i128_and a b).bv = a.bv &&& b.bv := by
  exact BitVec.and_append.symm

theorem bv_or (a b : Int128) : (i128_or a b).bv = a.bv ||| b.bv := by
  exact BitVec.or_append.symm

theorem bv_xor (a b : Int128) : (i128_xor a b).bv = a.bv ^^^ b.bv := by
  exact BitVec.xor_append.symm

end C3.Bigint
