import Verif.Range.Spec

set_option autoImplicit false

namespace C3.Range

theorem lt_iff (sgn : Bool) {w : Nat} (a b : BitVec w) : lt sgn a b = true ↔ val sgn a < val sgn b := by
  cases sgn with
  | true => simp [lt, val, BitVec.slt]
  | false => simp [lt, val, BitVec.ult]

theorem not_lt_iff (sgn : Bool) {w : Nat} (a b : BitVec w) : (!lt sgn a b) = true ↔ val sgn b ≤ val sgn a := by
  have := lt_iff sgn a b
  cases h : lt sgn a b with
  | true => rw [h] at this; simp only [true_iff] at this; simp only [Bool.not_true, Bool.false_eq_true, false_iff]; omega
  | false => rw [h] at this; simp only [Bool.false_eq_true, false_iff] at this; simp only [Bool.not_false, true_iff]; omega

/-- The sum with an index, if it is not above a value of the type. -/
theorem val_add (sgn : Bool) {w : Nat} (hw : 0 < w) (a b : BitVec w) (n : Nat) (h : val sgn a + n ≤ val sgn b) :
    val sgn (a + BitVec.ofNat w n) = val sgn a + n := by
  cases sgn with
  | true =>
    simp only [val, if_true] at h ⊢
    have h1 := BitVec.le_toInt a
    have h2 := BitVec.toInt_lt (x := b)
    rw [BitVec.toInt_add, BitVec.toInt_ofNat', Int.add_bmod_bmod]
    have hp : (2 : Int) ^ w = 2 ^ (w - 1) * 2 := by
      conv => lhs; rw [show w = w - 1 + 1 by omega]
      rw [Int.pow_succ]
    apply Int.bmod_eq_of_le
    · push_cast; rw [hp]; omega
    · push_cast; rw [hp]; omega
  | false =>
    simp only [val, Bool.false_eq_true, if_false] at h ⊢
    have h2 := b.isLt
    have hn : n < 2 ^ w := by omega
    rw [BitVec.toNat_add, BitVec.toNat_ofNat, Nat.mod_eq_of_lt hn, Nat.mod_eq_of_lt (by omega)]
    push_cast; rfl

theorem val_inj (sgn : Bool) {w : Nat} (a b : BitVec w) (h : val sgn a = val sgn b) : a = b := by
  cases sgn with
  | true => exact BitVec.eq_of_toInt_eq (by simpa [val] using h)
  | false =>
    simp only [val, Bool.false_eq_true, if_false] at h
    exact BitVec.eq_of_toNat_eq (by omega)

theorem get_eq {w : Nat} (r : Range w) (i : BitVec 64) : get r i = r.start + BitVec.ofNat w i.toNat := by
  unfold get
  congr 1
  exact BitVec.eq_of_toNat_eq (by simp)

theorem pow_split {w : Nat} (hw : 0 < w) : (2 : Int) ^ w = 2 ^ (w - 1) * 2 := by
  conv => lhs; rw [show w = w - 1 + 1 by omega]
  rw [Int.pow_succ]

/-- The difference as a `usz`. -/
theorem cast_sub (sgn : Bool) {w : Nat} (hw : 0 < w) (hw' : w ≤ 64) (r : Range w) (hle : val sgn r.start ≤ val sgn r.stop)
    (hf : Fits sgn r) : ((cast sgn (r.stop - r.start)).toNat : Int) = val sgn r.stop - val sgn r.start := by
  cases sgn with
  | true =>
    simp only [Fits, val, if_true, cast, forall_const] at hle hf ⊢
    have hp := pow_split hw
    have h1 := BitVec.le_toInt r.start
    have h2 := BitVec.toInt_lt (x := r.stop)
    by_cases h64 : w = 64
    · subst h64
      rw [BitVec.signExtend_eq]
      have e := BitVec.toInt_sub (x := r.stop) (y := r.start)
      have hm := BitVec.toInt_eq_toNat_cond (r.stop - r.start)
      have hlt := (r.stop - r.start).isLt
      have hb : ((r.stop - r.start).toNat : Int) % 2 ^ 64 = (r.stop.toInt - r.start.toInt) % 2 ^ 64 := by
        have := congrArg (fun x => x % (2 : Int) ^ 64) e
        rw [show ((r.stop.toInt - r.start.toInt).bmod (2 ^ 64)) % (2 : Int) ^ 64 = (r.stop.toInt - r.start.toInt) % 2 ^ 64 from
          Int.bmod_emod] at this
        rw [← this, hm]
        split <;> omega
      rw [Int.emod_eq_of_lt (by omega) (by omega), Int.emod_eq_of_lt (by omega) (by omega)] at hb
      exact hb
    · have hf := hf (by omega)
      have e : (r.stop - r.start).toInt = r.stop.toInt - r.start.toInt := by
        rw [BitVec.toInt_sub]
        apply Int.bmod_eq_of_le
        · push_cast; rw [hp]; omega
        · push_cast; rw [hp]; omega
      have e2 : ((r.stop - r.start).signExtend 64).toInt = r.stop.toInt - r.start.toInt := by
        rw [BitVec.toInt_signExtend_of_le hw', e]
      rw [← e2]
      have hm := BitVec.toInt_eq_toNat_cond ((r.stop - r.start).signExtend 64)
      have hlt := ((r.stop - r.start).signExtend 64).isLt
      split at hm <;> omega
  | false =>
    simp only [val, Bool.false_eq_true, if_false, cast] at hle ⊢
    have h1 := r.stop.isLt
    have h2 := r.start.isLt
    have h3 : 2 ^ w ≤ 2 ^ 64 := Nat.pow_le_pow_right (by decide) hw'
    rw [BitVec.toNat_setWidth, BitVec.toNat_sub_of_le (by rw [BitVec.le_def]; omega), Nat.mod_eq_of_lt (by omega)]
    omega

/-- The difference as a `usz` if it is not one of the type. -/
theorem cast_sub_overflow {w : Nat} (hw : 0 < w) (hw' : w < 64) (r : Range w)
    (hf : 2 ^ (w - 1) ≤ val true r.stop - val true r.start) :
    ((cast true (r.stop - r.start)).toNat : Int) = 2 ^ 64 - 2 ^ w + (val true r.stop - val true r.start) := by
  simp only [val, if_true, cast] at hf ⊢
  have hp := pow_split hw
  have h1 := BitVec.le_toInt r.start
  have h2 := BitVec.toInt_lt (x := r.stop)
  have e : (r.stop - r.start).toInt = r.stop.toInt - r.start.toInt - 2 ^ w := by
    rw [BitVec.toInt_sub, ← Int.sub_bmod_right]
    push_cast
    apply Int.bmod_eq_of_le
    · push_cast; rw [hp]; omega
    · push_cast; rw [hp]; omega
  have e2 : ((r.stop - r.start).signExtend 64).toInt = r.stop.toInt - r.start.toInt - 2 ^ w := by
    rw [BitVec.toInt_signExtend_of_le (by omega), e]
  have hm := BitVec.toInt_eq_toNat_cond ((r.stop - r.start).signExtend 64)
  have hlt := ((r.stop - r.start).signExtend 64).isLt
  split at hm <;> omega

/-- An index of which `len` values exist. -/
theorem enumerates (sgn : Bool) {w : Nat} (hw : 0 < w) (r : Range w) (n : BitVec 64) (c : BitVec w → Bool)
    (hle : 0 < n.toNat → val sgn r.start + (n.toNat - 1 : Nat) ≤ val sgn r.stop)
    (hc : ∀ v, c v = true ↔ val sgn r.start ≤ val sgn v ∧ val sgn v < val sgn r.start + n.toNat) :
    Enumerates n (get r) c := by
  have hg : ∀ i : BitVec 64, i.toNat < n.toNat → val sgn (get r i) = val sgn r.start + i.toNat := by
    intro i hi
    rw [get_eq]
    have := hle (by omega)
    exact val_add sgn hw _ r.stop _ (by omega)
  refine ⟨fun i hi => (hc _).2 (by rw [hg i hi]; omega), fun i j hi hj e => ?_, fun v hv => ?_⟩
  · have := congrArg (val sgn) e
    rw [hg i hi, hg j hj] at this
    exact BitVec.eq_of_toNat_eq (by omega)
  · obtain ⟨h1, h2⟩ := (hc v).1 hv
    have hn := n.isLt
    have e : (BitVec.ofNat 64 (val sgn v - val sgn r.start).toNat).toNat = (val sgn v - val sgn r.start).toNat := by
      rw [BitVec.toNat_ofNat, Nat.mod_eq_of_lt (by omega)]
    have hi : (BitVec.ofNat 64 (val sgn v - val sgn r.start).toNat).toNat < n.toNat := by omega
    exact ⟨_, hi, val_inj sgn _ _ (by rw [hg _ hi, e]; omega)⟩

/-- More indices than values of the type. -/
theorem not_enumerates {w : Nat} (hw' : w < 64) (r : Range w) (n : BitVec 64) (c : BitVec w → Bool)
    (h : 2 ^ w < n.toNat) : ¬ Enumerates n (get r) c := by
  intro he
  have hlt : 2 ^ w < 2 ^ 64 := Nat.pow_lt_pow_right (by decide) hw'
  have e : (BitVec.ofNat 64 (2 ^ w)).toNat = 2 ^ w := by rw [BitVec.toNat_ofNat, Nat.mod_eq_of_lt hlt]
  have hp : 0 < 2 ^ w := Nat.two_pow_pos w
  have := he.2.1 (BitVec.ofNat 64 (2 ^ w)) 0 (by omega) (by show (0 : Nat) < _; omega) (by
    rw [get_eq, get_eq, e]
    congr 1
    exact BitVec.eq_of_toNat_eq (by simp))
  have := congrArg BitVec.toNat this
  rw [e] at this
  exact absurd this (by show 2 ^ w ≠ 0; omega)

end C3.Range
