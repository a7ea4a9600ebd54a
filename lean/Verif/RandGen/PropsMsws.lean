import Verif.RandGen.ModelMsws
import Verif.RandGen.Lemmas

/-! # C209: middle square generators -/

set_option autoImplicit false

namespace C3.RandGen

variable {w : Nat}

theorem msws_count {r : Nat} {phi : BitVec w} (n : Nat) : ∀ s : Msws w,
    (after (msws r phi) n s).weyl0.toNat = (s.weyl0.toNat + phi.toNat * n) % 2 ^ w := by
  induction n with
  | zero => intro s; simp [after, Nat.mod_eq_of_lt s.weyl0.isLt]
  | succ n ih =>
    intro s
    rw [after, ih]
    show ((s.weyl0 + phi).toNat + phi.toNat * n) % 2 ^ w = _
    rw [BitVec.toNat_add, Nat.mod_add_mod]
    congr 1; ring

theorem msws_back {r : Nat} {phi : BitVec w} (hphi : phi.toNat % 2 = 1) (n : Nat) (s : Msws w)
    (h : after (msws r phi) n s = s) : 2 ^ w ∣ n := by
  have e := msws_count (r := r) (phi := phi) n s
  rw [h] at e
  exact (odd_dvd hphi).1 ((add_mod_self s.weyl0.isLt).1 e.symm)

theorem msws_sum {r : Nat} {phi : BitVec w} (n : Nat) : ∀ s : Msws w,
    (after (msws r phi) n s).weyl0 + (after (msws r phi) n s).weyl1 = s.weyl0 + s.weyl1 := by
  induction n with
  | zero => intro s; rfl
  | succ n ih =>
    intro s
    rw [after, ih]
    show s.weyl0 + phi + (s.weyl1 - phi) = _
    rw [BitVec.sub_eq_add_neg, BitVec.add_assoc, BitVec.add_comm s.weyl1, ← BitVec.add_assoc phi,
      ← BitVec.sub_eq_add_neg, BitVec.sub_self, BitVec.zero_add]

/-- C209: the generator is in a state again only after a multiple of 2^w calls. -/
theorem C209_period :
    (∀ n s, after msws128 n s = s → 2 ^ 128 ∣ n) ∧ (∀ n s, after msws64 n s = s → 2 ^ 64 ∣ n) ∧
    (∀ n s, after msws32 n s = s → 2 ^ 32 ∣ n) ∧ (∀ n s, after msws16 n s = s → 2 ^ 16 ∣ n) ∧
    (∀ n s, after msws8 n s = s → 2 ^ 8 ∣ n) :=
  ⟨msws_back rfl, msws_back rfl, msws_back rfl, msws_back rfl, msws_back rfl⟩

/-- C209: the two counters always have the sum that they have in the seed, so no state with another sum is reached. -/
theorem C209_counters :
    (∀ n s, (after msws128 n s).weyl0 + (after msws128 n s).weyl1 = s.weyl0 + s.weyl1) ∧
    (∀ n s, (after msws64 n s).weyl0 + (after msws64 n s).weyl1 = s.weyl0 + s.weyl1) ∧
    (∀ n s, (after msws32 n s).weyl0 + (after msws32 n s).weyl1 = s.weyl0 + s.weyl1) ∧
    (∀ n s, (after msws16 n s).weyl0 + (after msws16 n s).weyl1 = s.weyl0 + s.weyl1) ∧
    (∀ n s, (after msws8 n s).weyl0 + (after msws8 n s).weyl1 = s.weyl0 + s.weyl1) :=
  ⟨msws_sum, msws_sum, msws_sum, msws_sum, msws_sum⟩

theorem msws_merge {r : Nat} {phi : BitVec w} (s : Msws w) :
    (msws r phi { s with state0 := -s.state0 }).2 = (msws r phi s).2 := by
  simp [msws, BitVec.neg_mul, BitVec.mul_neg]

/-- C209: unlike the Sfc generators these lose states: seeds that differ in the sign of `state0` go on alike after the first value. -/
theorem C209_merge :
    (∀ s, (msws128 { s with state0 := -s.state0 }).2 = (msws128 s).2) ∧
    (∀ s, (msws64 { s with state0 := -s.state0 }).2 = (msws64 s).2) ∧
    (∀ s, (msws32 { s with state0 := -s.state0 }).2 = (msws32 s).2) ∧
    (∀ s, (msws16 { s with state0 := -s.state0 }).2 = (msws16 s).2) ∧
    (∀ s, (msws8 { s with state0 := -s.state0 }).2 = (msws8 s).2) :=
  ⟨msws_merge, msws_merge, msws_merge, msws_merge, msws_merge⟩

/-- The first values differ, the states after them do not. -/
example : msws8 ⟨1, 2, 3, 4⟩ = (9, ⟨64, 128, 162, 101⟩) ∧ msws8 ⟨255, 2, 3, 4⟩ = (7, ⟨64, 128, 162, 101⟩) := by decide

end C3.RandGen
