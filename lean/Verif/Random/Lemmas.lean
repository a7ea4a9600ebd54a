import Verif.Random.Model

set_option autoImplicit false

namespace C3.Random

theorem ones_shift : ∀ k < 32, (2 ^ 32 - 1) >>> (31 - k) = 2 ^ (k + 1) - 1 := by decide

theorem log2_lt {r : BitVec 32} (h : r ≠ 0) : r.toNat.log2 < 32 :=
  (Nat.log2_lt (fun e => h (BitVec.eq_of_toNat_eq e))).2 r.isLt

theorem mask_toNat {r : BitVec 32} (h : r ≠ 0) : (mask r).toNat = 2 ^ (r.toNat.log2 + 1) - 1 := by
  rw [mask, clz, if_neg h, BitVec.toNat_ushiftRight, BitVec.toNat_allOnes]
  exact ones_shift _ (log2_lt h)

theorem and_mask {r : BitVec 32} (h : r ≠ 0) (u : BitVec 32) : (u &&& mask r).toNat = u.toNat % 2 ^ (r.toNat.log2 + 1) := by
  rw [BitVec.toNat_and, mask_toNat h, Nat.and_two_pow_sub_one_eq_mod]

theorem lt_pow {r : BitVec 32} : r.toNat < 2 ^ (r.toNat.log2 + 1) := Nat.lt_log2_self

theorem pow_le {r : BitVec 32} (h : r ≠ 0) : 2 ^ r.toNat.log2 ≤ r.toNat :=
  Nat.log2_self_le fun e => h (BitVec.eq_of_toNat_eq e)

/-- A value that is small enough stays as it is. -/
theorem and_mask_le {r v : BitVec 32} (h : r ≠ 0) (hv : v.toNat ≤ r.toNat) : v &&& mask r = v := by
  apply BitVec.eq_of_toNat_eq
  rw [and_mask h, Nat.mod_eq_of_lt (Nat.lt_of_le_of_lt hv lt_pow)]

theorem draw_iff {r u v : BitVec 32} : draw r u = some v ↔ u &&& mask r = v ∧ v.toNat ≤ r.toNat := by
  unfold draw
  split
  · rename_i hlt
    rw [BitVec.lt_def] at hlt
    constructor
    · intro h; cases h
    · rintro ⟨rfl, h⟩; omega
  · rename_i hlt
    rw [BitVec.lt_def] at hlt
    constructor
    · intro h
      have := Option.some.inj h
      subst this
      exact ⟨rfl, by omega⟩
    · rintro ⟨rfl, _⟩; rfl

theorem loop_mem {r v : BitVec 32} : ∀ {g l : List (BitVec 32)}, loop r g = some (v, l) →
    ∃ a u, g = a ++ u :: l ∧ draw r u = some v ∧ ∀ w ∈ a, draw r w = none := by
  intro g
  induction g with
  | nil => intro l h; cases h
  | cons u g ih =>
    intro l h
    rw [loop] at h
    cases hd : draw r u with
    | some w =>
      rw [hd] at h
      obtain ⟨rfl, rfl⟩ := Prod.mk.inj (Option.some.inj h)
      exact ⟨[], u, rfl, hd, by simp⟩
    | none =>
      rw [hd] at h
      obtain ⟨a, u', e, h1, h2⟩ := ih h
      refine ⟨u :: a, u', by rw [e]; rfl, h1, ?_⟩
      intro w hw
      rcases List.mem_cons.1 hw with rfl | hw
      · exact hd
      · exact h2 w hw

theorem sub_one {range : BitVec 32} (h : range ≠ 0) : (range - 1).toNat = range.toNat - 1 := by
  have : 0 < range.toNat := Nat.pos_of_ne_zero fun e => h (BitVec.eq_of_toNat_eq e)
  rw [BitVec.toNat_sub_of_le (by rw [BitVec.le_def]; exact this)]
  rfl

theorem sub_one_ne {range : BitVec 32} (h : range ≠ 0) (h1 : range ≠ 1) : range - 1 ≠ 0 := by
  intro e
  have h0 : 0 < range.toNat := Nat.pos_of_ne_zero fun e => h (BitVec.eq_of_toNat_eq e)
  have := congrArg BitVec.toNat e
  rw [sub_one h] at this
  exact h1 (BitVec.eq_of_toNat_eq (by show range.toNat = 1; simp at this; omega))

end C3.Random
