import Verif.RandGen.LemmasCount

/-! # Periods of the random number generators -/

set_option autoImplicit false

namespace C3.RandGen

/-! ## C205 -/

/-- The generators `Lcg*Random` come to every one of their states, from any state, before they repeat one. -/
theorem C205_lcg :
    Period (fun _ => True) (fun _ _ => True) (2 ^ 128) lcg128 ∧ Period (fun _ => True) (fun _ _ => True) (2 ^ 64) lcg64 ∧
    Period (fun _ => True) (fun _ _ => True) (2 ^ 32) lcg32 ∧ Period (fun _ => True) (fun _ _ => True) (2 ^ 16) lcg16 :=
  ⟨lcg_period (fun _ => rfl) rfl rfl, lcg_period (fun _ => rfl) rfl rfl, lcg_period (fun _ => rfl) rfl rfl,
    lcg_period (fun _ => rfl) rfl rfl⟩

/-- So do `Pcg*Random`. -/
theorem C205_pcg :
    Period (fun _ => True) (fun _ _ => True) (2 ^ 128) pcg128 ∧ Period (fun _ => True) (fun _ _ => True) (2 ^ 64) pcg64 ∧
    Period (fun _ => True) (fun _ _ => True) (2 ^ 32) pcg32 ∧ Period (fun _ => True) (fun _ _ => True) (2 ^ 16) pcg16 :=
  ⟨lcg_period (fun _ => rfl) rfl rfl, lcg_period (fun _ => rfl) rfl rfl, lcg_period (fun _ => rfl) rfl rfl,
    lcg_period (fun _ => rfl) rfl rfl⟩

/-- And `SimpleRandom` of its states below 2^48. -/
theorem C205_simple : Period (fun s => s.toNat < 2 ^ 48) (fun _ _ => True) (2 ^ 48) simple :=
  masked_period (m := (0x5DEECE66D : BitVec 64).toNat) (c := (0xB : BitVec 64).toNat) (by decide)
    (fun s => mask_toNat (k := 48) (by decide)) (by decide) (by decide)

example : after lcg16 2 7 = 41393 ∧ (lcg16 7).1 = 0 ∧ after simple 1 (5 : BitVec 64) = 126074519596 := by decide

/-- In a period of `Lcg*Random` every value is given as often as every other. -/
theorem C205_uniform :
    Uniform (2 ^ 128) (2 ^ 64) lcg128 ∧ Uniform (2 ^ 64) (2 ^ 32) lcg64 ∧
    Uniform (2 ^ 32) (2 ^ 16) lcg32 ∧ Uniform (2 ^ 16) (2 ^ 8) lcg16 :=
  ⟨lcg_uniform (h := 64) (k := 64) (fun _ => rfl) rfl rfl, lcg_uniform (h := 32) (k := 32) (fun _ => rfl) rfl rfl,
    lcg_uniform (h := 16) (k := 16) (fun _ => rfl) rfl rfl, lcg_uniform (h := 8) (k := 8) (fun _ => rfl) rfl rfl⟩

/-! ## C206 -/

/-- From an odd state, `Mcg*Random` come back first after a quarter of the number of all states, and come to all states that
have the same remainder modulo 4. -/
theorem C206_mcg :
    Period (fun s => s.toNat % 2 = 1) (fun s t => s.toNat % 4 = t.toNat % 4) (2 ^ 126) mcg128 ∧
    Period (fun s => s.toNat % 2 = 1) (fun s t => s.toNat % 4 = t.toNat % 4) (2 ^ 62) mcg64 ∧
    Period (fun s => s.toNat % 2 = 1) (fun s t => s.toNat % 4 = t.toNat % 4) (2 ^ 30) mcg32 ∧
    Period (fun s => s.toNat % 2 = 1) (fun s t => s.toNat % 4 = t.toNat % 4) (2 ^ 14) mcg16 :=
  ⟨mcg_period (fun _ => rfl) rfl, mcg_period (fun _ => rfl) rfl, mcg_period (fun _ => rfl) rfl, mcg_period (fun _ => rfl) rfl⟩

example : (7 : BitVec 16).toNat % 2 = 1 ∧ after mcg16 1 7 = 0x0AD3 := by decide

/-! ## C207 -/

/-- No two states of `Sfc*Random` have the same next state. -/
theorem C207_injective :
    (∀ s t, (sfc128 s).2 = (sfc128 t).2 → s = t) ∧ (∀ s t, (sfc64 s).2 = (sfc64 t).2 → s = t) ∧
    (∀ s t, (sfc32 s).2 = (sfc32 t).2 → s = t) ∧ (∀ s t, (sfc16 s).2 = (sfc16 t).2 → s = t) ∧
    (∀ s t, (sfc8 s).2 = (sfc8 t).2 → s = t) :=
  ⟨fun _ _ => sfc_inj (by decide) (by decide), fun _ _ => sfc_inj (by decide) (by decide),
    fun _ _ => sfc_inj (by decide) (by decide), fun _ _ => sfc_inj (by decide) (by decide),
    fun _ _ => sfc_inj (by decide) (by decide)⟩

/-- And no state comes back before 2 to the width of a word calls, nor after a number that is not a multiple of it. -/
theorem C207_period :
    (∀ n s, after sfc128 n s = s → 2 ^ 128 ∣ n) ∧ (∀ n s, after sfc64 n s = s → 2 ^ 64 ∣ n) ∧
    (∀ n s, after sfc32 n s = s → 2 ^ 32 ∣ n) ∧ (∀ n s, after sfc16 n s = s → 2 ^ 16 ∣ n) ∧
    (∀ n s, after sfc8 n s = s → 2 ^ 8 ∣ n) :=
  ⟨sfc_back rfl, sfc_back rfl, sfc_back rfl, sfc_back rfl, sfc_back rfl⟩

example : (sfc8 ⟨1, 2, 3, 4⟩) = (7, ⟨3, 15, 103, 163⟩) := by decide

/-! ## C208 -/

/-- Every `ulong` is given by `Sfc128Random.next_long` in some state. -/
def C208_full : Prop := ∀ v : BitVec 64, ∃ s, (sfc128_next_long s).1 = v

/-- It never gives a value of 2^32 or more. -/
theorem C208_half (s : Sfc 128) : (sfc128_next_long s).1.toNat < 2 ^ 32 := by
  simp only [sfc128_next_long, BitVec.toNat_setWidth]
  exact Nat.lt_of_le_of_lt (Nat.mod_le _ _) (Nat.mod_lt _ (by decide))

theorem C208_fails : ¬ C208_full := by
  intro h
  obtain ⟨s, hs⟩ := h (BitVec.allOnes 64)
  have := C208_half s
  rw [hs] at this
  exact absurd this (by decide)

/-- It gives all others. -/
theorem C208_low_partial (v : BitVec 64) (hv : v.toNat < 2 ^ 32) : ∃ s, (sfc128_next_long s).1 = v := by
  refine ⟨⟨v.setWidth 128, 0, 0, 0⟩, BitVec.eq_of_toNat_eq ?_⟩
  simp [sfc128_next_long, sfc128, sfc, BitVec.toNat_setWidth]
  omega

example : (sfc128_next_long ⟨0x1234567890, 0, 0, 0⟩).1 = 0x34567890 := by decide

end C3.RandGen
