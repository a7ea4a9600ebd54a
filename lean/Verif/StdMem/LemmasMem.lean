import Verif.StdMem.Spec

set_option autoImplicit false

namespace C3.StdMem

theorem bytes_eq_iff (m m' : Mem) (a b n : Nat) :
    bytes m a n = bytes m' b n ↔ ∀ i, i < n → m (a + i) = m' (b + i) := by
  unfold bytes
  constructor
  · intro h i hi
    have := congrArg (fun l => l[i]?) h
    simpa [hi] using this
  · intro h
    apply List.map_congr_left
    intro i hi
    exact h i (List.mem_range.mp hi)

theorem bytes_zero_iff (m : Mem) (a n : Nat) :
    bytes m a n = List.replicate n 0 ↔ ∀ i, i < n → m (a + i) = 0 := by
  have : List.replicate n (0 : UInt8) = bytes (fun _ => 0) a n := by
    unfold bytes
    simp [List.map_const']
  rw [this, bytes_eq_iff]

theorem rd64_congr (m m' : Mem) (a : Nat) (h : ∀ i, i < 8 → m (a + i) = m' (a + i)) :
    rd64 m a = rd64 m' a := by
  have h0 := h 0 (by omega)
  simp only [Nat.add_zero] at h0
  simp only [rd64, h0, h 1 (by omega), h 2 (by omega), h 3 (by omega), h 4 (by omega),
    h 5 (by omega), h 6 (by omega), h 7 (by omega)]

theorem rd64_lt (m : Mem) (a : Nat) : rd64 m a < 2 ^ 64 := by
  unfold rd64
  have h0 := (m a).toNat_lt
  have h1 := (m (a + 1)).toNat_lt
  have h2 := (m (a + 2)).toNat_lt
  have h3 := (m (a + 3)).toNat_lt
  have h4 := (m (a + 4)).toNat_lt
  have h5 := (m (a + 5)).toNat_lt
  have h6 := (m (a + 6)).toNat_lt
  have h7 := (m (a + 7)).toNat_lt
  omega

theorem wr64_at (m : Mem) (a v i : Nat) (h : i < 8) :
    wr64 m a v (a + i) = UInt8.ofNat (v / 256 ^ i) := by
  unfold wr64
  rw [if_pos ⟨by omega, by omega⟩]
  congr 2
  congr 1
  omega

theorem wr64_ne (m : Mem) (a v x : Nat) (h : x < a ∨ a + 8 ≤ x) : wr64 m a v x = m x := by
  unfold wr64
  rw [if_neg (by omega)]

theorem rd64_wr64 (m : Mem) (a v : Nat) (h : v < 2 ^ 64) : rd64 (wr64 m a v) a = v := by
  have h0 : wr64 m a v a = UInt8.ofNat v := by
    have := wr64_at m a v 0 (by omega)
    simpa using this
  unfold rd64
  rw [h0, wr64_at m a v 1 (by omega), wr64_at m a v 2 (by omega), wr64_at m a v 3 (by omega),
    wr64_at m a v 4 (by omega), wr64_at m a v 5 (by omega), wr64_at m a v 6 (by omega),
    wr64_at m a v 7 (by omega)]
  simp only [UInt8.toNat_ofNat', Nat.reducePow]
  omega

theorem rd64_wr64_ne (m : Mem) (a b v : Nat) (h : a + 8 ≤ b ∨ b + 8 ≤ a) :
    rd64 (wr64 m a v) b = rd64 m b :=
  rd64_congr _ _ _ fun i _ => wr64_ne m a v (b + i) (by omega)

theorem copyMem_ne (m : Mem) (d s n x : Nat) (h : x < d ∨ d + n ≤ x) : copyMem m d s n x = m x := by
  unfold copyMem
  rw [if_neg (by omega)]

theorem copyMem_at (m : Mem) (d s n i : Nat) (h : i < n) : copyMem m d s n (d + i) = m (s + i) := by
  unfold copyMem
  rw [if_pos ⟨by omega, by omega⟩]
  congr 1
  omega

theorem clearMem_ne (m : Mem) (a n x : Nat) (h : x < a ∨ a + n ≤ x) : clearMem m a n x = m x := by
  unfold clearMem
  rw [if_neg (by omega)]

theorem clearMem_at (m : Mem) (a n x : Nat) (h : a ≤ x) (h' : x < a + n) : clearMem m a n x = 0 := by
  unfold clearMem
  rw [if_pos ⟨by omega, by omega⟩]

theorem setByte_ne (m : Mem) (a x : Nat) (v : UInt8) (h : x ≠ a) : setByte m a v x = m x := by
  unfold setByte
  rw [if_neg h]

theorem alignFor_spec (a : Nat) (h : AlignOk a) :
    ∃ k, 4 ≤ k ∧ k ≤ 28 ∧ alignFor a = 2 ^ k ∧ (a = 0 ∨ a ∣ 2 ^ k) := by
  unfold alignFor defaultAlign
  rcases h with h | ⟨k, hk, h⟩
  · subst h
    exact ⟨4, by omega, by omega, by simp, Or.inl rfl⟩
  · subst h
    by_cases hk4 : k < 4
    · refine ⟨4, by omega, by omega, ?_, Or.inr (Nat.pow_dvd_pow 2 (by omega))⟩
      have : (2 : Nat) ^ k < 2 ^ 4 := Nat.pow_lt_pow_right (by omega) hk4
      rw [if_pos (by omega)]
    · refine ⟨k, by omega, hk, ?_, Or.inr (Nat.dvd_refl _)⟩
      have : (2 : Nat) ^ 4 ≤ 2 ^ k := Nat.pow_le_pow_right (by omega) (by omega)
      rw [if_neg (by omega)]

/-- Without wrapping, `aligned_offset` is the least multiple that is not below. -/
theorem alignedOffset_spec (o k : Nat) (hk : k ≤ 28) (h : o + 2 ^ 28 ≤ 2 ^ 64) :
    o ≤ alignedOffset o (2 ^ k) ∧ alignedOffset o (2 ^ k) < o + 2 ^ k ∧
      2 ^ k ∣ alignedOffset o (2 ^ k) := by
  have hp : (2 : Nat) ^ k ≤ 2 ^ 28 := Nat.pow_le_pow_right (by omega) hk
  have hpos : 0 < (2 : Nat) ^ k := Nat.two_pow_pos k
  unfold alignedOffset wrap
  generalize (2 : Nat) ^ k = a at *
  rw [Nat.mod_eq_of_lt (a := o + a - 1) (by omega)]
  have h1 := Nat.div_add_mod (o + a - 1) a
  have h2 := Nat.mod_lt (o + a - 1) hpos
  rw [Nat.mod_eq_of_lt (by omega)]
  exact ⟨by omega, by omega, Nat.dvd_mul_right _ _⟩

theorem ptrIsAligned_iff (p k : Nat) : ptrIsAligned p (2 ^ k) = true ↔ 2 ^ k ∣ p := by
  unfold ptrIsAligned
  rw [Nat.and_two_pow_sub_one_eq_mod]
  simp [Nat.dvd_iff_mod_eq_zero]

theorem sub64_eq (a b : Nat) (h : b ≤ a) (ha : a < 2 ^ 64) : sub64 a b = a - b := by
  unfold sub64
  omega

theorem wrap_eq (a : Nat) (ha : a < 2 ^ 64) : wrap a = a := Nat.mod_eq_of_lt ha

theorem mem_without (live : List Block) (p : Nat) (b : Block) :
    b ∈ without live p ↔ b ∈ live ∧ b.addr ≠ p := by
  unfold without
  simp

end C3.StdMem
