import Verif.Bitstruct.Spec

/-!
# Bits of integers and of memory
-/

set_option autoImplicit false

namespace C3.Bitstruct

theorem getLsbD_byte {w : Nat} (x : BitVec w) (i t : Nat) : (byte x i).getLsbD t = (decide (t < 8) && x.getLsbD (8 * i + t)) := by
  simp [byte, BitVec.getLsbD_extractLsb']

theorem getLsbD_ofBytes (f : Nat → Byte) : ∀ (n j : Nat), (ofBytes f n).getLsbD j = (decide (j < 8 * n) && (f (j / 8)).getLsbD (j % 8)) := by
  intro n
  induction n with
  | zero => intro j; simp [ofBytes]
  | succ n ih =>
    intro j
    rw [ofBytes, BitVec.getLsbD_cast, BitVec.getLsbD_append, ih]
    by_cases h : j < 8 * n
    · rw [if_pos h]
      simp [h, show j < 8 * (n + 1) by omega]
    · rw [if_neg h]
      by_cases h2 : j < 8 * (n + 1)
      · rw [show j / 8 = n by omega, show j - 8 * n = j % 8 by omega]
        simp [h2]
      · simp only [h2, decide_false, Bool.false_and]
        exact BitVec.getLsbD_of_ge _ _ (by omega)

/-- The bit `j` of an integer of `n` bytes is here in memory, and the other way round. -/
def pos (big : Bool) (n j : Nat) : Nat := if big then 8 * (n - 1 - j / 8) + j % 8 else j

theorem pos_lt {big : Bool} {n j : Nat} (h : j < 8 * n) : pos big n j < 8 * n := by
  simp only [pos]
  split <;> omega

theorem pos_pos {big : Bool} {n j : Nat} (h : j < 8 * n) : pos big n (pos big n j) = j := by
  cases big with
  | false => rfl
  | true => simp only [pos, if_true]; omega

theorem pos_inj {big : Bool} {n j j' : Nat} (h : j < 8 * n) (h' : j' < 8 * n) (e : pos big n j = pos big n j') : j = j' := by
  rw [← pos_pos (big := big) h, e, pos_pos h']

theorem pos_swap (p : Bool) {n j : Nat} (h : j < 8 * n) : pos p n (pos true n j) = pos (!p) n j := by
  cases p with
  | false => rfl
  | true => exact pos_pos h

theorem pos_swap' (p : Bool) {n j : Nat} (h : j < 8 * n) : pos true n (pos p n j) = pos (!p) n j := by
  cases p with
  | false => rfl
  | true => exact pos_pos h

theorem bitAt_ge {mem : Mem} {j : Nat} (h : 8 * mem.length ≤ j) : bitAt mem j = false := by
  have : mem[j / 8]? = none := List.getElem?_eq_none (by omega)
  simp [bitAt, List.getD, this]

theorem mem_ext {mem mem' : Mem} (hl : mem.length = mem'.length) (h : ∀ j, bitAt mem j = bitAt mem' j) : mem = mem' := by
  apply List.ext_getElem hl
  intro i h1 h2
  apply BitVec.eq_of_getLsbD_eq
  intro t ht
  have := h (8 * i + t)
  simp only [bitAt, show (8 * i + t) / 8 = i by omega, show (8 * i + t) % 8 = t by omega] at this
  simpa [List.getD, h1, h2] using this

theorem bitAt_set {mem : Mem} {i : Nat} {b : Byte} (h : i < mem.length) (j : Nat) :
    bitAt (mem.set i b) j = if j / 8 = i then b.getLsbD (j % 8) else bitAt mem j := by
  simp only [bitAt, List.getD, List.getElem?_set]
  by_cases e : i = j / 8
  · subst e; simp [h]
  · simp [e, Ne.symm e]

theorem store_length (p : Bool) (n : Nat) (x : BitVec (8 * n)) : (store p n x).length = n := by simp [store]

theorem bitAt_store (p : Bool) (n : Nat) (x : BitVec (8 * n)) {j : Nat} (h : j < 8 * n) : bitAt (store p n x) j = x.getLsbD (pos p n j) := by
  have : j / 8 < n := by omega
  simp only [bitAt, store, List.getD, List.getElem?_map, List.getElem?_range this, Option.map_some, Option.getD_some, getLsbD_byte,
    show j % 8 < 8 by omega, decide_true, Bool.true_and, pos]
  split
  · rfl
  · rw [show 8 * (j / 8) + j % 8 = j by omega]

theorem load_some {p : Bool} {n : Nat} {mem : Mem} (h : mem.length = n) : ∃ x, load p n mem = some x ∧
    ∀ j, j < 8 * n → x.getLsbD j = bitAt mem (pos p n j) := by
  refine ⟨_, if_pos h, ?_⟩
  intro j hj
  simp only [getLsbD_ofBytes, hj, decide_true, Bool.true_and, bitAt, pos]
  cases p
  · simp
  · simp [show (8 * (n - 1 - j / 8) + j % 8) / 8 = n - 1 - j / 8 by omega, show (8 * (n - 1 - j / 8) + j % 8) % 8 = j % 8 by omega]

theorem bswap_some {n : Nat} (x : BitVec (8 * n)) (h : 2 ≤ n) : ∃ y, llvm_emit_bswap x = some y ∧
    ∀ j, j < 8 * n → y.getLsbD j = x.getLsbD (pos true n j) := by
  refine ⟨_, if_neg (by omega), ?_⟩
  intro j hj
  rw [getLsbD_ofBytes, getLsbD_byte]
  simp only [hj, pos, show j % 8 < 8 by omega, decide_true, Bool.true_and, if_true]

theorem swapIf_some {swap : Bool} {n : Nat} (x : BitVec (8 * n)) (h : swap = true → 2 ≤ n) : ∃ y, swapIf swap x = some y ∧
    ∀ j, j < 8 * n → y.getLsbD j = x.getLsbD (pos swap n j) := by
  cases swap with
  | false => exact ⟨x, rfl, fun j _ => rfl⟩
  | true => exact bswap_some x (h rfl)

theorem pos_xor (p s : Bool) {n j : Nat} (h : j < 8 * n) : pos p n (pos s n j) = pos (p ^^ s) n j := by
  cases s with
  | false => simp [pos]
  | true => rw [pos_swap p h]; simp

theorem getLsbD_low {low : Int} {t : Nat} : (llvm_const_low_bitmask low).getLsbD t = (decide (t < 8) && decide ((t : Int) < low)) := by
  rw [Bool.eq_iff_iff, Bool.and_eq_true, decide_eq_true_eq, decide_eq_true_eq]
  unfold llvm_const_low_bitmask
  split
  · simp only [BitVec.ofNat_eq_ofNat, BitVec.getLsbD_zero, Bool.false_eq_true, false_iff]; omega
  · split
    · rw [BitVec.getLsbD_allOnes, decide_eq_true_eq]; omega
    · rw [llvm_emit_lshr_fixed, BitVec.getLsbD_ushiftRight, BitVec.getLsbD_allOnes, decide_eq_true_eq]; omega

theorem getLsbD_high {high : Int} {t : Nat} : (llvm_const_high_bitmask high).getLsbD t = (decide (t < 8) && decide (8 - high ≤ (t : Int))) := by
  rw [Bool.eq_iff_iff, Bool.and_eq_true, decide_eq_true_eq, decide_eq_true_eq]
  unfold llvm_const_high_bitmask
  split
  · simp only [BitVec.ofNat_eq_ofNat, BitVec.getLsbD_zero, Bool.false_eq_true, false_iff]; omega
  · split
    · rw [BitVec.getLsbD_allOnes, decide_eq_true_eq]; omega
    · rw [BitVec.getLsbD_not, llvm_emit_lshr_fixed, BitVec.getLsbD_ushiftRight, BitVec.getLsbD_allOnes, Bool.and_eq_true, Bool.not_eq_true',
        decide_eq_true_eq, decide_eq_false_iff_not]
      omega

theorem getLsbD_mask {w : Nat} (x : BitVec w) (low t : Nat) : (llvm_mask_low_bits x low).getLsbD t = (decide (t < low) && x.getLsbD t) := by
  unfold llvm_mask_low_bits
  split
  · simp; omega
  · split
    · by_cases h : t < low
      · simp [h]
      · simp [h, BitVec.getLsbD_of_ge x t (by omega)]
    · by_cases ht : t < w
      · simp [llvm_emit_lshr_fixed, BitVec.getLsbD_ushiftRight, show w - low + t < w ↔ t < low by omega]
      · simp [BitVec.getLsbD_of_ge _ t (Nat.le_of_not_lt ht)]

end C3.Bitstruct
