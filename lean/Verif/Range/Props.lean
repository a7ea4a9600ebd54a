import Verif.Range.Lemmas

/-! # Ranges -/

set_option autoImplicit false

namespace C3.Range

/-! ## C185 -/

/-- The whole of C185. -/
def C185_full : Prop := ∀ (sgn : Bool) (w : Nat) (r : Range w), 32 ≤ w → w ≤ 64 → Enumerates (len sgn r) (get r) (contains sgn r)

/-- A range enumerates what it contains if the difference of its bounds fits and it does not have all values of 64 bits. -/
theorem C185_enumerates_partial (sgn : Bool) {w : Nat} (h1 : 32 ≤ w) (h2 : w ≤ 64) (r : Range w) (hf : Fits sgn r)
    (hn : val sgn r.stop - val sgn r.start + 1 < 2 ^ 64) : Enumerates (len sgn r) (get r) (contains sgn r) := by
  have hl : ((len sgn r).toNat : Int) = if val sgn r.stop < val sgn r.start then 0 else val sgn r.stop - val sgn r.start + 1 := by
    unfold len
    by_cases h : val sgn r.stop < val sgn r.start
    · rw [if_pos ((lt_iff _ _ _).2 h), if_pos h]; rfl
    · rw [if_neg (fun x => h ((lt_iff _ _ _).1 x)), if_neg h]
      have e := cast_sub sgn (by omega) h2 r (by omega) hf
      rw [BitVec.toNat_add, show (1 : BitVec 64).toNat = 1 from rfl, Nat.mod_eq_of_lt (by omega)]
      omega
  refine enumerates sgn (by omega) r _ _ (fun h => ?_) fun v => ?_
  · split at hl <;> omega
  · rw [contains, Bool.and_eq_true, not_lt_iff, not_lt_iff]
    split at hl <;> omega

/-- If the difference does not fit, the length is too large, by `2 ^ 64 - 2 ^ w`, or zero if the range has all values. -/
theorem C185_length_overflow {w : Nat} (h1 : 32 ≤ w) (h2 : w < 64) (r : Range w)
    (hf : 2 ^ (w - 1) ≤ val true r.stop - val true r.start) :
    (len true r).toNat = if val true r.stop - val true r.start + 1 = 2 ^ w then (0 : Int)
      else 2 ^ 64 - 2 ^ w + (val true r.stop - val true r.start + 1) := by
  have e := cast_sub_overflow (by omega) h2 r hf
  have hp := pow_split (w := w) (by omega)
  have hpos : (0 : Int) < 2 ^ (w - 1) := Int.pow_pos (by decide)
  have b1 := BitVec.le_toInt r.start
  have b2 := BitVec.toInt_lt (x := r.stop)
  have hlt := (cast true (r.stop - r.start)).isLt
  have hv : val true r.stop - val true r.start < 2 ^ w := by simp only [val, if_true]; omega
  unfold len
  rw [if_neg (fun x => by have := (lt_iff _ _ _).1 x; omega), BitVec.toNat_add, show (1 : BitVec 64).toNat = 1 from rfl]
  by_cases hd : val true r.stop - val true r.start + 1 = 2 ^ w
  · rw [if_pos hd]
    have : (cast true (r.stop - r.start)).toNat + 1 = 2 ^ 64 := by omega
    rw [this]; rfl
  · rw [if_neg hd, Nat.mod_eq_of_lt (by omega)]
    omega

/-- The conditions are needed: a range that is not empty enumerates what it contains only if they hold. -/
theorem C185_iff (sgn : Bool) {w : Nat} (h1 : 32 ≤ w) (h2 : w ≤ 64) (r : Range w) (hle : val sgn r.start ≤ val sgn r.stop) :
    Enumerates (len sgn r) (get r) (contains sgn r) ↔
      Fits sgn r ∧ val sgn r.stop - val sgn r.start + 1 < 2 ^ 64 := by
  refine ⟨fun he => ?_, fun h => C185_enumerates_partial sgn h1 h2 r h.1 h.2⟩
  have hs : contains sgn r r.start = true := by
    rw [contains, Bool.and_eq_true, not_lt_iff, not_lt_iff]; exact ⟨by omega, hle⟩
  have hz : (len sgn r).toNat ≠ 0 := by
    obtain ⟨i, hi, _⟩ := he.2.2 _ hs
    omega
  have hfit : Fits sgn r := by
    intro hsg hw
    subst hsg
    by_cases hd : val true r.stop - val true r.start < 2 ^ (w - 1)
    · exact hd
    · exfalso
      have hpos : (0 : Int) < 2 ^ (w - 1) := Int.pow_pos (by decide)
      have hp := pow_split (w := w) (by omega)
      have h63 : (2 : Int) ^ w ≤ 2 ^ 63 := by exact_mod_cast Nat.pow_le_pow_right (n := 2) (by decide) (show w ≤ 63 by omega)
      have b1 := BitVec.le_toInt r.start
      have b2 := BitVec.toInt_lt (x := r.stop)
      have hv : val true r.stop - val true r.start < 2 ^ w := by simp only [val, if_true]; omega
      have e := C185_length_overflow h1 hw r (by omega)
      split at e
      · exact hz (by omega)
      · refine not_enumerates hw r _ _ ?_ he
        have : ((2 ^ w : Nat) : Int) < (len true r).toNat := by push_cast; omega
        exact_mod_cast this
  refine ⟨hfit, ?_⟩
  have e := cast_sub sgn (by omega) h2 r hle hfit
  have hlt := (cast sgn (r.stop - r.start)).isLt
  by_cases hd : val sgn r.stop - val sgn r.start + 1 < 2 ^ 64
  · exact hd
  · exfalso
    apply hz
    unfold len
    rw [if_neg (fun x => by have := (lt_iff _ _ _).1 x; omega), BitVec.toNat_add, show (1 : BitVec 64).toNat = 1 from rfl,
      show (cast sgn (r.stop - r.start)).toNat + 1 = 2 ^ 64 by omega]

/-- The range of the `int` from -2000000000 to 2000000000 does not. -/
theorem C185_fails : ¬ C185_full := by
  intro h
  have := (C185_iff true (w := 32) (by omega) (by omega) ⟨-2000000000, 2000000000⟩ (by decide)).1 (h true 32 _ (by omega) (by omega))
  exact absurd (this.1 rfl (by omega)) (by decide)

example : Fits true (⟨-3, 4⟩ : Range 32) ∧ val true (4 : BitVec 32) - val true (-3 : BitVec 32) + 1 < 2 ^ 64 :=
  ⟨fun _ _ => by decide, by decide⟩
example : (len true (⟨-3, 4⟩ : Range 32)).toNat = 8 ∧ get (⟨-3, 4⟩ : Range 32) 2 = -1 := by decide
example : (len true (⟨-2000000000, 2000000000⟩ : Range 32)).toNat = 18446744073414584321 := by decide
example : (len false (⟨0, -1⟩ : Range 64)).toNat = 0 := by decide

/-! ## C186 -/

/-- The whole of C186. -/
def C186_full : Prop :=
  ∀ (sgn : Bool) (w : Nat) (r : Range w), 32 ≤ w → w ≤ 64 → Enumerates (exLen sgn r) (get r) (exContains sgn r)

/-- An exclusive range enumerates what it contains if the difference of its bounds fits. -/
theorem C186_enumerates_partial (sgn : Bool) {w : Nat} (h1 : 32 ≤ w) (h2 : w ≤ 64) (r : Range w) (hf : Fits sgn r) :
    Enumerates (exLen sgn r) (get r) (exContains sgn r) := by
  have hl : ((exLen sgn r).toNat : Int) = if val sgn r.stop < val sgn r.start then 0 else val sgn r.stop - val sgn r.start := by
    unfold exLen
    by_cases h : val sgn r.stop < val sgn r.start
    · rw [if_pos ((lt_iff _ _ _).2 h), if_pos h]; rfl
    · rw [if_neg (fun x => h ((lt_iff _ _ _).1 x)), if_neg h]
      exact cast_sub sgn (by omega) h2 r (by omega) hf
  refine enumerates sgn (by omega) r _ _ (fun h => ?_) fun v => ?_
  · split at hl <;> omega
  · rw [exContains, Bool.and_eq_true, not_lt_iff, lt_iff]
    split at hl <;> omega

/-- For unsigned types and types of 64 bits it always does. -/
theorem C186_unsigned (sgn : Bool) {w : Nat} (h1 : 32 ≤ w) (h2 : w ≤ 64) (r : Range w) (h : sgn = false ∨ w = 64) :
    Enumerates (exLen sgn r) (get r) (exContains sgn r) := by
  refine C186_enumerates_partial sgn h1 h2 r fun a b => ?_
  rcases h with h | h
  · rw [h] at a; cases a
  · omega

/-- The condition is needed. -/
theorem C186_iff (sgn : Bool) {w : Nat} (h1 : 32 ≤ w) (h2 : w ≤ 64) (r : Range w) (hle : val sgn r.start ≤ val sgn r.stop) :
    Enumerates (exLen sgn r) (get r) (exContains sgn r) ↔ Fits sgn r := by
  refine ⟨fun he hsg hw => ?_, fun h => C186_enumerates_partial sgn h1 h2 r h⟩
  subst hsg
  by_cases hd : val true r.stop - val true r.start < 2 ^ (w - 1)
  · exact hd
  · exfalso
    have e := cast_sub_overflow (by omega) hw r (by omega)
    have hp := pow_split (w := w) (by omega)
    have h63 : (2 : Int) ^ w ≤ 2 ^ 63 := by exact_mod_cast Nat.pow_le_pow_right (n := 2) (by decide) (show w ≤ 63 by omega)
    have hpos : (0 : Int) < 2 ^ (w - 1) := Int.pow_pos (by decide)
    refine not_enumerates hw r _ _ ?_ he
    unfold exLen
    rw [if_neg (fun x => by have := (lt_iff _ _ _).1 x; omega)]
    have : ((2 ^ w : Nat) : Int) < (cast true (r.stop - r.start)).toNat := by push_cast; omega
    exact_mod_cast this

theorem C186_fails : ¬ C186_full := by
  intro h
  have := (C186_iff true (w := 32) (by omega) (by omega) ⟨-2000000000, 2000000000⟩ (by decide)).1 (h true 32 _ (by omega) (by omega))
  exact absurd (this rfl (by omega)) (by decide)

example : Fits true (⟨-3, 4⟩ : Range 32) := fun _ _ => by decide
example : (exLen true (⟨-3, 4⟩ : Range 32)).toNat = 7 ∧ exContains true (⟨-3, 4⟩ : Range 32) 4 = false := by decide
example : (exLen true (⟨5, 4⟩ : Range 32)).toNat = 0 := by decide

end C3.Range
