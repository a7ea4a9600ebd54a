import Verif.Random.Lemmas

/-! # Values from a random number generator -/

set_option autoImplicit false

namespace C3.Random

/-! ## C193 -/

/-- The whole of C193: the `int` that `next` gives is between 0 and the range, which is not included. -/
def C193_full : Prop := ∀ (range v : BitVec 32) (g l : List (BitVec 32)), next range g = some (v, l) →
  0 ≤ v.toInt ∧ v.toInt < range.toNat

/-- It is, read as a `uint`. -/
theorem C193_below {range v : BitVec 32} {g l : List (BitVec 32)} (h : next range g = some (v, l)) : v.toNat < range.toNat := by
  unfold next at h
  split at h
  · cases h
  · rename_i h0
    have hpos : 0 < range.toNat := Nat.pos_of_ne_zero fun e => h0 (BitVec.eq_of_toNat_eq e)
    split at h
    · rw [← (Prod.mk.inj (Option.some.inj h)).1]; exact hpos
    · obtain ⟨_, u, _, hd, _⟩ := loop_mem h
      have := (draw_iff.1 hd).2
      rw [sub_one h0] at this
      omega

/-- And as an `int` for ranges up to 2^31. -/
theorem C193_next_partial {range v : BitVec 32} {g l : List (BitVec 32)} (hr : range.toNat ≤ 2 ^ 31)
    (h : next range g = some (v, l)) : 0 ≤ v.toInt ∧ v.toInt < range.toNat := by
  have := C193_below h
  have e : v.toInt = v.toNat := BitVec.toInt_eq_toNat_of_lt (by omega)
  rw [e]
  omega

/-- For larger ranges negative values are given. -/
theorem C193_negative {range : BitVec 32} (hr : 2 ^ 31 < range.toNat) (g : List (BitVec 32)) :
    ∃ v, next range (BitVec.ofNat 32 (2 ^ 31) :: g) = some (v, g) ∧ v.toInt < 0 := by
  have h0 : range ≠ 0 := fun e => by rw [e] at hr; exact absurd hr (by decide)
  have h1 : range ≠ 1 := fun e => by rw [e] at hr; exact absurd hr (by decide)
  refine ⟨BitVec.ofNat 32 (2 ^ 31), ?_, by decide⟩
  have hle : (BitVec.ofNat 32 (2 ^ 31)).toNat ≤ (range - 1).toNat := by
    rw [sub_one h0]; show 2 ^ 31 ≤ _; omega
  have hd : draw (range - 1) (BitVec.ofNat 32 (2 ^ 31)) = some (BitVec.ofNat 32 (2 ^ 31)) :=
    draw_iff.2 ⟨and_mask_le (sub_one_ne h0 h1) hle, hle⟩
  rw [next, if_neg h0, if_neg h1, loop, hd]

theorem C193_fails : ¬ C193_full := by
  intro h
  obtain ⟨v, h1, h2⟩ := C193_negative (range := BitVec.ofNat 32 (2 ^ 31 + 1)) (by decide) []
  have := (h _ _ _ _ h1).1
  omega

/-- No value is preferred: the values of the generator that give `v` and those that give `w` correspond one to one. -/
theorem C193_uniform {range v w : BitVec 32} (h1 : 2 ≤ range.toNat) (hv : v.toNat < range.toNat) (hw : w.toNat < range.toNat) :
    ∃ f : BitVec 32 → BitVec 32, (∀ u, f (f u) = u) ∧
      ∀ u, (∀ g, next range (u :: g) = some (v, g)) ↔ ∀ g, next range (f u :: g) = some (w, g) := by
  have h0 : range ≠ 0 := fun e => by rw [e] at h1; exact absurd h1 (by decide)
  have hne : range ≠ 1 := fun e => by rw [e] at h1; exact absurd h1 (by decide)
  have hr := sub_one_ne h0 hne
  have hs := sub_one h0
  have key : ∀ u x, (∀ g, next range (u :: g) = some (x, g)) ↔ draw (range - 1) u = some x := by
    intro u x
    constructor
    · intro h
      have := h []
      rw [next, if_neg h0, if_neg hne, loop] at this
      cases hd : draw (range - 1) u with
      | some y => rw [hd] at this; rw [(Prod.mk.inj (Option.some.inj this)).1]
      | none => rw [hd] at this; cases this
    · intro h g
      rw [next, if_neg h0, if_neg hne, loop, h]
  have hvm : v &&& mask (range - 1) = v := and_mask_le hr (by omega)
  have hwm : w &&& mask (range - 1) = w := and_mask_le hr (by omega)
  refine ⟨fun u => u ^^^ v ^^^ w, fun u => ?_, fun u => ?_⟩
  · apply BitVec.eq_of_getLsbD_eq
    intro i _
    simp only [BitVec.getLsbD_xor]
    cases u.getLsbD i <;> cases v.getLsbD i <;> cases w.getLsbD i <;> rfl
  · have e : (u ^^^ v ^^^ w) &&& mask (range - 1) = (u &&& mask (range - 1)) ^^^ v ^^^ w := by
      conv => rhs; rw [← hvm, ← hwm]
      apply BitVec.eq_of_getLsbD_eq
      intro i _
      simp only [BitVec.getLsbD_xor, BitVec.getLsbD_and]
      cases u.getLsbD i <;> cases v.getLsbD i <;> cases w.getLsbD i <;> cases (mask (range - 1)).getLsbD i <;> rfl
    rw [key, key, draw_iff, draw_iff]
    simp only [e]
    constructor
    · rintro ⟨h, _⟩
      exact ⟨by rw [h]; simp, by omega⟩
    · rintro ⟨h, _⟩
      refine ⟨?_, by omega⟩
      have := congrArg (fun z => z ^^^ w ^^^ v) h
      have e1 : u &&& mask (range - 1) ^^^ v ^^^ w ^^^ w ^^^ v = u &&& mask (range - 1) := by
        apply BitVec.eq_of_getLsbD_eq
        intro i _
        simp only [BitVec.getLsbD_xor]
        cases (u &&& mask (range - 1)).getLsbD i <;> cases v.getLsbD i <;> cases w.getLsbD i <;> rfl
      rw [e1] at this
      rw [this]
      simp

/-- Every value below the range is given for some value of the generator. -/
theorem C193_reached {range v : BitVec 32} (hv : v.toNat < range.toNat) (h1 : 2 ≤ range.toNat) (g : List (BitVec 32)) :
    next range (v :: g) = some (v, g) := by
  have h0 : range ≠ 0 := fun e => by rw [e] at h1; exact absurd h1 (by decide)
  have hne : range ≠ 1 := fun e => by rw [e] at h1; exact absurd h1 (by decide)
  have hs := sub_one h0
  have hd : draw (range - 1) v = some v := draw_iff.2 ⟨and_mask_le (sub_one_ne h0 hne) (by omega), by omega⟩
  rw [next, if_neg h0, if_neg hne, loop, hd]

/-- The loop ends with at least half of the values of the generator: there is a bit such that each value, or the value with that bit
changed, ends it. -/
theorem C193_half {range : BitVec 32} (h1 : 2 ≤ range.toNat) :
    ∃ b : BitVec 32, ∀ u g, (∃ v, next range (u :: g) = some (v, g)) ∨ ∃ v, next range ((u ^^^ b) :: g) = some (v, g) := by
  have h0 : range ≠ 0 := fun e => by rw [e] at h1; exact absurd h1 (by decide)
  have hne : range ≠ 1 := fun e => by rw [e] at h1; exact absurd h1 (by decide)
  have hr := sub_one_ne h0 hne
  have hk := log2_lt hr
  have hp := pow_le hr
  refine ⟨BitVec.twoPow 32 (range - 1).toNat.log2, fun u g => ?_⟩
  have done : ∀ x : BitVec 32, (x &&& mask (range - 1)).toNat < 2 ^ (range - 1).toNat.log2 →
      ∃ v, next range (x :: g) = some (v, g) := by
    intro x hx
    refine ⟨x &&& mask (range - 1), ?_⟩
    have hd : draw (range - 1) x = some (x &&& mask (range - 1)) := draw_iff.2 ⟨rfl, by omega⟩
    rw [next, if_neg h0, if_neg hne, loop, hd]
  have bit : ∀ x : BitVec 32, x.getLsbD (range - 1).toNat.log2 = false →
      (x &&& mask (range - 1)).toNat < 2 ^ (range - 1).toNat.log2 := by
    intro x hx
    have hx : x.toNat.testBit (range - 1).toNat.log2 = false := hx
    rw [Nat.testBit_eq_decide_div_mod_eq] at hx
    have hx := of_decide_eq_false hx
    rw [and_mask hr, Nat.pow_succ, Nat.mod_mul, show x.toNat / 2 ^ (range - 1).toNat.log2 % 2 = 0 by omega, Nat.mul_zero,
      Nat.add_zero]
    exact Nat.mod_lt x.toNat (Nat.two_pow_pos (range - 1).toNat.log2)
  cases hb : u.getLsbD (range - 1).toNat.log2 with
  | false => exact Or.inl (done u (bit u hb))
  | true =>
    refine Or.inr (done _ (bit _ ?_))
    rw [BitVec.getLsbD_xor, hb, BitVec.getLsbD_twoPow, decide_eq_true hk, decide_eq_true rfl]
    rfl

example : next 6 [7, 14, 13] = some (5, []) := by decide
example : (2 : Nat) ≤ (6 : BitVec 32).toNat ∧ (5 : BitVec 32).toNat < (6 : BitVec 32).toNat := by decide

/-! ## C194 -/

/-- The whole of C194: all values from `min` to `max`, and no others, are given. -/
def C194_full : Prop := ∀ (min max v : BitVec 32), min.toInt ≤ max.toInt →
  ((∃ g l, nextInRange min max g = some (v, l)) ↔ min.toInt ≤ v.toInt ∧ v.toInt ≤ max.toInt)

theorem range_toNat {min max : BitVec 32} (h : min.toInt ≤ max.toInt) (hf : max.toInt - min.toInt + 1 < 2 ^ 32) :
    ((max - min + 1).toNat : Int) = max.toInt - min.toInt + 1 := by
  have a := BitVec.toInt_eq_toNat_cond min
  have b := BitVec.toInt_eq_toNat_cond max
  have c := min.isLt
  have d := max.isLt
  rw [BitVec.toNat_add, BitVec.toNat_sub, show (1 : BitVec 32).toNat = 1 from rfl]
  split at a <;> split at b <;> omega

/-- The sum with the least value. -/
theorem add_min {min max v : BitVec 32} (h : min.toInt ≤ max.toInt) (hv : (v.toNat : Int) ≤ max.toInt - min.toInt) :
    (v + min).toInt = min.toInt + v.toNat := by
  have a := BitVec.toInt_eq_toNat_cond min
  have b := BitVec.toInt_eq_toNat_cond max
  have e := BitVec.toInt_eq_toNat_cond (v + min)
  have c := min.isLt
  have d := max.isLt
  rw [BitVec.toNat_add] at e
  split at a <;> split at b <;> split at e <;> omega

/-- Unless these are all values of the type. -/
theorem C194_range_partial {min max : BitVec 32} (h : min.toInt ≤ max.toInt) (hf : max.toInt - min.toInt + 1 < 2 ^ 32)
    (v : BitVec 32) : (∃ g l, nextInRange min max g = some (v, l)) ↔ min.toInt ≤ v.toInt ∧ v.toInt ≤ max.toInt := by
  have hr := range_toNat h hf
  have hs : max.slt min = false := by simp [BitVec.slt]; omega
  constructor
  · rintro ⟨g, l, hn⟩
    rw [nextInRange, hs, if_neg (by simp)] at hn
    cases hx : next (max - min + 1) g with
    | none => rw [hx] at hn; cases hn
    | some p =>
      rw [hx] at hn
      have hb := C193_below (v := p.1) (l := p.2) hx
      rw [← (Prod.mk.inj (Option.some.inj hn)).1, add_min h (by omega)]
      omega
  · rintro ⟨h1, h2⟩
    have hd : ((v - min).toNat : Int) = v.toInt - min.toInt := by
      have a := BitVec.toInt_eq_toNat_cond min
      have b := BitVec.toInt_eq_toNat_cond v
      have c := min.isLt
      have d := v.isLt
      rw [BitVec.toNat_sub]
      split at a <;> split at b <;> omega
    have he : v - min + min = v := BitVec.sub_add_cancel v min
    by_cases h1' : (max - min + 1).toNat = 1
    · refine ⟨[], [], ?_⟩
      have e1 : max - min + 1 = 1 := BitVec.eq_of_toNat_eq h1'
      have e2 : v - min = 0 := BitVec.eq_of_toNat_eq (by show _ = 0; omega)
      rw [e2] at he
      rw [nextInRange, hs, if_neg (by simp), e1]
      simp only [next, show (1 : BitVec 32) ≠ 0 by decide, if_false, if_true]
      rw [he]
    · refine ⟨[v - min], [], ?_⟩
      rw [nextInRange, hs, if_neg (by simp), C193_reached (by omega) (by omega)]
      simp only [he]

/-- For all values of the type the contract of `next` is violated. -/
theorem C194_all (g : List (BitVec 32)) : nextInRange (BitVec.intMin 32) (BitVec.intMax 32) g = none := by
  have h : BitVec.intMax 32 - BitVec.intMin 32 + 1 = 0 := by decide
  have hs : (BitVec.intMax 32).slt (BitVec.intMin 32) = false := by decide
  rw [nextInRange, hs, if_neg (by simp), h]
  rfl

theorem C194_fails : ¬ C194_full := by
  intro h
  obtain ⟨g, l, hn⟩ := (h (BitVec.intMin 32) (BitVec.intMax 32) 0 (by decide)).2 (by decide)
  rw [C194_all] at hn
  cases hn

example : nextInRange (-3) 2 [7, 14, 13] = some (2, []) := by decide
example : (-3 : BitVec 32).toInt ≤ (2 : BitVec 32).toInt ∧ (2 : BitVec 32).toInt - (-3 : BitVec 32).toInt + 1 < 2 ^ 32 := by decide

/-! ## C195 -/

/-- The whole of C195: a buffer of any length is filled with the bytes of the values, as many values as are needed. -/
def C195_full : Prop := ∀ (size len : Nat) (g : List (List UInt8)), 0 < size → (∀ v ∈ g, v.length = size) →
  len ≤ size * g.length → valueToBytes size len g = some (g.flatten.take len, g.drop ((len + size - 1) / size))

/-- Any length but zero. -/
theorem C195_bytes_partial (size : Nat) (hs : 0 < size) : ∀ (g : List (List UInt8)) (len : Nat), 0 < len → (∀ v ∈ g, v.length = size) →
    len ≤ size * g.length → valueToBytes size len g = some (g.flatten.take len, g.drop ((len + size - 1) / size)) := by
  intro g
  induction g with
  | nil => intro len hl _ h; simp at h; omega
  | cons v g ih =>
    intro len hl hg h
    obtain ⟨len, rfl⟩ : ∃ k, len = k + 1 := ⟨len - 1, by omega⟩
    have hv : v.length = size := hg v (by simp)
    rw [valueToBytes]
    by_cases hle : len + 1 ≤ size
    · rw [if_pos hle, List.flatten_cons, List.take_append_of_le_length (by omega)]
      have : (len + 1 + size - 1) / size = 1 := by
        rw [show len + 1 + size - 1 = len + size by omega, Nat.add_div_right _ hs, Nat.div_eq_of_lt (by omega)]
      rw [this, List.drop_succ_cons, List.drop_zero]
    · rw [List.length_cons, Nat.mul_succ] at h
      rw [if_neg hle, if_neg (by omega), ih (len + 1 - size) (by omega) (fun w hw => hg w (by simp [hw])) (by omega)]
      have e : (len + 1 + size - 1) / size = (len + 1 - size + size - 1) / size + 1 := by
        rw [← Nat.add_div_right _ hs]
        congr 1
        omega
      simp only
      rw [e, List.drop_succ_cons, List.flatten_cons, List.take_append, hv, List.take_of_length_le (l := v) (i := size) (by omega),
        List.take_of_length_le (l := v) (i := len + 1) (by omega)]

/-- For an empty buffer `unreachable` is reached. -/
theorem C195_empty (size : Nat) (g : List (List UInt8)) : valueToBytes size 0 g = none := by
  cases g <;> rfl

theorem C195_fails : ¬ C195_full := by
  intro h
  have := h 1 0 [] (by decide) (by simp) (by simp)
  rw [C195_empty] at this
  cases this

example : valueToBytes 4 6 [[1, 2, 3, 4], [5, 6, 7, 8], [9, 9, 9, 9]] = some ([1, 2, 3, 4, 5, 6], [[9, 9, 9, 9]]) := by decide

end C3.Random
