import Verif.Fmt.Spec

set_option autoImplicit false

namespace C3.Fmt
open Std

/-! ## Digits -/

/-- The table of the specification. -/
def tableChar (upper : Bool) (d : Nat) : Byte :=
  ch ((if upper then ['0', '1', '2', '3', '4', '5', '6', '7', '8', '9', 'A',
    'B', 'C', 'D', 'E', 'F'] else ['0', '1', '2', '3', '4', '5', '6', '7', '8', '9', 'a', 'b', 'c', 'd', 'e', 'f']).getD
    d ' ')

theorem digitChar_eq (upper : Bool) (d : Nat) (h : d < 16) : digitChar upper d = tableChar upper d := by
  have : ∀ (u : Bool) (d : Fin 16), digitChar u d.1 = tableChar u d.1 := by decide +kernel
  exact this upper ⟨d, h⟩

/-- The digits as the buffer has them, the lowest first. -/
def low (base : Nat) (upper : Bool) (n : Nat) : List Byte :=
  if n = 0 then [ch '0'] else (Nat.digits base n).map (tableChar upper)

theorem numeral_eq (base : Nat) (upper : Bool) (n : Nat) : numeral base upper n = (low base upper n).reverse := by
  unfold numeral low
  split
  · rfl
  · rfl

theorem low_step (base : Nat) (hb : 1 < base) (upper : Bool) (n : Nat) (h : base ≤ n) :
    low base upper n = tableChar upper (n % base) :: low base upper (n / base) := by
  have h1 : n ≠ 0 := by omega
  have h2 : n / base ≠ 0 := by
    have := Nat.div_pos h (by omega); omega
  rw [low, if_neg h1, low, if_neg h2, Nat.digits_def' hb (by omega)]
  rfl

theorem low_small (base : Nat) (hb : 1 < base) (upper : Bool) (n : Nat) (h : n < base) :
    low base upper n = [tableChar upper n] := by
  unfold low
  by_cases h0 : n = 0
  · subst h0
    cases upper <;> rfl
  · rw [if_neg h0, Nat.digits_of_lt base n h0 h]
    rfl

theorem low_length_pos (base : Nat) (upper : Bool) (n : Nat) : 0 < (low base upper n).length := by
  unfold low
  by_cases h0 : n = 0
  · rw [if_pos h0]; simp
  · rw [if_neg h0, List.length_map]
    rcases Nat.eq_zero_or_pos (Nat.digits base n).length with h | h
    · rw [List.length_eq_zero_iff, Nat.digits_eq_nil_iff_eq_zero] at h
      exact absurd h h0
    · exact h

theorem low_length_le (base : Nat) (hb : 1 < base) (upper : Bool) (n : Nat) (h : n < 2 ^ 128) :
    (low base upper n).length ≤ 128 := by
  unfold low
  by_cases h0 : n = 0
  · rw [if_pos h0]; simp
  · rw [if_neg h0, List.length_map, Nat.digits_length_le_iff hb]
    exact Nat.lt_of_lt_of_le h (Nat.pow_le_pow_left hb 128)

theorem digits_eq (base : Nat) (hb : 1 < base) (hb' : base ≤ 16) (upper : Bool) (room : Nat) :
    ∀ (n : Nat) (buf : List Byte), (low base upper n).length ≤ room →
    digits base upper room n buf = .ok (buf ++ low base upper n) := by
  induction room with
  | zero =>
    intro n buf h
    have := low_length_pos base upper n
    omega
  | succ room ih =>
    intro n buf h
    rw [digits]
    have hm : n % base < 16 := Nat.lt_of_lt_of_le (Nat.mod_lt _ (by omega)) hb'
    simp only [digitChar_eq upper _ hm]
    by_cases hn : n < base
    · rw [if_pos (Nat.div_eq_of_lt hn), low_small base hb upper n hn, Nat.mod_eq_of_lt hn]
    · have hn : base ≤ n := by omega
      have hd : n / base ≠ 0 := by
        have := Nat.div_pos hn (by omega); omega
      rw [low_step base hb upper n hn] at h ⊢
      rw [if_neg hd, ih _ _ (by simpa using h)]
      simp

/-! ## Zeros in front -/

theorem padZeros_eq (target room : Nat) : ∀ buf : List Byte, target ≤ buf.length + room →
    padZeros target room buf = .ok (buf ++ zeros (target - buf.length)) := by
  induction room with
  | zero =>
    intro buf h
    rw [padZeros, if_neg (by omega)]
    have : target - buf.length = 0 := by omega
    rw [this]; simp [zeros]
  | succ room ih =>
    intro buf h
    rw [padZeros]
    by_cases hl : buf.length < target
    · rw [if_pos hl, ih _ (by simp only [List.length_append, List.length_singleton]; omega)]
      have : target - buf.length = (target - (buf ++ [ch '0']).length) + 1 := by
        simp only [List.length_append, List.length_singleton]; omega
      rw [this, zeros, zeros, List.replicate_succ]
      simp
    · rw [if_neg hl]
      have : target - buf.length = 0 := by omega
      rw [this]; simp [zeros]

/-! ## `ntoa_format` -/

/-- The sign in the buffer. -/
def signOf (f : Fmt) (neg : Bool) : List Byte :=
  if neg then [ch '-'] else if f.flags.plus then [ch '+'] else if f.flags.space then [ch ' '] else []

/-- How many zeros are put in front. -/
def zerosOf (f : Fmt) (len : Nat) (neg : Bool) : Nat :=
  if f.flags.left then 0
  else if f.flags.zeropad then
    max (f.prec - len) ((f.width - (signOf f neg).length) - len)
  else f.prec - len

/-- The prefix in the buffer. -/
def prefixOf (f : Fmt) (base : Nat) : List Byte :=
  if f.flags.hash ∧ base ≠ 10 then [baseLetter base f.flags.uppercase, ch '0'] else []

theorem leading_eq (f : Fmt) (buf : List Byte) (neg : Bool) (hb : buf.length ≤ 128) (hp : f.prec ≤ 253)
    (hw : f.flags.zeropad = true → f.width ≤ 253) :
    leading f buf neg = .ok (buf ++ zeros (zerosOf f buf.length neg)) := by
  unfold leading zerosOf
  by_cases hl : f.flags.left = true
  · rw [if_pos hl, if_pos hl]; simp [zeros]
  · rw [if_neg hl, if_neg hl]
    rw [padZeros_eq _ _ _ (by unfold bufferSize; omega)]
    by_cases hz : f.flags.zeropad = true
    · simp only [hz, if_true, bind, Except.bind]
      have hw := hw hz
      have hwid : (if f.width ≠ 0 ∧ True ∧ (neg = true ∨ f.flags.plus = true ∨ f.flags.space = true)
          then f.width - 1 else f.width) = f.width - (signOf f neg).length := by
        unfold signOf
        by_cases h1 : neg = true
        · simp only [h1, if_true, true_or, and_true, List.length_singleton]
          split <;> omega
        · by_cases h2 : f.flags.plus = true
          · simp only [h1, h2, if_true, true_or, or_true, and_true, List.length_singleton, Bool.false_eq_true, if_false]
            split <;> omega
          · by_cases h3 : f.flags.space = true
            · simp only [h1, h2, h3, if_true, or_true, and_true, List.length_singleton, Bool.false_eq_true, if_false]
              split <;> omega
            · simp [h1, h2, h3]
      rw [hwid, padZeros_eq _ _ _ (by
        simp only [List.length_append, zeros, List.length_replicate]; unfold bufferSize; omega)]
      simp only [List.append_assoc, zeros, List.replicate_append_replicate, List.length_append,
        List.length_replicate]
      congr 3
      omega
    · simp [hz, bind, Except.bind]

theorem ntoaFormat_eq (f : Fmt) (buf : List Byte) (neg : Bool) (base : Nat) (hb : buf.length ≤ 128)
    (hp : f.prec ≤ 253) (hp0 : f.flags.precision = false → f.prec = 0)
    (hw : f.flags.zeropad = true → f.width ≤ 253) :
    ntoaFormat f buf neg base =
      (let s := signOf f neg ++ (prefixOf f base).reverse ++ zeros (zerosOf f buf.length neg) ++ buf.reverse
       .ok ⟨if s = [] then [] else
          if f.flags.left then s ++ spaces (f.width - s.length)
          else if f.flags.zeropad then s else spaces (f.width - s.length) ++ s, s.length, none⟩) := by
  have hz : zerosOf f buf.length neg + buf.length ≤ 253 := by
    unfold zerosOf
    split
    · omega
    · split
      · rename_i hzp; have := hw hzp; omega
      · omega
  have h2 : hashed f (buf ++ zeros (zerosOf f buf.length neg)) base =
      .ok (buf ++ zeros (zerosOf f buf.length neg) ++ prefixOf f base) := by
    unfold hashed prefixOf
    by_cases hh : f.flags.hash = true ∧ base ≠ 10
    · rw [if_pos hh, if_pos hh]
      have hn : ¬ (¬ f.flags.precision = true ∧ (buf ++ zeros (zerosOf f buf.length neg)).length ≠ 0 ∧
          (buf ++ zeros (zerosOf f buf.length neg)).length = f.prec ∧
          (buf ++ zeros (zerosOf f buf.length neg)).length = f.width) := by
        rintro ⟨a, b, c, _⟩
        rw [hp0 (by simpa using a)] at c
        exact b c
      simp only [if_neg hn]
      rw [if_neg (by simp only [List.length_append, zeros, List.length_replicate]; unfold bufferSize; omega)]
    · rw [if_neg hh, if_neg hh]; simp
  have hpl : (prefixOf f base).length ≤ 2 := by unfold prefixOf; split <;> simp
  have h3 : signed f (buf ++ zeros (zerosOf f buf.length neg) ++ prefixOf f base) neg =
      .ok (buf ++ zeros (zerosOf f buf.length neg) ++ prefixOf f base ++ signOf f neg) := by
    have hlt : ¬ (buf ++ zeros (zerosOf f buf.length neg) ++ prefixOf f base).length ≥ bufferSize := by
      simp only [List.length_append, zeros, List.length_replicate]; unfold bufferSize; omega
    unfold signed signOf
    simp only [if_neg hlt]
    split
    · rfl
    · split
      · rfl
      · split
        · rfl
        · simp
  have hs : (signOf f neg).reverse = signOf f neg := by
    unfold signOf; split <;> [rfl; (split <;> [rfl; (split <;> rfl)])]
  have hrev : (buf ++ zeros (zerosOf f buf.length neg) ++ prefixOf f base ++ signOf f neg).reverse =
      signOf f neg ++ (prefixOf f base).reverse ++ zeros (zerosOf f buf.length neg) ++ buf.reverse := by
    simp only [List.reverse_append, hs, zeros, List.reverse_replicate, List.append_assoc]
  rw [ntoaFormat, leading_eq f buf neg hb hp hw]
  simp only [bind, Except.bind, h2, h3]
  rw [← hrev]
  generalize buf ++ zeros (zerosOf f buf.length neg) ++ prefixOf f base ++ signOf f neg = t
  by_cases ht : t = []
  · subst ht; rfl
  · have hl : t.length ≠ 0 := fun e => ht (List.length_eq_zero_iff.1 e)
    have hr : t.reverse ≠ [] := fun e => ht (List.reverse_eq_nil_iff.1 e)
    rw [if_pos hl, if_neg hr, outReverse]
    simp only [adjust, pad, List.length_reverse, spaces]
    by_cases h1 : f.flags.left = true
    · simp [h1]
    · by_cases h2 : f.flags.zeropad = true
      · simp [h1, h2]
      · simp [h1, h2]

theorem ntoa_eq (f : Fmt) (v : BitVec 128) (neg : Bool) (base : Nat) (hbase : 1 < base) (hbase' : base ≤ 16) :
    ntoa f v neg base = ntoaFormat (if v = 0 then { f with flags := { f.flags with hash := false } } else f)
      (if f.flags.precision = true ∧ v = 0 then [] else low base f.flags.uppercase v.toNat) neg base := by
  have hlen : (low base f.flags.uppercase v.toNat).length ≤ bufferSize :=
    Nat.le_trans (low_length_le base hbase _ _ v.isLt) (by decide)
  unfold ntoa
  by_cases hv : v = 0
  · simp only [hv, if_true]
    by_cases hp : f.flags.precision = true
    · simp [hp, bind, Except.bind]
    · rw [hv] at hlen
      simp only [hp, bind, Except.bind]
      rw [if_pos (by simp), digits_eq base hbase hbase' _ _ _ _ hlen]
      simp
  · simp only [hv, if_false]
    rw [if_pos (.inr hv), digits_eq base hbase hbase' _ _ _ _ hlen]
    simp [bind, Except.bind]

/-! ## Integers -/

theorem intFromAny_eq (s : Bool) (w : Nat) (x : BitVec w) (hw : w ≤ 128) :
    ∃ m : BitVec 128, intFromAny (.int s w x) = .ok (decide (value (.int s w x) < 0), m) ∧
      m.toNat = (value (.int s w x)).natAbs := by
  cases s with
  | false =>
    refine ⟨x.zeroExtend 128, ?_, ?_⟩
    · have : ¬ value (.int false w x) < 0 := by simp only [value]; omega
      simp only [intFromAny, decide_eq_false this]
    · have h := x.isLt
      have : 2 ^ w ≤ 2 ^ 128 := Nat.pow_le_pow_right (by decide) hw
      simp only [value, BitVec.zeroExtend, BitVec.toNat_setWidth, Int.natAbs_natCast]
      exact Nat.mod_eq_of_lt (by omega)
  | true =>
    have he : (x.signExtend 128).toInt = x.toInt := BitVec.toInt_signExtend_of_le hw
    have hx : value (.int true w x) = x.toInt := rfl
    rw [hx]
    by_cases hn : x.toInt < 0
    · refine ⟨~~~ x.signExtend 128 + 1, ?_, ?_⟩
      · simp only [intFromAny, hn, if_true, decide_true]
      · have : ~~~ x.signExtend 128 + 1 = - x.signExtend 128 := BitVec.neg_eq_not_add _ |>.symm
        rw [this, ← he, BitVec.toNat_neg]
        rw [← he] at hn
        have hlt := (x.signExtend 128).isLt
        have := BitVec.toInt_eq_toNat_cond (x := x.signExtend 128)
        rw [this] at hn ⊢
        by_cases hc : 2 * (x.signExtend 128).toNat < 2 ^ 128
        · rw [if_pos hc] at hn; omega
        · rw [if_neg hc]
          omega
    · refine ⟨x.signExtend 128, ?_, ?_⟩
      · simp only [intFromAny, hn, if_false, decide_false]
      · rw [← he]
        rw [← he] at hn
        have hlt := (x.signExtend 128).isLt
        have := BitVec.toInt_eq_toNat_cond (x := x.signExtend 128)
        rw [this] at hn ⊢
        by_cases hc : 2 * (x.signExtend 128).toNat < 2 ^ 128
        · rw [if_pos hc]; omega
        · rw [if_neg hc] at hn; omega

end C3.Fmt
