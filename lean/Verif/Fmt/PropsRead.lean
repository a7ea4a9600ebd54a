import Verif.Fmt.Props
import Verif.Str.PropsInt

/-! # Printed integers are read back

`to_integer` is the model of `String.to_integer` (`Verif/Str`). -/

set_option autoImplicit false

namespace C3.Fmt
open Std
open C3.Str C3.Str.Spec

theorem digit_char (upper : Bool) (d : Nat) (h : d < 16) :
    C3.Hex.digitVal (tableChar upper d) = some d ∧ tableChar upper d ≠ 45#8 := by
  have : ∀ (u : Bool) (d : Fin 16), C3.Hex.digitVal (tableChar u d.1) = some d.1 ∧ tableChar u d.1 ≠ 45#8 := by
    decide +kernel
  exact this upper ⟨d, h⟩

/-- A numeral has its value. -/
theorem numeral_digits (base : Nat) (hb : 1 < base) (hb' : base ≤ 16) (upper : Bool) (n : Nat) :
    Digits base (numeral base upper n) n ∧ 45#8 ∉ numeral base upper n := by
  induction n using Nat.strongRecOn with
  | _ n ih =>
    by_cases h : n < base
    · have e : numeral base upper n = [tableChar upper n] := by rw [numeral_eq, low_small base hb upper n h]; rfl
      obtain ⟨h1, h2⟩ := digit_char upper n (by omega)
      rw [e]
      exact ⟨.one _ _ h1 h, by simpa using h2.symm⟩
    · have hm : n % base < base := Nat.mod_lt _ (by omega)
      obtain ⟨h1, h2⟩ := digit_char upper (n % base) (by omega)
      obtain ⟨g1, g2⟩ := ih (n / base) (Nat.div_lt_self (by omega) hb)
      have e : numeral base upper n = numeral base upper (n / base) ++ [tableChar upper (n % base)] := by
        rw [numeral_eq, numeral_eq, low_step base hb upper n (by omega), List.reverse_cons]
      have := Digits.more _ _ _ _ g1 h1 hm
      rw [Nat.div_add_mod'] at this
      rw [e]
      refine ⟨this, ?_⟩
      rw [List.mem_append]
      rintro (hh | hh)
      · exact g2 hh
      · exact h2 (List.mem_singleton.1 hh).symm

theorem Digits.zeros {base : Nat} (hb : 1 < base) {s : List Byte} {n : Nat} (h : Digits base s n) (k : Nat) :
    Digits base (Std.zeros k ++ s) n := by
  induction h with
  | one c v h1 h2 =>
    have hz : ∀ k, Digits base (Std.zeros (k + 1)) 0 := by
      intro k
      induction k with
      | zero => exact .one (ch '0') 0 (by decide) (by omega)
      | succ k ih =>
        have := Digits.more _ _ (ch '0') 0 ih (by decide) (by omega)
        rw [Nat.zero_mul] at this
        rw [zeros_succ]; exact this
    cases k with
    | zero => exact .one c v h1 h2
    | succ k =>
      have := Digits.more _ _ c v (hz k) h1 h2
      rw [Nat.zero_mul, Nat.zero_add] at this
      exact this
  | more s n c v _ h1 h2 ih =>
    rw [← List.append_assoc]
    exact .more _ _ c v ih h1 h2

/-- The shape of what is printed. -/
theorem int_shape (D : Dir) (c : Conv) (v : Int) (hm : .minus ∉ D.flags) (h0 : ¬ (v = 0 ∧ D.prec = some 0)) :
    ∃ a b, D.int c v = spaces a ++ (D.sign c v ++ (D.pre c v ++ (zeros b ++ numeral c.base c.upper v.natAbs))) := by
  have hd : D.digits c v = numeral c.base c.upper v.natAbs := by unfold Dir.digits; rw [if_neg h0]
  unfold Dir.int
  simp only [hd]
  split
  · rename_i h
    rw [h.2.2]
    refine ⟨0, D.width - ((D.sign c v ++ D.pre c v).length + (numeral c.base c.upper v.natAbs).length), ?_⟩
    simp [spaces, zeros]
  · unfold Dir.field
    rw [if_neg hm]
    exact ⟨_, _, by simp only [List.append_assoc]; rfl⟩

/-- **C123.** What a directive prints for an integer, `String.to_integer` of the same type reads back: in base 10 for `%d`
and with the flag `#`, in the base of the conversion otherwise. The field is filled from the right, and there is at
least one digit.

`D.Ok`, `w ≤ 128` and `Clean` are those of `C117_int_partial`. -/
theorem C123_read (D : Dir) (c : Conv) (s : Bool) (w : Nat) (x : BitVec w) (hD : D.Ok) (hw0 : 0 < w) (hw : w ≤ 128)
    (h : Clean D c (val s x)) (hm : .minus ∉ D.flags) (h0 : ¬ (val s x = 0 ∧ D.prec = some 0)) :
    ∃ out n, vprintf (D.text c.char) [.int s w x] = .ok (out, n) ∧
      to_integer ⟨w, s⟩ (if .alt ∈ D.flags then 10 else c.base) out = .ok (val s x) := by
  obtain ⟨n, hn⟩ := C117_int_partial D c s w x hD hw h
  refine ⟨_, n, hn, ?_⟩
  obtain ⟨a, b, e⟩ := int_shape D c (val s x) hm h0
  obtain ⟨hb1, hb2⟩ := Conv.base_bounds c
  obtain ⟨d1, d2⟩ := numeral_digits c.base hb1 hb2 c.upper (val s x).natAbs
  have dz := Digits.zeros hb1 d1 b
  -- the body
  have body : ∃ b', Body (if .alt ∈ D.flags then 10 else c.base) b' (D.pre c (val s x) ++
      (zeros b ++ numeral c.base c.upper (val s x).natAbs)) (val s x).natAbs := by
    unfold Dir.pre
    by_cases ha : .alt ∈ D.flags
    · by_cases hc : c = .d
      · subst hc
        simp only [ha, ne_eq, not_true_eq_false, false_and, and_false, if_false, if_true, List.nil_append]
        exact ⟨10, .plain _ _ dz⟩
      · by_cases hv : val s x = 0
        · simp only [hv, ne_eq, not_true_eq_false, and_false, if_false, List.nil_append, ha, if_true]
          have : numeral c.base c.upper (0 : Int).natAbs = [ch '0'] := rfl
          rw [this]
          exact ⟨10, .plain _ _ (Digits.zeros (by decide) (.one (ch '0') 0 (by decide) (by decide)) b)⟩
        · simp only [ha, hc, hv, ne_eq, not_false_eq_true, and_self, if_true]
          cases c with
          | d => exact absurd rfl hc
          | x => exact ⟨16, .hex _ _ _ rfl (by decide) dz⟩
          | X => exact ⟨16, .hex _ _ _ rfl (by decide) dz⟩
          | o => exact ⟨8, .oct _ _ _ rfl (by decide) dz⟩
          | O => exact ⟨8, .oct _ _ _ rfl (by decide) dz⟩
          | b => exact ⟨2, .bin _ _ _ rfl (by decide) dz⟩
          | B => exact ⟨2, .bin _ _ _ rfl (by decide) dz⟩
    · simp only [ha, false_and, if_false, List.nil_append]
      exact ⟨c.base, .plain _ _ dz⟩
  obtain ⟨b', hbody⟩ := body
  have blank : ∀ k, ∀ q ∈ spaces k, q ∈ C3.Codec.ascii [' ', '\t'] := by
    intro k q hq
    rw [List.eq_of_mem_replicate hq]; decide
  have reads : Reads (if .alt ∈ D.flags then 10 else c.base) b' (D.int c (val s x)) (val s x) := by
    rw [e]
    have hs : D.sign c (val s x) = [ch '-'] ∧ val s x < 0 ∨ (0 ≤ val s x ∧
        (D.sign c (val s x) = [] ∨ D.sign c (val s x) = [ch '+'] ∨ D.sign c (val s x) = [ch ' '])) := by
      unfold Dir.sign
      by_cases h1 : val s x < 0
      · rw [if_pos h1]; exact .inl ⟨rfl, h1⟩
      · rw [if_neg h1]
        refine .inr ⟨by omega, ?_⟩
        split
        · exact .inl rfl
        · split
          · exact .inr (.inl rfl)
          · split
            · exact .inr (.inr rfl)
            · exact .inl rfl
    rcases hs with ⟨h1, h2⟩ | ⟨h1, h2 | h2 | h2⟩
    · rw [h1]
      exact ⟨spaces a, [ch '-'], _, _, rfl, blank a, hbody, .inr ⟨by decide, by omega⟩⟩
    · rw [h2]
      exact ⟨spaces a, [], _, _, rfl, blank a, hbody, .inl ⟨by simp, by omega⟩⟩
    · rw [h2]
      exact ⟨spaces a, [ch '+'], _, _, rfl, blank a, hbody, .inl ⟨by decide, by omega⟩⟩
    · rw [h2]
      refine ⟨spaces (a + 1), [], _, _, ?_, blank _, hbody, .inl ⟨by simp, by omega⟩⟩
      have : spaces (a + 1) = spaces a ++ [ch ' '] := List.replicate_succ'
      rw [this]; simp
  have base_ok : BaseOk (if .alt ∈ D.flags then 10 else c.base) := by
    split
    · exact .inl (by decide)
    · cases c <;> first | exact .inl (by decide) | exact .inr rfl
  refine C53_accepts (t := ⟨w, s⟩) hw0 base_ok reads ?_ ?_
  · unfold Fits Ty.min Ty.max
    cases s with
    | true =>
      simp only [if_true, val]
      have h1 := BitVec.le_toInt x
      have h2 := BitVec.toInt_lt (x := x)
      omega
    | false =>
      simp only [Bool.false_eq_true, if_false, val]
      have h1 := x.isLt
      have h2 : ((2 ^ w : Nat) : Int) = (2 : Int) ^ w := by simp
      omega
  · cases s with
    | true => exact .inl rfl
    | false =>
      refine .inr ?_
      have hv : 0 ≤ val false x := by simp only [val, Bool.false_eq_true, if_false]; omega
      rw [e]
      simp only [List.mem_append, not_or]
      refine ⟨?_, ?_, ?_, ?_, d2⟩
      · intro hq
        have hq := List.eq_of_mem_replicate hq
        revert hq; decide
      · unfold Dir.sign
        rw [if_neg (by omega)]
        split
        · simp
        · split
          · decide
          · split
            · decide
            · simp
      · unfold Dir.pre
        split
        · cases c <;> decide
        · simp
      · intro hq
        have hq := List.eq_of_mem_replicate hq
        revert hq; decide

/-- `%#b` of -5, and what is read. -/
example : vprintf (txt ['%', '#', 'b']) [.int true 8 (-5)] = .ok (txt ['-', '0', 'b', '1', '0', '1'], 6) ∧
    to_integer ⟨8, true⟩ 10 (txt ['-', '0', 'b', '1', '0', '1']) = .ok (-5) := by decide +kernel

end C3.Fmt
