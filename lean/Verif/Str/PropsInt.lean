import Verif.Str.LemmasInt

/-!
# C53: `String.to_integer`

`Spec.Reads base b s v` says that the text `s` denotes the integer `v`, its digits being of base `b`.
-/

set_option autoImplicit false

namespace C3.Str
open C3.Codec Spec

/-- The texts of the examples. -/
theorem reads_hex_ff : Reads 10 16 (ascii [' ', '-', '0', 'x', 'f', 'F']) (-255) :=
  ⟨ascii [' '], ascii ['-'], ascii ['0', 'x', 'f', 'F'], 255, rfl, by decide,
    .hex 120#8 _ 255 rfl (by decide) (.more [102#8] 15 70#8 15 (.one _ _ (by decide) (by decide)) (by decide) (by decide)),
    .inr ⟨rfl, rfl⟩⟩

theorem reads_300 : Reads 10 10 (ascii ['3', '0', '0']) 300 :=
  ⟨[], [], ascii ['3', '0', '0'], 300, rfl, by simp,
    .plain _ _ (.more [51#8, 48#8] 30 48#8 0 (.more [51#8] 3 48#8 0 (.one _ _ (by decide) (by decide)) (by decide) (by decide))
      (by decide) (by decide)), .inl ⟨by simp, rfl⟩⟩

/-- **C53, accepts.**  A text that denotes a value of the type is read as that value, whatever the type and base. -/
theorem C53_accepts {t : Ty} (hbits : 0 < t.bits) {base b : Nat} (hbase : BaseOk base) {s : List Byte} {v : Int}
    (h : Reads base b s v) (hf : Fits t v) (hu : t.signed = true ∨ 45#8 ∉ s) : to_integer t base s = .ok v := by
  rcases to_integer_reads hbits h with ⟨neg, n, bd, rfl, hb, -, e⟩ | ⟨hs, -, hm, e⟩
  · rw [e]
    obtain ⟨hb', ⟨rfl, e'⟩ | ⟨u, hd, e'⟩⟩ := body_eq (t := t) (neg := neg) hbase hb
    · rw [e']; cases neg <;> rfl
    · rw [e']; exact digits_accept hbits hb' hd hf
  · rcases hu with hu | hu
    · rw [hs] at hu; cases hu
    · exact absurd hm hu

example : to_integer ⟨32, true⟩ 10 (ascii [' ', '-', '0', 'x', 'f', 'F']) = .ok (-255) :=
  C53_accepts (by decide) (.inl (by decide)) reads_hex_ff (by unfold Fits; decide) (.inl rfl)

/-- **C53, sound.**  What is read is the value of a text, modulo 2^bits.

Missing from the property: `:;<=>?` are refused as digits (`C53_colon` shows that they are not in base 16), and the
value is the one of the text itself (`C53_wraps` shows that it may be another one, `C53_overflow_partial` for which texts
`INTEGER_OVERFLOW` is returned). -/
theorem C53_sound_partial {t : Ty} (hbits : 0 < t.bits) {base : Nat} (hbase : BaseOk base) {s : List Byte} {v : Int}
    (hs : ∀ c ∈ s, c ∉ ascii [':', ';', '<', '=', '>', '?']) (h : to_integer t base s = .ok v) :
    ∃ b x k, Reads base b s x ∧ Fits t v ∧ v = x + k * 2 ^ t.bits := by
  obtain ⟨w, hw, hb⟩ := skipBlank_split s
  have hcol : ∀ n < 256, BitVec.ofNat 8 n ∉ ascii [':', ';', '<', '=', '>', '?'] →
      ¬ (58 ≤ (BitVec.ofNat 8 n).toNat ∧ (BitVec.ofNat 8 n).toNat ≤ 63) := by decide +kernel
  have hs' : ∀ c ∈ s, ¬ (58 ≤ c.toNat ∧ c.toNat ≤ 63) := fun c hc =>
    byte_all (p := fun c => c ∉ ascii [':', ';', '<', '=', '>', '?'] → ¬ (58 ≤ c.toNat ∧ c.toNat ≤ 63)) hcol c (hs c hc)
  rw [to_integer_eq] at h
  -- the sign
  have hsign : ∃ sg neg r, skipBlank s = sg ++ r ∧ sign t (skipBlank s) = .ok (neg, r) ∧
      ((sg ∈ [[], ascii ['+']] ∧ neg = false) ∨ (sg = ascii ['-'] ∧ neg = true)) := by
    cases hk : skipBlank s with
    | nil => rw [hk] at h; simp [sign] at h
    | cons c u =>
      rw [hk, sign] at h
      rw [sign]
      by_cases h1 : c = 45#8
      · rw [if_pos h1] at h ⊢
        by_cases h2 : t.min = 0
        · rw [if_pos h2] at h; cases h
        · rw [if_neg h2]
          exact ⟨ascii ['-'], true, u, by rw [h1]; rfl, rfl, .inr ⟨rfl, rfl⟩⟩
      · rw [if_neg h1]
        by_cases h2 : c = 43#8
        · rw [if_pos h2]
          exact ⟨ascii ['+'], false, u, by rw [h2]; rfl, rfl, .inl ⟨by simp, rfl⟩⟩
        · rw [if_neg h2]
          exact ⟨[], false, c :: u, rfl, rfl, .inl ⟨by simp, rfl⟩⟩
  obtain ⟨sg, neg, r, hr, hsg, hneg⟩ := hsign
  rw [hsg] at h
  simp only at h
  have hrs : ∀ c ∈ r, ¬ (58 ≤ c.toNat ∧ c.toNat ≤ 63) := fun c hc => hs' c (by rw [hw, hr]; simp [hc])
  suffices hmain : ∃ b n k, Body base b r n ∧ Fits t v ∧ v = signed neg n + k * 2 ^ t.bits by
    obtain ⟨b, n, k, h1, h2, h3⟩ := hmain
    refine ⟨b, signed neg n, k, ⟨w, sg, r, n, by rw [← hr]; exact hw, hb, h1, ?_⟩, h2, h3⟩
    rcases hneg with ⟨h4, rfl⟩ | ⟨h4, rfl⟩
    · exact .inl ⟨h4, rfl⟩
    · exact .inr ⟨h4, rfl⟩
  have loop : ∀ (b : Nat) (u : List Byte), BaseOk b → u ≠ [] → (∀ c ∈ u, ¬ (58 ≤ c.toNat ∧ c.toNat ≤ 63)) → digits t b neg u 0 = .ok v →
      ∃ n k, Digits b u n ∧ Fits t v ∧ v = signed neg n + k * 2 ^ t.bits := by
    intro b u hb' hne hcu hd
    obtain ⟨n, h1, h2, k, h3⟩ := digits_sound hbits hb' u [] 0 0 v (fun _ => hcu) (.inl ⟨rfl, rfl⟩) (by simpa using hne) (zero_fits hbits)
      ⟨0, by cases neg <;> simp [signed]⟩ hd
    exact ⟨n, k, by simpa using h1, h2, h3⟩
  cases r with
  | nil => simp [body] at h
  | cons c u =>
    simp only [body] at h
    by_cases hc : c = 48#8 ∧ base = 10
    · obtain ⟨rfl, rfl⟩ := hc
      rw [if_pos (by simp)] at h
      by_cases hu : u = []
      · rw [if_pos hu] at h
        simp only [Except.ok.injEq] at h
        subst hu h
        exact ⟨10, 0, 0, .plain _ _ (.one _ _ (by decide) (by decide)), zero_fits hbits, by cases neg <;> simp [signed]⟩
      · rw [if_neg hu] at h
        obtain ⟨x, u, rfl⟩ := List.exists_cons_of_ne_nil hu
        have hcu : ∀ c ∈ u, ¬ (58 ≤ c.toNat ∧ c.toNat ≤ 63) := fun c hc => hrs c (by simp [hc])
        rw [radix] at h
        by_cases h1 : x = 120#8 ∨ x = 88#8
        · rw [if_pos (by simpa using h1)] at h
          cases u with
          | nil => cases h
          | cons d u =>
            obtain ⟨n, k, h2, h3, h4⟩ := loop 16 _ (.inr rfl) (by simp) hcu h
            exact ⟨16, n, k, .hex x _ n rfl (by simpa [ascii] using h1) h2, h3, h4⟩
        · rw [if_neg (by simpa using h1)] at h
          by_cases h1 : x = 98#8 ∨ x = 66#8
          · rw [if_pos (by simpa using h1)] at h
            cases u with
            | nil => cases h
            | cons d u =>
              obtain ⟨n, k, h2, h3, h4⟩ := loop 2 _ (.inl (by omega)) (by simp) hcu h
              exact ⟨2, n, k, .bin x _ n rfl (by simpa [ascii] using h1) h2, h3, h4⟩
          · rw [if_neg (by simpa using h1)] at h
            by_cases h1 : x = 111#8 ∨ x = 79#8
            · rw [if_pos (by simpa using h1)] at h
              cases u with
              | nil => cases h
              | cons d u =>
                obtain ⟨n, k, h2, h3, h4⟩ := loop 8 _ (.inl (by omega)) (by simp) hcu h
                exact ⟨8, n, k, .oct x _ n rfl (by simpa [ascii] using h1) h2, h3, h4⟩
            · rw [if_neg (by simpa using h1)] at h
              have h : digits t 10 neg (x :: u) 0 = .ok v := h
              have h' : digits t 10 neg (48#8 :: x :: u) 0 = .ok v := by
                have e0 : digit 10 48#8 = .ok 0 := by decide
                rw [digits_cons, e0]
                simp only
                have : step t 10 neg 0 0 = .ok 0 := by
                  have := wrap_of_fits hbits (zero_fits hbits)
                  unfold step
                  cases neg <;> simp [this]
                rw [this]
                exact h
              obtain ⟨n, k, h2, h3, h4⟩ := loop 10 _ (.inl (by omega)) (by simp) hrs h'
              exact ⟨10, n, k, .plain _ n h2, h3, h4⟩
    · rw [if_neg (by simpa using hc)] at h
      obtain ⟨n, k, h2, h3, h4⟩ := loop base _ hbase (by simp) hrs h
      exact ⟨base, n, k, .plain _ n h2, h3, h4⟩

example : ∃ b x k, Reads 10 b (ascii ['3', '0', '0']) x ∧ Fits ⟨16, false⟩ 300 ∧ (300 : Int) = x + k * 2 ^ 16 :=
  C53_sound_partial (t := ⟨16, false⟩) (by decide) (.inl (by decide)) (by decide)
    (C53_accepts (by decide) (.inl (by decide)) reads_300 (by unfold Fits; decide) (.inr (by decide)))

/-- **C53, negative.**  A text with a minus sign is refused by the unsigned types as negative. -/
theorem C53_negative {t : Ty} (ht : t.signed = false) {base : Nat} (w s : List Byte) (hw : ∀ c ∈ w, c ∈ ascii [' ', '\t']) :
    to_integer t base (w ++ 45#8 :: s) = .error .NEGATIVE_VALUE := by
  rw [to_integer_eq, skipBlank_append w _ hw (by intro c hc; simp at hc; subst hc; decide), sign, if_pos rfl, if_pos]
  unfold Ty.min
  rw [ht]
  rfl

example : to_integer ⟨32, false⟩ 10 (ascii [' ', '-', '1']) = .error .NEGATIVE_VALUE :=
  C53_negative rfl (ascii [' ']) (ascii ['1']) (by decide)

/-- **C53, overflow.**  A value outside of the type is refused if it is below 2^bits + 2^bits / base for unsigned types
and if its magnitude is below 2^bits for signed ones.

Missing from the property: values further out (`C53_wraps`). -/
theorem C53_overflow_partial {t : Ty} (hbits : 0 < t.bits) {base b : Nat} (hbase : BaseOk base) {s : List Byte} {v : Int}
    (h : Reads base b s v) (hf : ¬ Fits t v) (hneg : 0 ≤ v ∨ t.signed = true)
    (hhi : v.natAbs < 2 ^ t.bits + (if t.signed then 0 else 2 ^ t.bits / b)) : to_integer t base s = .error .INTEGER_OVERFLOW := by
  have h0 := zero_fits hbits
  rcases to_integer_reads hbits h with ⟨neg, n, bd, rfl, hb, hng, e⟩ | ⟨hs, h1, -, e⟩
  · rw [e]
    obtain ⟨hb', ⟨rfl, e'⟩ | ⟨u, hd, e'⟩⟩ := body_eq (t := t) (neg := neg) hbase hb
    · exfalso
      apply hf
      cases neg <;> exact h0
    · rw [e']
      obtain ⟨u, c, m, d, rfl, rfl, hv, hlt, hu⟩ := digits_last hd
      have hn : (signed neg (m * b + d)).natAbs = m * b + d := by cases neg <;> simp [signed] <;> omega
      rw [hn] at hhi
      have hb2 : 2 ≤ b := by rcases hb' with h | h <;> omega
      obtain ⟨h1, h2⟩ := step_overflow hbits hb2 hng hf hhi hlt
      exact digits_overflow hbits hb' hu hv hlt h1 h2
  · exfalso
    rcases hneg with hneg | hneg
    · apply hf
      have : v = 0 := by omega
      rw [this]; exact h0
    · rw [hs] at hneg; cases hneg

example : to_integer ⟨8, true⟩ 10 (ascii [' ', '-', '0', 'x', 'f', 'F']) = .error .INTEGER_OVERFLOW :=
  C53_overflow_partial (by decide) (.inl (by decide)) reads_hex_ff (by unfold Fits; decide) (.inr rfl) (by decide)

/-- **C53, colon.**  In base 16 the characters between `9` and `A` except `@` are read as digits with the values 10 to 15. -/
theorem C53_colon {t : Ty} (hbits : 8 ≤ t.bits) {c : Byte} (hc : c ∈ ascii [':', ';', '<', '=', '>', '?']) :
    to_integer t 16 [c] = .ok (c.toNat - 48) ∧ ∀ b v, ¬ Reads 16 b [c] v := by
  have hcs : digit 16 c = .ok (c.toNat - 48) ∧ 10 ≤ c.toNat - 48 ∧ c.toNat - 48 < 16 ∧ Hex.digitVal c = none ∧ is_blank c = false ∧
      c ≠ 45#8 ∧ c ≠ 43#8 ∧ c ≠ 48#8 := by
    revert c
    decide +kernel
  obtain ⟨h1, h2, h3, h4, h5, h6, h7, h8⟩ := hcs
  have hf : Fits t ((c.toNat - 48 : Nat) : Int) := by
    have e1 : (2 : Int) ^ 7 ≤ 2 ^ (t.bits - 1) := pow_le_pow_right₀ (by decide) (by omega)
    have e2 : (2 : Int) ^ 8 ≤ 2 ^ t.bits := pow_le_pow_right₀ (by decide) (by omega)
    unfold Fits Ty.min Ty.max
    cases t.signed <;> simp only [Bool.false_eq_true, if_false, if_true] <;> omega
  constructor
  · rw [to_integer_eq, skipBlank, if_neg (by simp [h5]), sign, if_neg h6, if_neg h7]
    simp only [body]
    rw [if_neg (by simp), digits_cons, h1]
    simp only
    rw [step, if_neg (by simp)]
    have e : (0 : Int) * (16 : Nat) + (c.toNat - 48 : Nat) = ((c.toNat - 48 : Nat) : Int) := by omega
    rw [e, wrap_of_fits (by omega) hf, if_neg (by omega)]
    simp only [digits, Except.ok.injEq]
    omega
  · rintro b v ⟨w, sg, bd, n, e, hw, hb, -⟩
    obtain ⟨d, u, x, rfl, hx⟩ := body_head hb
    have : w ++ sg = [] ∧ d = c := by
      have hl := congrArg List.length e
      simp at hl
      have hw0 : w = [] := List.eq_nil_of_length_eq_zero (by omega)
      have hs0 : sg = [] := List.eq_nil_of_length_eq_zero (by omega)
      subst hw0 hs0
      simp at e
      exact ⟨rfl, e.1.symm⟩
    rw [this.2, h4] at hx
    cases hx

example : to_integer ⟨32, false⟩ 16 (ascii ['?']) = .ok 15 := (C53_colon (t := ⟨32, false⟩) (by decide) (c := 63#8) (by decide)).1

/-- The digits of a string of ones. -/
theorem ones_digits (n : Nat) : Digits 2 (List.replicate (n + 1) 49#8) (2 ^ (n + 1) - 1) := by
  induction n with
  | zero => exact .one _ 1 (by decide) (by decide)
  | succ n ih =>
    have e : 2 ^ (n + 1 + 1) - 1 = (2 ^ (n + 1) - 1) * 2 + 1 := by
      have : 0 < 2 ^ (n + 1) := Nat.two_pow_pos _
      rw [Nat.pow_succ 2 (n + 1)]
      omega
    rw [e, List.replicate_succ']
    exact .more _ _ _ 1 ih (by decide) (by decide)

/-- **C53, wraps.**  For every unsigned type there is a value outside of it that is not refused: a text of one more binary
one than the type has bits, 2^(bits+1) - 1, is read as the largest value of the type. -/
theorem C53_wraps {t : Ty} (ht : t.signed = false) (hbits : 0 < t.bits) :
    ∃ s, Reads 2 2 s (2 ^ (t.bits + 1) - 1) ∧ ¬ Fits t (2 ^ (t.bits + 1) - 1) ∧ to_integer t 2 s = .ok t.max := by
  have hp := pow_pos2 t.bits
  have e2 : (2 : Int) ^ (t.bits + 1) = 2 ^ t.bits * 2 := Int.pow_succ ..
  obtain ⟨n, hn⟩ : ∃ n, t.bits = n + 1 := ⟨t.bits - 1, by omega⟩
  have hmax : t.max = 2 ^ t.bits - 1 := by unfold Ty.max; rw [ht]; rfl
  have hfm : Fits t t.max := by
    rw [Fits, hmax]; unfold Ty.min; rw [ht]
    exact ⟨by show 0 ≤ _; omega, Int.le_refl _⟩
  refine ⟨List.replicate (t.bits + 1) 49#8, ⟨[], [], _, 2 ^ (t.bits + 1) - 1, rfl, by simp, .plain _ _ (ones_digits t.bits),
    .inl ⟨by simp, ?_⟩⟩, ?_, ?_⟩
  · have : 1 ≤ 2 ^ (t.bits + 1) := Nat.one_le_two_pow
    rw [Nat.cast_sub this]
    simp
  · rintro ⟨-, h⟩
    rw [hmax] at h
    omega
  · have hd := ones_digits n
    rw [← hn] at hd
    have hcast : ((2 ^ t.bits - 1 : Nat) : Int) = 2 ^ t.bits - 1 := by
      have : 1 ≤ 2 ^ t.bits := Nat.one_le_two_pow
      rw [Nat.cast_sub this]
      simp
    have hacc : digits t 2 false (List.replicate t.bits 49#8) 0 = .ok (2 ^ t.bits - 1) := by
      rw [digits_accept hbits (.inl (by omega)) (neg := false) hd (by
        show Fits t ((2 ^ t.bits - 1 : Nat) : Int)
        rw [hcast, ← hmax]; exact hfm)]
      simp only [signed, Bool.false_eq_true, if_false, Except.ok.injEq]
      exact hcast
    have hlast : digits t 2 false (List.replicate (t.bits + 1) 49#8) 0 = .ok t.max := by
      rw [List.replicate_succ', digits_append, hacc]
      simp only
      have e1 : digit 2 49#8 = .ok 1 := by decide
      rw [digits_cons, e1]
      simp only
      have hwrap : t.wrap ((2 ^ t.bits - 1) * (2 : Nat) + (1 : Nat)) = 2 ^ t.bits - 1 := by
        obtain ⟨k, hk⟩ := wrap_cong (t := t) ((2 ^ t.bits - 1) * (2 : Nat) + (1 : Nat))
        apply fits_unique hbits (k := k + 1) (wrap_fits hbits _) (by rw [← hmax]; exact hfm)
        rw [hk]
        push_cast
        ring
      rw [step, if_neg (by simp), hwrap, if_neg (by omega), hmax]
      rfl
    rw [to_integer_eq, List.replicate_succ, skipBlank, if_neg (by decide), sign, if_neg (by decide), if_neg (by decide)]
    simp only [body]
    rw [if_neg (by simp), ← List.replicate_succ]
    exact hlast

example : ∃ s, Reads 2 2 s 511 ∧ ¬ Fits ⟨8, false⟩ 511 ∧ to_integer ⟨8, false⟩ 2 s = .ok 255 := C53_wraps (t := ⟨8, false⟩) rfl (by decide)

end C3.Str
