import Verif.IntLiteral.LemmasType
import Verif.Bigint.Props

/-!
# Properties C11 and C12: integer literals

A literal is `pre ++ body ++ suf`: a base prefix, digits with `_` separators, and a suffix.
`cint` is the width of a C `int` on the target.  The outcome is always `some _`: no undefined
behaviour is reached, whatever the length of the literal.
-/

set_option autoImplicit false

namespace C3.IntLiteral
open C3.Bigint

/-- The literals whose number the parser is able to represent or to reject: those below `2^127`,
those below `2^128` if unsigned, and all unsigned literals in a base that is a power of two. -/
def Readable (b : Base) (s : Suffix) (body : List Char) : Prop :=
  spelled b body < 2 ^ 127 ∨
    (isUnsigned b s = true ∧ (spelled b body < 2 ^ 128 ∨ b ≠ .dec))

private theorem readable_val {b : Base} {s : Suffix} {body : List Char} (h : Readable b s body)
    (hn : spelled b body < 2 ^ 128) (i : Int128) (hi : i.u = spelled b body % 2 ^ 128) (t : TypeKind)
    (ht : t.signed = !isUnsigned b s) : CInt.val ⟨i, t⟩ = spelled b body := by
  rw [Nat.mod_eq_of_lt hn] at hi
  cases hu : isUnsigned b s with
  | true =>
    rw [hu] at ht
    rw [val_unsigned _ ht]
    show (i.u : Int) = _
    rw [hi]
  | false =>
    rw [hu] at ht
    rw [val_signed _ ht]
    show i.s = _
    rcases h with h | h
    · unfold Int128.s
      rw [if_pos (by rw [hi]; exact h), hi]
    · rw [hu] at h; exact absurd h.1 (by simp)

/-- C11 and C12 for the readable literals: the literal is accepted exactly when its number is a
value of the documented type, and then the constant has that type and that value.

Partial: the other literals (decimal from `2^127` or `2^128` on, signed from `2^127` on) are not
covered, and the claim is false for some of them (`C11_misread_decimal`, `C11_misread_unsuffixed`,
`C11_misread_suffixed`). -/
theorem C12_type_partial (cint : Nat) (b : Base) (pre body suf : List Char) (s : Suffix)
    (hpre : pre ∈ b.prefixes) (hbody : IsBody b body) (hs : s.Spells suf)
    (hr : Readable b s body) :
    ∃ r, parse_integer cint (pre ++ body ++ suf) = some r ∧
      ∀ c : CInt, r = .const c ↔
        DocType cint b s body c.type ∧ c.val = spelled b body ∧ c.WF := by
  obtain ⟨st, h1, h2, h3, h4, h5, h6⟩ := parse_spec cint b pre body suf s hpre hbody hs
  refine ⟨_, h1, fun c => ?_⟩
  rw [finish_spec cint b s st h4 (width_ne_zero s suf hs)
    (fun hb => by rw [(h5 hb).1]; exact body_length b body hbody) (fun hb => (h6 hb).1)]
  have hsign : ∀ t, DocType cint b s body t → t.signed = !isUnsigned b s := by
    intro t ht
    unfold DocType at ht
    split at ht
    · exact ht.2
    · exact ht.1
  have hsign' : ∀ t, Chosen cint b s st t → t.signed = !isUnsigned b s := by
    intro t ht
    unfold Chosen at ht
    rw [h3] at ht
    split at ht
    · exact ht.2
    · exact ht.1
  by_cases hn : spelled b body < 2 ^ 128
  · have hw : st.wrapped = false := by
      by_cases hb : b = .dec
      · exact (h6 hb).2 hn
      · rw [(h5 hb).2]; exact decide_eq_false (by omega)
    have hv := readable_val hr hn st.i h2
    have hwf : ∀ t, t.signed = (!isUnsigned b s) → (CInt.WF ⟨st.i, t⟩ ↔ t.InRange (spelled b body)) := by
      intro t ht
      unfold CInt.WF
      rw [hv t ht]
    have hcd : ∀ t, Chosen cint b s st t ↔ DocType cint b s body t := by
      intro t
      unfold Chosen DocType
      rw [h3]
      cases suffixWidth s with
      | some w => exact Iff.rfl
      | none =>
        refine and_congr_right fun ht => ?_
        by_cases hb : b = .dec
        · rw [if_pos hb, if_pos hb]
          refine and_congr_right fun _ => and_congr (hwf t ht) ?_
          refine forall_congr' fun t' => ?_
          constructor
          · intro h e1 e2 e3; exact h e1 e2 ((hwf t' e1).2 e3)
          · intro h e1 e2 e3; exact h e1 e2 ((hwf t' e1).1 e3)
        · rw [if_neg hb, if_neg hb, (h5 hb).1]
    constructor
    · rintro ⟨-, e2, e3, e4⟩
      have hd := (hcd _).1 e4
      refine ⟨hd, ?_, e3⟩
      have := hv c.type (hsign _ hd)
      rwa [← e2] at this
    · rintro ⟨e1, e2, e3⟩
      refine ⟨hw, ?_, e3, (hcd _).2 e1⟩
      have hs' := hsign _ e1
      apply u_inj
      rw [h2, Nat.mod_eq_of_lt hn]
      cases hu : isUnsigned b s with
      | true =>
        rw [hu] at hs'
        rw [val_unsigned c hs'] at e2
        omega
      | false =>
        rw [hu] at hs'
        rw [val_signed c hs'] at e2
        have := c.i.u_lt
        unfold Int128.s at e2
        split at e2 <;> omega
  · have hb : b ≠ .dec := by
      rcases hr with h | ⟨-, h | h⟩
      · omega
      · omega
      · exact h
    have hu : isUnsigned b s = true := by
      rcases hr with h | ⟨h, -⟩
      · omega
      · exact h
    have hw : st.wrapped = true := by rw [(h5 hb).2]; exact decide_eq_true (by omega)
    constructor
    · rintro ⟨e1, -⟩
      rw [hw] at e1; exact absurd e1 (by simp)
    · rintro ⟨e1, e2, -⟩
      have hs' := hsign _ e1
      rw [hu] at hs'
      rw [val_unsigned c hs'] at e2
      have := c.i.u_lt
      omega

/-- C11: what an accepted readable literal denotes.  Partial as `C12_type_partial` is. -/
theorem C11_value_partial (cint : Nat) (b : Base) (pre body suf : List Char) (s : Suffix)
    (hpre : pre ∈ b.prefixes) (hbody : IsBody b body) (hs : s.Spells suf)
    (hr : Readable b s body) (c : CInt)
    (hc : parse_integer cint (pre ++ body ++ suf) = some (.const c)) :
    c.val = spelled b body := by
  obtain ⟨r, h1, h2⟩ := C12_type_partial cint b pre body suf s hpre hbody hs hr
  rw [hc, Option.some.injEq] at h1
  exact ((h2 c).1 h1.symm).2.1

/-- C11: a literal in a power-of-two base that spells a number of more than 128 bits is rejected,
whatever its suffix. -/
theorem C11_too_big (cint : Nat) (b : Base) (pre body suf : List Char) (s : Suffix)
    (hpre : pre ∈ b.prefixes) (hbody : IsBody b body) (hs : s.Spells suf) (hb : b ≠ .dec)
    (hn : 2 ^ 128 ≤ spelled b body) :
    parse_integer cint (pre ++ body ++ suf) = some .error := by
  obtain ⟨st, h1, -, -, -, h5, -⟩ := parse_spec cint b pre body suf s hpre hbody hs
  have hw : st.wrapped = true := by rw [(h5 hb).2]; exact decide_eq_true hn
  rw [h1]
  unfold finish
  rw [if_pos hw]

/-- C11: every literal gets an outcome, and an accepted one denotes its number up to a multiple of
`2^128`, a value of its type. -/
theorem C11_total (cint : Nat) (b : Base) (pre body suf : List Char) (s : Suffix)
    (hpre : pre ∈ b.prefixes) (hbody : IsBody b body) (hs : s.Spells suf) :
    ∃ r, parse_integer cint (pre ++ body ++ suf) = some r ∧
      ∀ c, r = .const c → c.WF ∧ ((2 : Int) ^ 128) ∣ c.val - spelled b body := by
  obtain ⟨st, h1, h2, h3, h4, h5, h6⟩ := parse_spec cint b pre body suf s hpre hbody hs
  refine ⟨_, h1, fun c hc => ?_⟩
  rw [finish_spec cint b s st h4 (width_ne_zero s suf hs)
    (fun hb => by rw [(h5 hb).1]; exact body_length b body hbody) (fun hb => (h6 hb).1)] at hc
  refine ⟨hc.2.2.1, ?_⟩
  have e := hc.2.1
  have k1 := val_dvd c
  rw [e, h2] at k1
  have k2 := dvd_mod_pow (spelled b body) 128
  have := Int.dvd_add k1 k2
  rwa [show ∀ x y z : Int, x - y + (y - z) = x - z by intros; ring] at this

/-- C12: the sign, and the width wherever a suffix or the digits determine it, of every accepted
literal, without restriction on the number. -/
theorem C12_width (cint : Nat) (b : Base) (pre body suf : List Char) (s : Suffix)
    (hpre : pre ∈ b.prefixes) (hbody : IsBody b body) (hs : s.Spells suf) (c : CInt)
    (hc : parse_integer cint (pre ++ body ++ suf) = some (.const c)) :
    c.type.signed = !isUnsigned b s ∧
      (∀ w, suffixWidth s = some w → c.type.bits = w) ∧
      (suffixWidth s = none → b ≠ .dec →
        SmallestWidth (b.digitBits * (digitsOf body).length) c.type.bits) := by
  obtain ⟨st, h1, h2, h3, h4, h5, h6⟩ := parse_spec cint b pre body suf s hpre hbody hs
  rw [hc, Option.some.injEq] at h1
  have h := (finish_spec cint b s st h4 (width_ne_zero s suf hs)
    (fun hb => by rw [(h5 hb).1]; exact body_length b body hbody) (fun hb => (h6 hb).1) c).1 h1.symm
  have h := h.2.2.2
  unfold Chosen at h
  rw [h3] at h
  cases hw : suffixWidth s with
  | some w =>
    rw [hw] at h
    exact ⟨h.2, fun w' e => by rw [← Option.some.inj e]; exact h.1, fun e => absurd e (by simp)⟩
  | none =>
    rw [hw] at h
    refine ⟨h.1, fun w' e => absurd e (by simp), fun _ hb => ?_⟩
    have h := h.2
    rwa [if_neg hb, (h5 hb).1] at h

/-! ## The claims that fail -/

/-- C11 fails: the overflow check of decimal literals compares only the top words before and after
a step, so `10 · 2^126` is accepted as `2^127`. -/
theorem C11_misread_decimal :
    ∃ c, parse_integer 32 "850705917302346158658436518579420528640u".toList = some (.const c) ∧
      spelled .dec "850705917302346158658436518579420528640".toList = 10 * 2 ^ 126 ∧
      c.val = 2 ^ 127 := by
  refine ⟨⟨⟨0x8000000000000000#64, 0#64⟩, .U128⟩, ?_, ?_, ?_⟩ <;> decide +kernel

/-- C11 fails: an unsuffixed decimal literal from `2^127` on is read as a negative number before
its type is looked for, so `2^128 - 1` is accepted as the `int` -1. -/
theorem C11_misread_unsuffixed :
    ∃ c, parse_integer 32 "340282366920938463463374607431768211455".toList = some (.const c) ∧
      spelled .dec "340282366920938463463374607431768211455".toList = 2 ^ 128 - 1 ∧
      c.type = .I32 ∧ c.val = -1 := by
  refine ⟨⟨⟨0xFFFFFFFFFFFFFFFF#64, 0xFFFFFFFFFFFFFFFF#64⟩, .I32⟩, ?_, ?_, rfl, ?_⟩ <;> decide +kernel

/-- C11 fails for signed suffixes likewise, in every base. -/
theorem C11_misread_suffixed :
    ∃ c, parse_integer 32 "0xFFFFFFFFFFFFFFFFFFFFFFFFFFFFFFFFi8".toList = some (.const c) ∧
      spelled .hex "FFFFFFFFFFFFFFFFFFFFFFFFFFFFFFFF".toList = 2 ^ 128 - 1 ∧
      c.type = .I8 ∧ c.val = -1 := by
  refine ⟨⟨⟨0xFFFFFFFFFFFFFFFF#64, 0xFFFFFFFFFFFFFFFF#64⟩, .I8⟩, ?_, ?_, rfl, ?_⟩ <;> decide +kernel

/-- C12: a suffix of width 1, 2 or 4 is not diagnosed: the compiler aborts with an internal error
(`FATAL_ERROR`), for every number below `2^128`. -/
theorem C12_small_suffix_aborts (cint : Nat) (b : Base) (pre body suf : List Char) (u : Bool) (w : Nat)
    (hw : w = 1 ∨ w = 2 ∨ w = 4)
    (hpre : pre ∈ b.prefixes) (hbody : IsBody b body) (hs : (Suffix.sized u (some w)).Spells suf)
    (hn : spelled b body < 2 ^ 128) :
    parse_integer cint (pre ++ body ++ suf) = some .fatal := by
  obtain ⟨st, h1, -, h3, h4, h5, h6⟩ := parse_spec cint b pre body suf _ hpre hbody hs
  have hwr : st.wrapped = false := by
    by_cases hb : b = .dec
    · exact (h6 hb).2 hn
    · rw [(h5 hb).2]; exact decide_eq_false (by omega)
  rw [h1]
  have h4 : st.type_bits = w ∨ (st.type_bits > 128 ∧ w > 128) := h4
  have e : st.type_bits = w := by omega
  unfold finish
  rw [hwr, e]
  rcases hw with rfl | rfl | rfl <;>
  · rw [if_neg (by simp), if_neg (by decide), if_neg (by simp)]
    rfl

/-! ## The hypotheses can be met -/

section
private theorem body_of (b : Base) (l : List Char)
    (h : (∃ c cs, l = c :: cs ∧ (digitValue c).any (· < b.radix)) ∧
      l.all (fun c => (digitValue c).any (· < b.radix) || c == '_') = true) : IsBody b l := by
  have hd : ∀ c, (digitValue c).any (· < b.radix) = true → IsDigit b c := by
    intro c h
    rcases hv : digitValue c with _ | d
    · rw [hv] at h; simp at h
    · rw [hv] at h; exact ⟨d, hv, by simpa using h⟩
  obtain ⟨⟨c, cs, e1, e2⟩, h2⟩ := h
  refine ⟨⟨c, cs, e1, hd c e2⟩, fun c hc => ?_⟩
  have := List.all_eq_true.1 h2 c hc
  rw [Bool.or_eq_true] at this
  rcases this with h | h
  · exact Or.inl (hd c h)
  · exact Or.inr (by simpa using h)

/-- `0xF_F` has two digits, hence type `char` (8 bits, unsigned) and value 255. -/
example : ∃ r, parse_integer 32 "0xF_F".toList = some r ∧ ∀ c : CInt, r = .const c ↔
    DocType 32 .hex .none "F_F".toList c.type ∧ c.val = spelled .hex "F_F".toList ∧ c.WF :=
  C12_type_partial 32 .hex ['0', 'x'] "F_F".toList [] .none (by simp [Base.prefixes])
    (body_of _ _ ⟨⟨'F', ['_', 'F'], rfl, by decide⟩, by decide⟩) rfl
    (Or.inl (by decide))

example : parse_integer 32 "0xF_F".toList = some (.const (mk .U8 255)) := by decide +kernel

/-- `300l` is a `long`. -/
example : (mk .I64 300).val = spelled .dec "300".toList :=
  C11_value_partial 32 .dec [] "300".toList ['l'] .l (by simp [Base.prefixes])
    (body_of _ _ ⟨⟨'3', ['0', '0'], rfl, by decide⟩, by decide⟩) (Or.inl rfl) (Or.inl (by decide)) _
    (by decide +kernel)

/-- `3_000_000_000` does not fit `int`, so it is a `long`. -/
example : parse_integer 32 "3_000_000_000".toList = some (.const (mk .I64 3000000000)) := by
  decide +kernel

/-- `300i8` is rejected. -/
example : parse_integer 32 "300i8".toList = some .error := by decide +kernel

example : parse_integer 32 "0b1u4".toList = some .fatal :=
  C12_small_suffix_aborts 32 .bin ['0', 'b'] ['1'] ['u', '4'] true 4 (by omega)
    (by simp [Base.prefixes]) (body_of _ _ ⟨⟨'1', [], rfl, by decide⟩, by decide⟩)
    ⟨'u', ['4'], rfl, Or.inl rfl, by simp, by decide, by decide, rfl⟩ (by decide)

example : parse_integer 32 ("0x1".toList ++ List.replicate 32 '0' ++ "u8".toList) = some .error :=
  C11_too_big 32 .hex ['0', 'x'] ('1' :: List.replicate 32 '0') ['u', '8'] (.sized true (some 8))
    (by simp [Base.prefixes]) (body_of _ _ ⟨⟨'1', _, rfl, by decide⟩, by decide⟩)
    ⟨'u', ['8'], rfl, Or.inl rfl, by simp, by decide, by decide, rfl⟩ (by simp) (by decide +kernel)
end

end C3.IntLiteral
