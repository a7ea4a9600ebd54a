import Verif.Fmt.LemmasConv

set_option autoImplicit false

namespace C3.Fmt
open Std

/-! ## Characters -/

theorem or_num (a i x : Nat) (hx : x < 2 ^ i) : (a * 2 ^ i) ||| x = a * 2 ^ i + x := by
  rw [Nat.mul_comm, Nat.two_pow_add_eq_or_of_lt hx]

theorem shr (c : BitVec 32) (k : Nat) : (c >>> k).toNat = c.toNat / 2 ^ k := by
  rw [BitVec.toNat_ushiftRight, Nat.shiftRight_eq_div_pow]

theorem cont (x : BitVec 32) : ((0x80#32 ||| (x &&& 0x3F#32)).truncate 8).toNat = 0x80 + x.toNat % 64 := by
  have e1 : (0x80#32).toNat = 2 * 2 ^ 6 := rfl
  have e2 : (0x3F#32).toNat = 2 ^ 6 - 1 := rfl
  have : x.toNat % 2 ^ 6 < 2 ^ 6 := Nat.mod_lt _ (by decide)
  rw [BitVec.truncate, BitVec.toNat_setWidth, BitVec.toNat_or, BitVec.toNat_and, e1, e2, Nat.and_two_pow_sub_one_eq_mod,
    or_num 2 6 _ this]
  omega

theorem lead (a : BitVec 32) (k i : Nat) (x : BitVec 32) (ha : a.toNat = k * 2 ^ i) (hx : x.toNat < 2 ^ i)
    (hk : k * 2 ^ i + x.toNat < 256) : ((a ||| x).truncate 8).toNat = k * 2 ^ i + x.toNat := by
  rw [BitVec.truncate, BitVec.toNat_setWidth, BitVec.toNat_or, ha, or_num k i _ hx]
  exact Nat.mod_eq_of_lt hk

theorem charBytes_eq (c : Char) (h1 : c.toNat ≠ 0x7f) (h2 : c.toNat ≠ 0x7ff) (h3 : c.toNat ≠ 0xffff) :
    charBytes (BitVec.ofNat 32 c.toNat) = utf8 c := by
  have hc : c.toNat < 0x110000 := by
    have := c.valid
    unfold UInt32.isValidChar Nat.isValidChar at this
    show c.val.toNat < _
    omega
  have hn : (BitVec.ofNat 32 c.toNat).toNat = c.toNat := by
    rw [BitVec.toNat_ofNat]; exact Nat.mod_eq_of_lt (by omega)
  unfold charBytes utf8 String.utf8EncodeChar
  rw [hn]
  show _ = List.map UInt8.toBitVec (if c.toNat ≤ 0x7f then _ else if c.toNat ≤ 0x7ff then _ else
    if c.toNat ≤ 0xffff then _ else _)
  generalize hN : c.toNat = N at *
  have hN' : c.val.toNat = N := hN
  simp only [hN']
  have ty : ∀ (b : Byte) (m : Nat), m < 256 → b.toNat = m → b = (UInt8.ofNat m).toBitVec := by
    intro b m hm hb
    apply BitVec.eq_of_toNat_eq
    rw [hb]
    show m = (UInt8.ofNat m).toNat
    rw [UInt8.toNat_ofNat']
    exact (Nat.mod_eq_of_lt hm).symm
  by_cases g1 : N < 0x7f
  · rw [if_pos g1, if_pos (by omega)]
    simp only [List.map_cons, List.map_nil]
    rw [ty (BitVec.truncate 8 (BitVec.ofNat 32 N)) N (by omega)
      (by rw [BitVec.truncate, BitVec.toNat_setWidth, hn]; omega)]
  · rw [if_neg g1, if_neg (show ¬ N ≤ 0x7f by omega)]
    have h6 : (BitVec.ofNat 32 N >>> 6).toNat = N / 64 := by rw [shr, hn]; rfl
    have h12 : (BitVec.ofNat 32 N >>> 12).toNat = N / 4096 := by rw [shr, hn]; rfl
    have h18 : (BitVec.ofNat 32 N >>> 18).toNat = N / 262144 := by rw [shr, hn]; rfl
    by_cases g2 : N < 0x7ff
    · rw [if_pos g2, if_pos (by omega)]
      simp only [List.map_cons, List.map_nil, List.cons.injEq, and_true]
      refine ⟨ty _ _ (by omega) ?_, ty _ _ (by omega) ?_⟩
      · rw [lead 0xC0#32 6 5 _ rfl (by omega) (by omega), h6]; omega
      · rw [cont, hn]; omega
    · rw [if_neg g2, if_neg (show ¬ N ≤ 0x7ff by omega)]
      by_cases g3 : N < 0xffff
      · rw [if_pos g3, if_pos (by omega)]
        simp only [List.map_cons, List.map_nil, List.cons.injEq, and_true]
        refine ⟨ty _ _ (by omega) ?_, ty _ _ (by omega) ?_, ty _ _ (by omega) ?_⟩
        · rw [lead 0xE0#32 14 4 _ rfl (by omega) (by omega), h12]; omega
        · rw [cont, h6]; omega
        · rw [cont, hn]; omega
      · rw [if_neg g3, if_neg (show ¬ N ≤ 0xffff by omega)]
        simp only [List.map_cons, List.map_nil, List.cons.injEq, and_true]
        refine ⟨ty _ _ (by omega) ?_, ty _ _ (by omega) ?_, ty _ _ (by omega) ?_, ty _ _ (by omega) ?_⟩
        · rw [lead 0xF0#32 30 3 _ rfl (by omega) (by omega), h18]; omega
        · rw [cont, h12]; omega
        · rw [cont, h6]; omega
        · rw [cont, hn]; omega

theorem convert_chr (D : Dir) (s : Bool) (w : Nat) (x : BitVec w) (c : Char) (hx : value (.int s w x) = c.toNat)
    (h1 : c.toNat ≠ 0x7f) (h2 : c.toNat ≠ 0x7ff) (h3 : c.toNat ≠ 0xffff) (hw : D.width ≤ 1) :
    convert (fmtOf D) (ch 'c') (.int s w x) = .ok ⟨D.chr c, 1, none⟩ := by
  have hc : c.toNat < 0x110000 := by
    have := c.valid
    unfold UInt32.isValidChar Nat.isValidChar at this
    show c.val.toNat < _
    omega
  have hi : intConv (ch 'c') = none := by decide
  unfold convert
  rw [hi]
  simp only
  rw [if_neg (by decide), if_pos trivial]
  have ha : adjust (fmtOf D) 1 = [] := by
    unfold adjust
    split
    · simp [pad, fmtOf, Nat.sub_eq_zero_of_le hw]
    · rfl
  have hl : 1 ≤ (utf8 c).length := by
    unfold utf8
    rw [List.length_map]
    exact List.length_pos_iff.2 String.utf8EncodeChar_ne_nil
  have hf : D.chr c = utf8 c := by
    unfold Dir.chr Dir.field
    rw [Nat.sub_eq_zero_of_le (by omega)]
    simp [spaces]
  rw [outChar]
  simp only [ha, List.nil_append, List.append_nil, List.length_nil, Nat.add_zero]
  rw [hx, if_pos (by omega), hf, ← charBytes_eq c h1 h2 h3, BitVec.ofInt_natCast]

/-! ## Strings -/

/-- One leading byte and continuation bytes. -/
theorem utf8_form (c : Char) : ∃ b l, utf8 c = b :: l ∧ (b &&& 0xC0 ≠ 0x80) ∧ ∀ x ∈ l, x &&& 0xC0 = (0x80 : Byte) := by
  have hc : c.val.toNat < 0x110000 := by
    have := c.valid
    unfold UInt32.isValidChar Nat.isValidChar at this
    omega
  have tb : ∀ n, n < 256 → (n < 128 ∨ 192 ≤ n) → ((UInt8.ofNat n).toBitVec &&& 0xC0 : Byte) ≠ 0x80 := by decide +kernel
  have tc : ∀ n, n < 64 → ((UInt8.ofNat (n + 0x80)).toBitVec &&& 0xC0 : Byte) = 0x80 := by decide +kernel
  unfold utf8 String.utf8EncodeChar
  simp only
  split
  · exact ⟨_, _, rfl, tb _ (by omega) (.inl (by omega)), by simp⟩
  · split
    · refine ⟨_, _, rfl, tb _ (by omega) (.inr (by omega)), ?_⟩
      intro x hx
      simp only [List.map_cons, List.map_nil, List.mem_cons, List.not_mem_nil, or_false] at hx
      rw [hx]
      exact tc _ (Nat.mod_lt _ (by decide))
    · split
      · refine ⟨_, _, rfl, tb _ (by omega) (.inr (by omega)), ?_⟩
        intro x hx
        simp only [List.map_cons, List.map_nil, List.mem_cons, List.not_mem_nil, or_false] at hx
        rcases hx with rfl | rfl <;> exact tc _ (Nat.mod_lt _ (by decide))
      · refine ⟨_, _, rfl, tb _ (by omega) (.inr (by omega)), ?_⟩
        intro x hx
        simp only [List.map_cons, List.map_nil, List.mem_cons, List.not_mem_nil, or_false] at hx
        rcases hx with rfl | rfl | rfl <;> exact tc _ (Nat.mod_lt _ (by decide))

theorem outSubstr_all (p : Nat) (s : List Byte) : outSubstr false p s = s := by
  induction s with
  | nil => rfl
  | cons c l ih =>
    rw [outSubstr.eq_def]
    simp [ih]

theorem outSubstr_cont (p : Nat) (l rest : List Byte) (h : ∀ x ∈ l, x &&& 0xC0 = (0x80 : Byte)) :
    outSubstr true p (l ++ rest) = l ++ outSubstr true p rest := by
  induction l with
  | nil => rfl
  | cons c l ih =>
    rw [List.cons_append, outSubstr.eq_def]
    simp only
    rw [if_neg (fun g => g.1 (h c (List.mem_cons_self ..))), ih (fun x hx => h x (List.mem_cons_of_mem _ hx))]
    rfl

theorem outSubstr_take (s : List Char) : ∀ p, outSubstr true p (s.flatMap utf8) = (s.take p).flatMap utf8 := by
  induction s with
  | nil => intro p; simp [outSubstr]
  | cons c s ih =>
    intro p
    obtain ⟨b, l, h1, h2, h3⟩ := utf8_form c
    rw [List.flatMap_cons, h1, List.cons_append, outSubstr.eq_def]
    simp only
    rw [if_pos ⟨h2, trivial⟩]
    cases p with
    | zero => rfl
    | succ p =>
      simp only
      rw [outSubstr_cont p l _ h3, ih p, List.take_succ_cons, List.flatMap_cons, h1]
      rfl

theorem convStr_eq (D : Dir) (a : Arg) (t : List Byte) (h : outStr (fmtOf D) a = ⟨t, t.length, none⟩) :
    convert (fmtOf D) (ch 's') a = .ok ⟨D.field t, (D.field t).length, none⟩ := by
  have hi : intConv (ch 's') = none := by decide
  unfold convert
  rw [hi]
  simp only
  rw [if_neg (by decide), if_neg (by decide), if_neg (by decide), if_neg (by decide), if_pos trivial]
  congr 1
  unfold convStr Dir.field
  rw [h]
  by_cases hm : .minus ∈ D.flags
  · simp [fmtOf, hm, pad, spaces]
  · by_cases hw : D.width = 0
    · simp [fmtOf, hm, pad, spaces, hw]
    · simp [fmtOf, hm, pad, spaces, hw]

theorem convert_str (D : Dir) (s : List Char) : convert (fmtOf D) (ch 's') (.str (s.flatMap utf8)) =
    .ok ⟨D.str s, (D.str s).length, none⟩ := by
  unfold Dir.str
  apply convStr_eq
  rw [outStr, sub]
  cases hp : D.prec with
  | none => simp [fmtOf, hp, outSubstr_all]
  | some p => simp [fmtOf, hp, outSubstr_take]

theorem convert_dec (D : Dir) (s : Bool) (w : Nat) (x : BitVec w) (hw : w ≤ 128) (hp : D.prec = none) :
    convert (fmtOf D) (ch 's') (.int s w x) =
      .ok ⟨D.dec (value (.int s w x)), (D.dec (value (.int s w x))).length, none⟩ := by
  unfold Dir.dec
  apply convStr_eq
  obtain ⟨m, h1, h2⟩ := intFromAny_eq s w x hw
  rw [outStr, outInt]
  simp only [h1, bind, Except.bind]
  rw [ntoa_eq _ _ _ _ (by decide) (by decide), ntoaFormat_eq]
  · rw [h2]
    have hz : ∀ (b : Bool) (l : Nat), zerosOf (if m = 0 then ({ fmtOf D with flags := {}, width := 0 } : Fmt) else
        { fmtOf D with flags := {}, width := 0 }) l b = 0 := by
      intro b l
      rw [ite_self, zerosOf]
      simp [fmtOf, hp]
    simp only [ite_self]
    simp only [ite_self] at hz
    rw [hz]
    simp only [signOf, prefixOf, numeral_eq]
    simp [zeros, spaces]
  · rw [if_neg (by simp)]
    exact low_length_le _ (by decide) _ _ m.isLt
  · simp [fmtOf, hp]
  · simp [fmtOf, hp]
  · simp

/-! ## Bytes -/

theorem hex_byte (upper : Bool) (b : Byte) :
    [digitChar upper (b >>> 4).toNat, digitChar upper (b &&& 0xF).toNat] =
      (if b.toNat < 16 then [ch '0'] else []) ++ numeral 16 upper b.toNat := by
  have hb := b.isLt
  have h1 : (b >>> 4).toNat = b.toNat / 16 := by rw [BitVec.toNat_ushiftRight, Nat.shiftRight_eq_div_pow]
  have h2 : (b &&& 0xF).toNat = b.toNat % 16 := by
    rw [BitVec.toNat_and]
    exact Nat.and_two_pow_sub_one_eq_mod _ 4
  rw [h1, h2, digitChar_eq _ _ (by omega), digitChar_eq _ _ (by omega), numeral_eq]
  by_cases h : b.toNat < 16
  · rw [if_pos h, low_small 16 (by decide) _ _ h, Nat.div_eq_of_lt h, Nat.mod_eq_of_lt h]
    cases upper <;> rfl
  · rw [if_neg h, low_step 16 (by decide) _ _ (by omega), low_small 16 (by decide) _ (b.toNat / 16) (by omega)]
    rfl

theorem convert_hex (D : Dir) (upper : Bool) (s : List Byte) :
    convert (fmtOf D) (if upper then ch 'H' else ch 'h') (.bytes s) =
      .ok ⟨D.hex upper s, (D.hex upper s).length, none⟩ := by
  have hi : intConv (if upper then ch 'H' else ch 'h') = none := by cases upper <;> decide
  have hh : hexChars upper s =
      s.flatMap fun b => (if b.toNat < 16 then [ch '0'] else []) ++ numeral 16 upper b.toNat := by
    unfold hexChars
    congr 1
    funext b
    exact hex_byte upper b
  have hl : (hexChars upper s).length = s.length * 2 := by
    clear hh
    unfold hexChars
    induction s with
    | nil => rfl
    | cons c l ih => rw [List.flatMap_cons, List.length_append, ih]; simp; omega
  have hc : convert (fmtOf D) (if upper then ch 'H' else ch 'h') (.bytes s) = .ok (convHex (fmtOf D) upper (.bytes s)) := by
    unfold convert
    rw [hi]
    cases upper <;> rfl
  rw [hc]
  unfold Dir.hex
  rw [← hh]
  congr 1
  unfold convHex Dir.field
  by_cases hm : .minus ∈ D.flags
  · simp [fmtOf, hm, pad, spaces]
  · by_cases hw : D.width = 0
    · simp [fmtOf, hm, pad, spaces, hw]
    · simp [fmtOf, hm, pad, spaces, hw, hl]

end C3.Fmt
