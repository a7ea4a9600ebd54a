import Verif.Base32.Lemmas

/-! # Helper lemmas for base32: `encode_buffer` -/

set_option autoImplicit false
set_option linter.unusedSimpArgs false

namespace C3.Base32
open C3.Codec

theorem lor_hi (x : BitVec 32) (y : Byte) (k : Nat) (hk : k ≤ 24) (hx : x.toNat < 2 ^ k) :
    (x ||| y.setWidth 32 <<< k : BitVec 32).toNat = y.toNat * 2 ^ k + x.toNat := by
  have hy := y.isLt
  simp only [BitVec.toNat_or, BitVec.toNat_shiftLeft, BitVec.toNat_setWidth, Nat.shiftLeft_eq]
  have h1 : y.toNat * 2 ^ k < 2 ^ 8 * 2 ^ k := Nat.mul_lt_mul_of_pos_right hy (by positivity)
  have h2 : 2 ^ 8 * 2 ^ k ≤ 2 ^ 32 := by
    rw [← pow_add]; exact Nat.pow_le_pow_right (by omega) (by omega)
  rw [Nat.mod_eq_of_lt (show y.toNat < 2 ^ 32 by omega), Nat.mod_eq_of_lt (by omega), Nat.lor_comm,
    or_add _ _ _ hx]

theorem lor_0 (y : Byte) : ((0 : BitVec 32) ||| y.setWidth 32 : BitVec 32).toNat = y.toNat := by
  have hy := y.isLt
  rw [BitVec.toNat_or, BitVec.toNat_setWidth, Nat.mod_eq_of_lt (show y.toNat < 2 ^ 32 by omega)]
  simp

theorem lsb_0 (x : BitVec 32) : (x <<< 8).toNat = x.toNat % 2 ^ 24 * 256 := by
  have := lsb_toNat x 0
  simpa using this

theorem eight_le {α : Type} (l : List α) (h : 8 ≤ l.length) :
    ∃ a b c d e f g i t, l = a :: b :: c :: d :: e :: f :: g :: i :: t := by
  match l, h with
  | a :: b :: c :: d :: e :: f :: g :: i :: t, _ => exact ⟨a, b, c, d, e, f, g, i, t, rfl⟩

theorem seven_le {α : Type} (l : List α) (h : 7 ≤ l.length) :
    ∃ a b c d e f g t, l = a :: b :: c :: d :: e :: f :: g :: t := by
  match l, h with
  | a :: b :: c :: d :: e :: f :: g :: t, _ => exact ⟨a, b, c, d, e, f, g, t, rfl⟩

theorem five_le {α : Type} (l : List α) (h : 5 ≤ l.length) :
    ∃ a b c d e t, l = a :: b :: c :: d :: e :: t := by
  match l, h with
  | a :: b :: c :: d :: e :: t, _ => exact ⟨a, b, c, d, e, t, rfl⟩

theorem four_le {α : Type} (l : List α) (h : 4 ≤ l.length) : ∃ a b c d t, l = a :: b :: c :: d :: t := by
  match l, h with
  | a :: b :: c :: d :: t, _ => exact ⟨a, b, c, d, t, rfl⟩

theorem two_le {α : Type} (l : List α) (h : 2 ≤ l.length) : ∃ a b t, l = a :: b :: t := by
  match l, h with
  | a :: b :: t, _ => exact ⟨a, b, t, rfl⟩

theorem cons_eq {α : Type} {a b : α} {l m : List α} (h : a = b) (h' : l = m) : a :: l = b :: m := by
  rw [h, h']

theorem idx (al : Alphabet) {i j : Nat} (h : i = j) : al.encoding.getD i 0 = al.encoding.getD j 0 := by
  rw [h]

theorem case4_spec {al : Alphabet} (hal : al.encoding.length = 32) (a b c d : Byte) (dst : List Byte)
    (hd : 7 ≤ dst.length) :
    encCase4 al a b c d 0 dst = some (text al (syms [a, b, c, d]) ++ dst.drop 7) := by
  obtain ⟨d0, d1, d2, d3, d4, d5, d6, t, rfl⟩ := seven_le dst hd
  have ha := a.isLt; have hb := b.isLt; have hc := c.isLt; have hd := d.isLt
  have w1 := lor_0 d
  have w2 := lor_hi (0 ||| d.setWidth 32) c 8 (by omega) (by omega)
  have w3 := lor_hi _ b 16 (by omega) (by rw [w2]; omega)
  have w4 := lor_hi _ a 24 (by omega) (by rw [w3]; omega)
  simp only [encCase4, encCase3, encCase2, encCase1, enc_eq hal, store, Option.bind_eq_bind, Option.bind_some,
    List.length_cons, List.length_set, List.set_cons_zero, List.set_cons_succ, Nat.zero_lt_succ, ↓reduceIte,
    Nat.succ_lt_succ_iff, Nat.add_lt_add_iff_right, lsb_0, w1, w2, w3, w4, syms, group, text,
    List.take_succ_cons, List.take_zero, List.map_cons, List.map_nil, List.cons_append, List.nil_append,
    List.drop_succ_cons, List.drop_zero]
  refine congrArg some ?_
  repeat' (refine cons_eq (idx al (by omega)) ?_)
  rfl

theorem case3_spec {al : Alphabet} (hal : al.encoding.length = 32) (a b c : Byte) (dst : List Byte)
    (hd : 5 ≤ dst.length) :
    encCase3 al a b c 0 dst = some (text al (syms [a, b, c]) ++ dst.drop 5) := by
  obtain ⟨d0, d1, d2, d3, d4, t, rfl⟩ := five_le dst hd
  have ha := a.isLt; have hb := b.isLt; have hc := c.isLt
  have w2 := lor_hi 0 c 8 (by omega) (by decide)
  rw [show BitVec.toNat (0 : BitVec 32) = 0 from rfl, Nat.add_zero] at w2
  have w3 := lor_hi _ b 16 (by omega) (by rw [w2]; omega)
  have w4 := lor_hi _ a 24 (by omega) (by rw [w3]; omega)
  simp only [encCase3, encCase2, encCase1, enc_eq hal, store, Option.bind_eq_bind, Option.bind_some,
    List.length_cons, List.length_set, List.set_cons_zero, List.set_cons_succ, Nat.zero_lt_succ, ↓reduceIte,
    Nat.succ_lt_succ_iff, Nat.add_lt_add_iff_right, w2, w3, w4, syms, group, text,
    List.take_succ_cons, List.take_zero, List.map_cons, List.map_nil, List.cons_append, List.nil_append,
    List.drop_succ_cons, List.drop_zero]
  refine congrArg some ?_
  repeat' (refine cons_eq (idx al (by omega)) ?_)
  rfl

theorem case2_spec {al : Alphabet} (hal : al.encoding.length = 32) (a b : Byte) (dst : List Byte)
    (hd : 4 ≤ dst.length) :
    encCase2 al a b 0 dst = some (text al (syms [a, b]) ++ dst.drop 4) := by
  obtain ⟨d0, d1, d2, d3, t, rfl⟩ := four_le dst hd
  have ha := a.isLt; have hb := b.isLt
  have w3 := lor_hi 0 b 16 (by omega) (by decide)
  rw [show BitVec.toNat (0 : BitVec 32) = 0 from rfl, Nat.add_zero] at w3
  have w4 := lor_hi _ a 24 (by omega) (by rw [w3]; omega)
  simp only [encCase2, encCase1, enc_eq hal, store, Option.bind_eq_bind, Option.bind_some,
    List.length_cons, List.length_set, List.set_cons_zero, List.set_cons_succ, Nat.zero_lt_succ, ↓reduceIte,
    Nat.succ_lt_succ_iff, Nat.add_lt_add_iff_right, w3, w4, syms, group, text,
    List.take_succ_cons, List.take_zero, List.map_cons, List.map_nil, List.cons_append, List.nil_append,
    List.drop_succ_cons, List.drop_zero]
  refine congrArg some ?_
  repeat' (refine cons_eq (idx al (by omega)) ?_)
  rfl

theorem case1_spec {al : Alphabet} (hal : al.encoding.length = 32) (a : Byte) (dst : List Byte)
    (hd : 2 ≤ dst.length) :
    encCase1 al a 0 dst = some (text al (syms [a]) ++ dst.drop 2) := by
  obtain ⟨d0, d1, t, rfl⟩ := two_le dst hd
  have ha := a.isLt
  have w4 := lor_hi 0 a 24 (by omega) (by decide)
  rw [show BitVec.toNat (0 : BitVec 32) = 0 from rfl, Nat.add_zero] at w4
  simp only [encCase1, enc_eq hal, store, Option.bind_eq_bind, Option.bind_some,
    List.length_cons, List.length_set, List.set_cons_zero, List.set_cons_succ, Nat.zero_lt_succ, ↓reduceIte,
    Nat.succ_lt_succ_iff, Nat.add_lt_add_iff_right, w4, syms, group, text,
    List.take_succ_cons, List.take_zero, List.map_cons, List.map_nil, List.cons_append, List.nil_append,
    List.drop_succ_cons, List.drop_zero]
  rfl

/-- The padding step, given what the switch wrote. -/
theorem pad_spec {al : Alphabet} (p : Byte) (ss : List Nat) (n : Nat) (dst : List Byte) (hss : ss.length = n)
    (hn : 0 < n) (h8 : n < 8) (hd : (text al ss ++ pads p n).length ≤ dst.length) :
    (if p > 0 then padLoop p (text al ss ++ dst.drop n) n else some (text al ss ++ dst.drop n)) =
      some (text al ss ++ pads p n ++ dst.drop (text al ss ++ pads p n).length) := by
  have ht := text_length al ss
  unfold pads at *
  by_cases hp : p = 0
  · rw [if_neg (by rw [pos_iff]; exact not_not.2 hp), if_pos hp, List.append_nil, ht, hss]
  · rw [if_neg hp, List.length_append, List.length_replicate] at hd
    rw [if_pos ((pos_iff p).2 hp), if_neg hp]
    obtain ⟨b, t, e, hb⟩ := split_list (8 - n) (dst.drop n) (by rw [List.length_drop]; omega)
    rw [e, ← List.append_assoc, padLoop_spec p (8 - n) n (text al ss) b t (by omega) hb (by omega)]
    have e2 : t = dst.drop 8 := by
      have := congrArg (List.drop (8 - n)) e
      rw [List.drop_drop, List.drop_left' hb] at this
      rw [← this]; congr 1; omega
    have e3 : (8 - n % 8) % 8 = 8 - n := by omega
    rw [e3, e2]
    congr 3
    rw [List.length_append, List.length_replicate]; omega

theorem encLoop_spec (al : Alphabet) (hal : al.encoding.length = 32) (p : Byte) (src dst : List Byte)
    (hd : (output al p src).length ≤ dst.length) :
    encLoop al (encTail al p (src.drop (src.length / 5 * 5))) (src.take (src.length / 5 * 5)) dst =
      some (output al p src ++ dst.drop (output al p src).length) := by
  induction src using syms.induct generalizing dst with
  | case1 a b c d e rest ih =>
    rw [output_group] at hd ⊢
    have e' : (a :: b :: c :: d :: e :: rest).length / 5 * 5 = rest.length / 5 * 5 + 5 := by
      simp only [List.length_cons]; omega
    rw [e']
    simp only [List.take_succ_cons, List.drop_succ_cons]
    have hl : ∀ m e, (text al (group m e)).length = 8 := fun _ _ => rfl
    rw [List.length_append, hl] at hd ⊢
    obtain ⟨d0, d1, d2, d3, d4, d5, d6, d7, t, rfl⟩ := eight_le dst (by omega)
    rw [encLoop]
    simp only [enc_eq hal, word4, lsb_toNat, Option.bind_eq_bind, Option.bind_some, store, List.length_cons,
      List.length_set, List.set_cons_zero, List.set_cons_succ, Nat.zero_lt_succ, ↓reduceIte,
      Nat.add_lt_add_iff_right, Nat.succ_lt_succ_iff]
    rw [show List.drop 8 (_ :: _ :: _ :: _ :: _ :: _ :: _ :: _ :: t) = t from rfl, ih t (by
      simp only [List.length_cons] at hd; omega)]
    rw [Option.bind_some, show ∀ x : Nat, 8 + x = x + 8 from fun x => by omega]
    rfl
  | case2 a b c d =>
    rw [show [a, b, c, d].length / 5 * 5 = 0 by simp]
    simp only [List.take_zero, List.drop_zero, encLoop, encTail]
    have hlen : (syms [a, b, c, d]).length = 7 := rfl
    unfold output at hd ⊢
    rw [case4_spec hal a b c d dst (by rw [List.length_append, text_length] at hd; omega)]
    rw [if_neg (by simp), Option.bind_eq_bind, Option.bind_some]
    simp only [List.length_cons, List.length_nil]
    rw [hlen] at hd ⊢
    exact pad_spec p _ 7 dst hlen (by omega) (by omega) hd
  | case3 a b c =>
    rw [show [a, b, c].length / 5 * 5 = 0 by simp]
    simp only [List.take_zero, List.drop_zero, encLoop, encTail]
    have hlen : (syms [a, b, c]).length = 5 := rfl
    unfold output at hd ⊢
    rw [case3_spec hal a b c dst (by rw [List.length_append, text_length] at hd; omega)]
    rw [if_neg (by simp), Option.bind_eq_bind, Option.bind_some]
    simp only [List.length_cons, List.length_nil]
    rw [hlen] at hd ⊢
    exact pad_spec p _ 5 dst hlen (by omega) (by omega) hd
  | case4 a b =>
    rw [show [a, b].length / 5 * 5 = 0 by simp]
    simp only [List.take_zero, List.drop_zero, encLoop, encTail]
    have hlen : (syms [a, b]).length = 4 := rfl
    unfold output at hd ⊢
    rw [case2_spec hal a b dst (by rw [List.length_append, text_length] at hd; omega)]
    rw [if_neg (by simp), Option.bind_eq_bind, Option.bind_some]
    simp only [List.length_cons, List.length_nil]
    rw [hlen] at hd ⊢
    exact pad_spec p _ 4 dst hlen (by omega) (by omega) hd
  | case5 a =>
    rw [show [a].length / 5 * 5 = 0 by simp]
    simp only [List.take_zero, List.drop_zero, encLoop, encTail]
    have hlen : (syms [a]).length = 2 := rfl
    unfold output at hd ⊢
    rw [case1_spec hal a dst (by rw [List.length_append, text_length] at hd; omega)]
    rw [if_neg (by simp), Option.bind_eq_bind, Option.bind_some]
    simp only [List.length_cons, List.length_nil]
    rw [hlen] at hd ⊢
    exact pad_spec p _ 2 dst hlen (by omega) (by omega) hd
  | case6 =>
    simp [encLoop, encTail, output, syms, text, pads]

theorem encode_spec (al : Alphabet) (hal : al.encoding.length = 32) (p : Byte) (src dst : List Byte)
    (hd : encode_len src.length p ≤ dst.length) :
    encode_buffer src dst p al =
      some (output al p src ++ dst.drop (output al p src).length, encode_len src.length p) := by
  unfold encode_buffer
  by_cases h : src.length = 0
  · rw [if_pos h]
    have : src = [] := List.length_eq_zero_iff.1 h
    subst this
    simp [output, syms, text, pads, encode_len]
  · rw [if_neg h]
    simp only []
    rw [encLoop_spec al hal p src dst (by rw [output_length]; exact hd)]
    rfl

end C3.Base32
