import Verif.Base64.Spec
import Verif.Codec.Lemmas

/-! # Helper lemmas for base64 -/

set_option autoImplicit false

namespace C3.Base64
open C3.Codec

theorem group3 (a b c : Byte) :
    (a.setWidth 32 <<< 16 ||| b.setWidth 32 <<< 8 ||| c.setWidth 32 : BitVec 32).toNat =
      a.toNat * 65536 + b.toNat * 256 + c.toNat := by
  have ha := a.isLt; have hb := b.isLt; have hc := c.isLt
  simp only [BitVec.toNat_or, BitVec.toNat_shiftLeft, BitVec.toNat_setWidth, Nat.shiftLeft_eq]
  rw [Nat.mod_eq_of_lt (show a.toNat < 2 ^ 32 by omega), Nat.mod_eq_of_lt (show b.toNat < 2 ^ 32 by omega),
    Nat.mod_eq_of_lt (show c.toNat < 2 ^ 32 by omega),
    Nat.mod_eq_of_lt (show a.toNat * 2 ^ 16 < 2 ^ 32 by omega),
    Nat.mod_eq_of_lt (show b.toNat * 2 ^ 8 < 2 ^ 32 by omega)]
  rw [or_add _ (b.toNat * 2 ^ 8) 16 (by omega)]
  have : a.toNat * 2 ^ 16 + b.toNat * 2 ^ 8 = (a.toNat * 256 + b.toNat) * 2 ^ 8 := by ring
  rw [this, or_add _ _ 8 (by omega)]
  ring

theorem group2 (a b : Byte) :
    (a.setWidth 32 <<< 16 ||| b.setWidth 32 <<< 8 : BitVec 32).toNat =
      a.toNat * 65536 + b.toNat * 256 := by
  have := group3 a b 0
  simpa using this

theorem group1 (a : Byte) : (a.setWidth 32 <<< 16 : BitVec 32).toNat = a.toNat * 65536 := by
  have := group2 a 0
  simpa using this

theorem enc_eq {al : Alphabet} (h : al.encoding.length = 64) (g : BitVec 32) (sh : Nat) :
    enc al g sh = some (al.encoding.getD (g.toNat / 2 ^ sh % 64) 0) := by
  unfold enc MASK
  have e : ((g >>> sh) &&& (0b111111 : BitVec 32)).toNat = g.toNat / 2 ^ sh % 64 := by
    rw [BitVec.toNat_and, BitVec.toNat_ushiftRight, Nat.shiftRight_eq_div_pow]
    exact and_mask _ 6
  rw [e]
  have hlt : g.toNat / 2 ^ sh % 64 < al.encoding.length := by rw [h]; omega
  rw [List.getD_eq_getElem?_getD, List.getElem?_eq_getElem hlt]; rfl

theorem dec4 (s0 s1 s2 s3 : Nat) (h0 : s0 < 64) (h1 : s1 < 64) (h2 : s2 < 64) (h3 : s3 < 64) :
    ((BitVec.ofNat 8 s0).setWidth 32 <<< 18 ||| (BitVec.ofNat 8 s1).setWidth 32 <<< 12 |||
      (BitVec.ofNat 8 s2).setWidth 32 <<< 6 ||| (BitVec.ofNat 8 s3).setWidth 32 : BitVec 32).toNat =
      s0 * 262144 + s1 * 4096 + s2 * 64 + s3 := by
  simp only [BitVec.toNat_or, BitVec.toNat_shiftLeft, BitVec.toNat_setWidth, Nat.shiftLeft_eq,
    BitVec.toNat_ofNat]
  have e : ∀ s : Nat, s < 64 → s % 2 ^ 8 % 2 ^ 32 = s := by intro s h; omega
  rw [e _ h0, e _ h1, e _ h2, e _ h3,
    Nat.mod_eq_of_lt (show s0 * 2 ^ 18 < 2 ^ 32 by omega),
    Nat.mod_eq_of_lt (show s1 * 2 ^ 12 < 2 ^ 32 by omega),
    Nat.mod_eq_of_lt (show s2 * 2 ^ 6 < 2 ^ 32 by omega)]
  rw [or_add _ (s1 * 2 ^ 12) 18 (by omega)]
  have : s0 * 2 ^ 18 + s1 * 2 ^ 12 = (s0 * 64 + s1) * 2 ^ 12 := by ring
  rw [this, or_add _ (s2 * 2 ^ 6) 12 (by omega)]
  have : (s0 * 64 + s1) * 2 ^ 12 + s2 * 2 ^ 6 = ((s0 * 64 + s1) * 64 + s2) * 2 ^ 6 := by ring
  rw [this, or_add _ s3 6 (by omega)]
  ring

theorem dec3 (s0 s1 s2 : Nat) (h0 : s0 < 64) (h1 : s1 < 64) (h2 : s2 < 64) :
    ((BitVec.ofNat 8 s0).setWidth 32 <<< 18 ||| (BitVec.ofNat 8 s1).setWidth 32 <<< 12 |||
      (BitVec.ofNat 8 s2).setWidth 32 <<< 6 : BitVec 32).toNat =
      s0 * 262144 + s1 * 4096 + s2 * 64 := by
  have := dec4 s0 s1 s2 0 h0 h1 h2 (by omega)
  simpa using this

theorem dec2 (s0 s1 : Nat) (h0 : s0 < 64) (h1 : s1 < 64) :
    ((BitVec.ofNat 8 s0).setWidth 32 <<< 18 ||| (BitVec.ofNat 8 s1).setWidth 32 <<< 12 : BitVec 32).toNat =
      s0 * 262144 + s1 * 4096 := by
  have := dec3 s0 s1 0 h0 h1 (by omega)
  simpa using this

theorem byte_of (g : BitVec 32) (sh : Nat) : ((g >>> sh).setWidth 8).toNat = g.toNat / 2 ^ sh % 256 := by
  rw [BitVec.toNat_setWidth, BitVec.toNat_ushiftRight, Nat.shiftRight_eq_div_pow]

theorem byte_of0 (g : BitVec 32) : (g.setWidth 8).toNat = g.toNat % 256 := by
  rw [BitVec.toNat_setWidth]

/-- The symbols the encoder produces. -/
def syms : List Byte → List Nat
  | a :: b :: c :: rest =>
    let g := a.toNat * 65536 + b.toNat * 256 + c.toNat
    g / 2 ^ 18 % 64 :: g / 2 ^ 12 % 64 :: g / 2 ^ 6 % 64 :: g / 2 ^ 0 % 64 :: syms rest
  | [a, b] =>
    let g := a.toNat * 65536 + b.toNat * 256
    [g / 2 ^ 18 % 64, g / 2 ^ 12 % 64, g / 2 ^ 6 % 64]
  | [a] =>
    let g := a.toNat * 65536
    [g / 2 ^ 18 % 64, g / 2 ^ 12 % 64]
  | [] => []

theorem syms_encodes (bs : List Byte) : Encodes 6 bs (syms bs) := by
  induction bs using syms.induct with
  | case1 a b c rest ih =>
    rw [syms]
    have := a.isLt; have := b.isLt; have := c.isLt
    refine Encodes.append (b1 := [a, b, c]) (s1 := [_, _, _, _]) ⟨?_, ?_, ?_, ?_⟩ ?_ ih
    · simp
    · simp
    · simp only [List.mem_cons, List.not_mem_nil, or_false]
      rintro s (rfl | rfl | rfl | rfl) <;> exact Nat.mod_lt _ (by omega)
    · simp only [symsVal, bytesVal, C3.Bigint.positional, List.map, List.foldl, List.length]
      omega
    · simp
  | case2 a b =>
    rw [syms]
    have := a.isLt; have := b.isLt
    refine ⟨by simp, by simp, ?_, ?_⟩
    · simp only [List.mem_cons, List.not_mem_nil, or_false]
      rintro s (rfl | rfl | rfl) <;> exact Nat.mod_lt _ (by omega)
    · simp only [symsVal, bytesVal, C3.Bigint.positional, List.map, List.foldl, List.length]
      omega
  | case3 a =>
    rw [syms]
    have := a.isLt
    refine ⟨by simp, by simp, ?_, ?_⟩
    · simp only [List.mem_cons, List.not_mem_nil, or_false]
      rintro s (rfl | rfl) <;> exact Nat.mod_lt _ (by omega)
    · simp only [symsVal, bytesVal, C3.Bigint.positional, List.map, List.foldl, List.length]
      omega
  | case4 => simp [syms, Encodes, symsVal, bytesVal]

theorem syms_length (bs : List Byte) : (syms bs).length = (8 * bs.length + 5) / 6 := by
  obtain ⟨h1, h2, -, -⟩ := syms_encodes bs
  omega

/-! ## Encoding -/

theorem four_le {α : Type} (l : List α) (h : 4 ≤ l.length) : ∃ a b c d t, l = a :: b :: c :: d :: t := by
  match l, h with
  | a :: b :: c :: d :: t, _ => exact ⟨a, b, c, d, t, rfl⟩

theorem three_le {α : Type} (l : List α) (h : 3 ≤ l.length) : ∃ a b c t, l = a :: b :: c :: t := by
  match l, h with
  | a :: b :: c :: t, _ => exact ⟨a, b, c, t, rfl⟩

theorem two_le {α : Type} (l : List α) (h : 2 ≤ l.length) : ∃ a b t, l = a :: b :: t := by
  match l, h with
  | a :: b :: t, _ => exact ⟨a, b, t, rfl⟩

theorem one_le {α : Type} (l : List α) (h : 1 ≤ l.length) : ∃ a t, l = a :: t := by
  match l, h with
  | a :: t, _ => exact ⟨a, t, rfl⟩

/-- The whole output. -/
def output (al : Alphabet) (p : Byte) (src : List Byte) : List Byte :=
  text al (syms src) ++ pads p (syms src).length

theorem output_group (al : Alphabet) (p a b c : Byte) (rest : List Byte) :
    output al p (a :: b :: c :: rest) =
      text al ((syms (a :: b :: c :: rest)).take 4) ++ output al p rest := by
  unfold output
  rw [syms]
  simp only [text, pads, List.map_cons, List.take_succ_cons, List.take_zero, List.map_nil,
    List.cons_append, List.nil_append, List.length_cons]
  rw [show ((syms rest).length + 1 + 1 + 1 + 1) % 4 = (syms rest).length % 4 by omega]

theorem output_length (al : Alphabet) (p : Byte) (src : List Byte) :
    (output al p src).length = encode_len src.length p := by
  unfold output text pads encode_len
  rw [List.length_append, List.length_map, syms_length]
  by_cases hp : p = 0
  · simp only [hp, ↓reduceIte, List.length_nil, ne_eq, not_true_eq_false]
    omega
  · simp only [hp, ↓reduceIte, List.length_replicate, ne_eq, not_false_eq_true]
    omega

theorem pos_iff (p : Byte) : p > 0 ↔ p ≠ 0 := by
  constructor
  · rintro h rfl; exact absurd h (by decide)
  · intro h
    rw [gt_iff_lt, BitVec.lt_def]
    have : p.toNat ≠ 0 := fun e => h (BitVec.eq_of_toNat_eq e)
    simpa using Nat.pos_of_ne_zero this

theorem encLoop_spec (al : Alphabet) (hal : al.encoding.length = 64) (p : Byte) (src dst : List Byte)
    (hd : (output al p src).length ≤ dst.length) :
    encLoop al (encTail al p (src.drop (src.length - src.length % 3)))
      (src.take (src.length - src.length % 3)) dst =
      some (output al p src ++ dst.drop (output al p src).length) := by
  induction src using syms.induct generalizing dst with
  | case1 a b c rest ih =>
    rw [output_group] at hd ⊢
    have e : (a :: b :: c :: rest).length - (a :: b :: c :: rest).length % 3 =
        (rest.length - rest.length % 3) + 3 := by simp only [List.length_cons]; omega
    rw [e]
    simp only [List.take_succ_cons, List.drop_succ_cons]
    rw [syms] at hd ⊢
    simp only [List.take_succ_cons, List.take_zero, text, List.map_cons, List.map_nil,
      List.cons_append, List.nil_append, List.length_cons] at hd ⊢
    obtain ⟨d0, d1, d2, d3, t, rfl⟩ := four_le dst (by omega)
    rw [encLoop]
    simp only [enc_eq hal, group3, Option.bind_eq_bind, Option.bind_some, store, List.length_cons,
      List.length_set, List.set_cons_zero, List.set_cons_succ, Nat.zero_lt_succ, ↓reduceIte,
      Nat.add_lt_add_iff_right, Nat.succ_lt_succ_iff]
    rw [show List.drop 4 (_ :: _ :: _ :: _ :: t) = t from rfl, ih t (by simpa using hd)]
    rfl
  | case2 a b =>
    have e : [a, b].length - [a, b].length % 3 = 0 := rfl
    rw [e]
    simp only [List.take_zero, List.drop_zero, encLoop, encTail, enc_eq hal, group2]
    unfold output at hd ⊢
    rw [syms] at hd ⊢
    by_cases hp : p = 0
    · have hp' : ¬ p > 0 := by rw [pos_iff]; exact not_not.2 hp
      simp only [text, pads, hp, ↓reduceIte, List.append_nil, List.length_map, List.length_cons,
        List.length_nil] at hd
      obtain ⟨d0, d1, d2, t, rfl⟩ := three_le dst (by omega)
      simp [hp, text, pads, store]
    · have hp' : p > 0 := (pos_iff p).2 hp
      simp only [text, pads, hp, ↓reduceIte, List.length_append, List.length_map, List.length_cons,
        List.length_nil, List.length_replicate] at hd
      obtain ⟨d0, d1, d2, d3, t, rfl⟩ := four_le dst (by omega)
      simp only [if_pos hp']
      have hp0 : ¬ p = 0#8 := hp
      simp [hp0, text, pads, store]
  | case3 a =>
    have e : [a].length - [a].length % 3 = 0 := rfl
    rw [e]
    simp only [List.take_zero, List.drop_zero, encLoop, encTail, enc_eq hal, group1]
    unfold output at hd ⊢
    rw [syms] at hd ⊢
    by_cases hp : p = 0
    · have hp' : ¬ p > 0 := by rw [pos_iff]; exact not_not.2 hp
      simp only [text, pads, hp, ↓reduceIte, List.append_nil, List.length_map, List.length_cons,
        List.length_nil] at hd
      obtain ⟨d0, d1, t, rfl⟩ := two_le dst (by omega)
      simp [hp, text, pads, store]
    · have hp' : p > 0 := (pos_iff p).2 hp
      simp only [text, pads, hp, ↓reduceIte, List.length_append, List.length_map, List.length_cons,
        List.length_nil, List.length_replicate] at hd
      obtain ⟨d0, d1, d2, d3, t, rfl⟩ := four_le dst (by omega)
      simp only [if_pos hp']
      have hp0 : ¬ p = 0#8 := hp
      simp [hp0, text, pads, store, List.replicate]
  | case4 =>
    simp [encLoop, encTail, output, syms, text, pads]

theorem encode_spec (al : Alphabet) (hal : al.encoding.length = 64) (p : Byte) (src dst : List Byte)
    (hd : encode_len src.length p ≤ dst.length) :
    encode_buffer src dst p al =
      some (output al p src ++ dst.drop (output al p src).length, encode_len src.length p) := by
  unfold encode_buffer
  by_cases h : src.length = 0
  · rw [if_pos h]
    have : src = [] := List.length_eq_zero_iff.1 h
    subst this
    simp [output, syms, text, pads, encode_len]
  · rw [if_neg h, if_neg (by omega)]
    simp only []
    rw [encLoop_spec al hal p src dst (by rw [output_length]; exact hd)]
    rfl


end C3.Base64
