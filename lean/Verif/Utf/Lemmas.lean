import Verif.Codec.Lemmas
import Verif.Utf.Model
import Verif.Utf.Spec

/-!
# Single code points: what the encoders write and the decoder reads
-/

set_option autoImplicit false

namespace C3.Utf
open C3.Codec (store or_add and_mask)

/-! ## Masks on bytes -/

theorem m80 : ∀ b : Byte, (b.setWidth 32 &&& 0x80#32 = 0#32) ↔ b.toNat < 0x80 := by decide +kernel
theorem mC0 : ∀ b : Byte, (b.setWidth 32 &&& 0xC0#32 = 0x80#32) ↔ 0x80 ≤ b.toNat ∧ b.toNat < 0xC0 := by
  decide +kernel
theorem mE0 : ∀ b : Byte, (b.setWidth 32 &&& 0xE0#32 = 0xC0#32) ↔ 0xC0 ≤ b.toNat ∧ b.toNat < 0xE0 := by
  decide +kernel
theorem mF0 : ∀ b : Byte, (b.setWidth 32 &&& 0xF0#32 = 0xE0#32) ↔ 0xE0 ≤ b.toNat ∧ b.toNat < 0xF0 := by
  decide +kernel
theorem mF8 : ∀ b : Byte, (b.setWidth 32 &&& 0xF8#32 = 0xF0#32) ↔ 0xF0 ≤ b.toNat ∧ b.toNat < 0xF8 := by
  decide +kernel
theorem v1F : ∀ b : Byte, ((b.setWidth 32 &&& 0x1F#32) <<< 6).toNat = b.toNat % 32 * 64 := by
  decide +kernel
theorem v0F : ∀ b : Byte, ((b.setWidth 32 &&& 0x0F#32) <<< 12).toNat = b.toNat % 16 * 4096 := by
  decide +kernel
theorem v07 : ∀ b : Byte, ((b.setWidth 32 &&& 0x07#32) <<< 18).toNat = b.toNat % 8 * 262144 := by
  decide +kernel
theorem v3F : ∀ b : Byte, (b.setWidth 32 &&& 0x3F#32).toNat = b.toNat % 64 := by decide +kernel
theorem v3F6 : ∀ b : Byte, ((b.setWidth 32 &&& 0x3F#32) <<< 6).toNat = b.toNat % 64 * 64 := by
  decide +kernel
theorem v3F12 : ∀ b : Byte, ((b.setWidth 32 &&& 0x3F#32) <<< 12).toNat = b.toNat % 64 * 4096 := by
  decide +kernel

/-! ## The decoder -/

/-- The numbers the decoder accepts in a form of `w` bytes. -/
def InForm (w n : Nat) : Prop :=
  (w = 1 ∧ n < 0x80) ∨ (w = 2 ∧ 64 ≤ n ∧ n < 0x800) ∨ (w = 3 ∧ 64 ≤ n ∧ n < 0x10000) ∨
  (w = 4 ∧ 64 ≤ n ∧ n < 0x200000)

theorem bv_zero_iff (x : Char32) : x = 0#32 ↔ x.toNat = 0 :=
  ⟨fun h => by rw [h]; rfl, fun h => BitVec.eq_of_toNat_eq (by rw [h]; rfl)⟩

/-- What `utf8_to_char32` does. -/
def DecOk (ptr : List Byte) (size : Nat) (r : Option (Except Fault (Char32 × Nat))) : Prop :=
  r = some (.error .INVALID_UTF8) ∨
    ∃ c w, r = some (.ok (c, w)) ∧ w ≤ size ∧ InForm w c.toNat ∧ nums (ptr.take w) = form8 w c.toNat

theorem dec_ok (ptr : List Byte) (size : Nat) (hs : size ≤ ptr.length) :
    DecOk ptr size (utf8_to_char32 ptr size) := by
  unfold utf8_to_char32
  by_cases h1 : size < 1
  · rw [if_pos h1]; exact Or.inl rfl
  rw [if_neg h1]
  obtain ⟨b0, p1, rfl⟩ := List.exists_cons_of_length_pos (l := ptr) (by omega)
  have l0 := b0.isLt
  rw [List.getElem?_cons_zero, Option.bind_eq_bind, Option.bind_some]
  dsimp only
  by_cases hb : b0.toNat < 0x80
  · rw [if_pos ((m80 b0).2 hb)]
    refine Or.inr ⟨_, 1, rfl, by omega, Or.inl ⟨rfl, ?_⟩, ?_⟩ <;>
      simp [nums, form8, BitVec.toNat_setWidth] <;> omega
  rw [if_neg ((m80 b0).not.2 hb)]
  by_cases hb2 : 0xC0 ≤ b0.toNat ∧ b0.toNat < 0xE0
  · rw [if_pos ((mE0 b0).2 hb2)]
    by_cases h2 : size < 2
    · rw [if_pos h2]; exact Or.inl rfl
    rw [if_neg h2]
    obtain ⟨b1, p2, rfl⟩ := List.exists_cons_of_length_pos (l := p1) (by simp at hs; omega)
    have l1 := b1.isLt
    simp only [List.getElem?_cons_zero, List.getElem?_cons_succ, Option.bind_eq_bind, Option.bind_some, mC0, ne_eq]
    split
    · exact Or.inl rfl
    rename_i h3
    rw [bv_zero_iff, v1F] at h3
    refine Or.inr ⟨_, 2, rfl, by omega, Or.inr (Or.inl ⟨rfl, ?_⟩), ?_⟩
    · rw [BitVec.toNat_add, v1F, v3F]; omega
    · simp only [nums, form8, BitVec.toNat_add, v1F, v3F, List.take_succ_cons, List.take_zero, List.map_cons,
        List.map_nil, List.cons.injEq, and_true]
      omega
  rw [if_neg ((mE0 b0).not.2 hb2)]
  by_cases hb3 : 0xE0 ≤ b0.toNat ∧ b0.toNat < 0xF0
  · rw [if_pos ((mF0 b0).2 hb3)]
    by_cases h2 : size < 3
    · rw [if_pos h2]; exact Or.inl rfl
    rw [if_neg h2]
    obtain ⟨b1, p2, rfl⟩ := List.exists_cons_of_length_pos (l := p1) (by simp at hs; omega)
    obtain ⟨b2, p3, rfl⟩ := List.exists_cons_of_length_pos (l := p2) (by simp at hs; omega)
    have l1 := b1.isLt
    have l2 := b2.isLt
    simp only [List.getElem?_cons_zero, List.getElem?_cons_succ, Option.bind_eq_bind, Option.bind_some, mC0, ne_eq]
    split
    · exact Or.inl rfl
    rename_i h3
    split
    · exact Or.inl rfl
    rename_i h4
    rw [bv_zero_iff, BitVec.toNat_add, v0F, v3F6] at h4
    refine Or.inr ⟨_, 3, rfl, by omega, Or.inr (Or.inr (Or.inl ⟨rfl, ?_⟩)), ?_⟩
    · rw [BitVec.toNat_add, BitVec.toNat_add, v0F, v3F, v3F6]; omega
    · simp only [nums, form8, BitVec.toNat_add, v0F, v3F, v3F6, List.take_succ_cons, List.take_zero, List.map_cons,
        List.map_nil, List.cons.injEq, and_true]
      omega
  rw [if_neg ((mF0 b0).not.2 hb3)]
  by_cases h2 : size < 4
  · rw [if_pos h2]; exact Or.inl rfl
  rw [if_neg h2]
  by_cases hb4 : 0xF0 ≤ b0.toNat ∧ b0.toNat < 0xF8
  swap
  · rw [if_pos ((mF8 b0).not.2 hb4)]; exact Or.inl rfl
  rw [if_neg (not_not.2 ((mF8 b0).2 hb4))]
  obtain ⟨b1, p2, rfl⟩ := List.exists_cons_of_length_pos (l := p1) (by simp at hs; omega)
  obtain ⟨b2, p3, rfl⟩ := List.exists_cons_of_length_pos (l := p2) (by simp at hs; omega)
  obtain ⟨b3, p4, rfl⟩ := List.exists_cons_of_length_pos (l := p3) (by simp at hs; omega)
  have l1 := b1.isLt
  have l2 := b2.isLt
  have l3 := b3.isLt
  simp only [List.getElem?_cons_zero, List.getElem?_cons_succ, Option.bind_eq_bind, Option.bind_some, mC0, ne_eq]
  split
  · exact Or.inl rfl
  rename_i h3
  split
  · exact Or.inl rfl
  rename_i h4
  split
  · exact Or.inl rfl
  rename_i h5
  rw [bv_zero_iff, BitVec.toNat_add, BitVec.toNat_add, v07, v3F6, v3F12] at h5
  refine Or.inr ⟨_, 4, rfl, by omega, Or.inr (Or.inr (Or.inr ⟨rfl, ?_⟩)), ?_⟩
  · rw [BitVec.toNat_add, BitVec.toNat_add, BitVec.toNat_add, v07, v3F, v3F6, v3F12]; omega
  · simp only [nums, form8, BitVec.toNat_add, v07, v3F, v3F6, v3F12, List.take_succ_cons, List.take_zero, List.map_cons,
      List.map_nil, List.cons.injEq, and_true]
    omega

theorem dec_inv (ptr : List Byte) (size : Nat) (hs : size ≤ ptr.length) :
    utf8_to_char32 ptr size = some (.error .INVALID_UTF8) ∨
    ∃ c w, utf8_to_char32 ptr size = some (.ok (c, w)) ∧ w ≤ size ∧ InForm w c.toNat ∧
      nums (ptr.take w) = form8 w c.toNat := dec_ok ptr size hs

theorem nums_cons {w : Nat} (us : List (BitVec w)) (n : Nat) (ns : List Nat) (h : nums us = n :: ns) :
    ∃ u us', us = u :: us' ∧ u.toNat = n ∧ nums us' = ns := by
  cases us with
  | nil => simp [nums] at h
  | cons u us => simp [nums] at h; exact ⟨u, us, rfl, h.1, h.2⟩

/-- Every form in range is decoded. -/
theorem dec_form (ptr : List Byte) (size w n : Nat) (tail : List Nat) (hf : InForm w n) (hw : w ≤ size)
    (h : nums ptr = form8 w n ++ tail) :
    utf8_to_char32 ptr size = some (.ok (BitVec.ofNat 32 n, w)) := by
  unfold utf8_to_char32
  rw [if_neg (by rcases hf with h | h | h | h <;> omega)]
  rcases hf with ⟨rfl, h1⟩ | ⟨rfl, h1⟩ | ⟨rfl, h1⟩ | ⟨rfl, h1⟩
  · obtain ⟨b0, p1, rfl, e0, h⟩ := nums_cons _ _ _ h
    simp only [List.getElem?_cons_zero, Option.bind_eq_bind, Option.bind_some, m80]
    rw [if_pos (by omega)]
    congr 4
    apply BitVec.eq_of_toNat_eq
    rw [BitVec.toNat_setWidth, BitVec.toNat_ofNat, e0]
  · obtain ⟨b0, p1, rfl, e0, h⟩ := nums_cons _ _ _ h
    obtain ⟨b1, p2, rfl, e1, h⟩ := nums_cons _ _ _ h
    simp only [List.getElem?_cons_zero, List.getElem?_cons_succ, Option.bind_eq_bind, Option.bind_some, m80, mE0,
      mC0, ne_eq]
    rw [if_neg (by omega), if_pos (by omega), if_neg (by omega), if_neg (by rw [bv_zero_iff, v1F]; omega)]
    congr 4
    apply BitVec.eq_of_toNat_eq
    rw [BitVec.toNat_add, v1F, v3F, BitVec.toNat_ofNat]; omega
  · obtain ⟨b0, p1, rfl, e0, h⟩ := nums_cons _ _ _ h
    obtain ⟨b1, p2, rfl, e1, h⟩ := nums_cons _ _ _ h
    obtain ⟨b2, p3, rfl, e2, h⟩ := nums_cons _ _ _ h
    simp only [List.getElem?_cons_zero, List.getElem?_cons_succ, Option.bind_eq_bind, Option.bind_some, m80, mE0, mF0,
      mC0, ne_eq]
    rw [if_neg (by omega), if_neg (by omega), if_pos (by omega), if_neg (by omega), if_neg (by omega),
      if_neg (by rw [bv_zero_iff, BitVec.toNat_add, v0F, v3F6]; omega)]
    congr 4
    apply BitVec.eq_of_toNat_eq
    rw [BitVec.toNat_add, BitVec.toNat_add, v0F, v3F, v3F6, BitVec.toNat_ofNat]; omega
  · obtain ⟨b0, p1, rfl, e0, h⟩ := nums_cons _ _ _ h
    obtain ⟨b1, p2, rfl, e1, h⟩ := nums_cons _ _ _ h
    obtain ⟨b2, p3, rfl, e2, h⟩ := nums_cons _ _ _ h
    obtain ⟨b3, p4, rfl, e3, h⟩ := nums_cons _ _ _ h
    simp only [List.getElem?_cons_zero, List.getElem?_cons_succ, Option.bind_eq_bind, Option.bind_some, m80, mE0, mF0,
      mF8, mC0, ne_eq]
    rw [if_neg (by omega), if_neg (by omega), if_neg (by omega), if_neg (by omega), if_neg (by omega),
      if_neg (by omega), if_neg (by omega), if_neg (by rw [bv_zero_iff, BitVec.toNat_add, BitVec.toNat_add, v07, v3F6, v3F12]; omega)]
    congr 4
    apply BitVec.eq_of_toNat_eq
    rw [BitVec.toNat_add, BitVec.toNat_add, BitVec.toNat_add, v07, v3F, v3F6, v3F12, BitVec.toNat_ofNat]; omega

theorem form8_length (w n : Nat) (h : InForm w n) : (form8 w n).length = w := by
  rcases h with h | h | h | h <;> obtain ⟨rfl, h⟩ := h <;> rfl

theorem inForm_width8 (n : Nat) (h : n < 0x200000) : InForm (width8 n) n := by
  unfold InForm width8
  split
  · omega
  split
  · omega
  split <;> omega

theorem width8_pos (n : Nat) : 1 ≤ width8 n ∧ width8 n ≤ 4 := by
  unfold width8
  split <;> [skip; split <;> [skip; split]] <;> omega

/-! ## The encoders -/

/-- The bytes both encoders write. -/
def enc (c : Char32) : List Byte :=
  if c ≤ 0x7f#32 then [toChar c]
  else if c ≤ 0x7ff#32 then [toChar (0xC0#32 ||| c >>> 6), toChar (0x80#32 ||| (c &&& 0x3F#32))]
  else if c ≤ 0xffff#32 then [toChar (0xE0#32 ||| c >>> 12), toChar (0x80#32 ||| (c >>> 6 &&& 0x3F#32)), toChar (0x80#32 ||| (c &&& 0x3F#32))]
  else [toChar (0xF0#32 ||| c >>> 18), toChar (0x80#32 ||| (c >>> 12 &&& 0x3F#32)), toChar (0x80#32 ||| (c >>> 6 &&& 0x3F#32)),
    toChar (0x80#32 ||| (c &&& 0x3F#32))]

theorem or_num (a i x : Nat) (hx : x < 2 ^ i) : (a * 2 ^ i) ||| x = a * 2 ^ i + x := or_add a x i hx

theorem le_iff (c : Char32) (n : Nat) (hn : n < 2 ^ 32) : c ≤ BitVec.ofNat 32 n ↔ c.toNat ≤ n := by
  rw [BitVec.le_def, BitVec.toNat_ofNat, Nat.mod_eq_of_lt hn]

theorem cont (x : Char32) : (toChar (0x80#32 ||| (x &&& 0x3F#32))).toNat = 0x80 + x.toNat % 64 := by
  have e1 : (0x80#32).toNat = 2 * 2 ^ 6 := rfl
  have e2 : (0x3F#32).toNat = 2 ^ 6 - 1 := rfl
  have : x.toNat % 2 ^ 6 < 2 ^ 6 := Nat.mod_lt _ (by decide)
  rw [toChar, BitVec.toNat_setWidth, BitVec.toNat_or, BitVec.toNat_and, e1, e2, and_mask, or_num 2 6 _ this]
  omega

theorem shr (c : Char32) (k : Nat) : (c >>> k).toNat = c.toNat / 2 ^ k := by
  rw [BitVec.toNat_ushiftRight, Nat.shiftRight_eq_div_pow]

theorem enc_utf8 (c : Char32) (hc : c.toNat < 0x200000) : nums (enc c) = utf8 c.toNat := by
  unfold enc utf8 width8
  have i1 := le_iff c 0x7f (by decide)
  have i2 := le_iff c 0x7ff (by decide)
  have i3 := le_iff c 0xffff (by decide)
  have f1 : (0xC0#32).toNat = 6 * 2 ^ 5 := rfl
  have f2 : (0xE0#32).toNat = 14 * 2 ^ 4 := rfl
  have f3 : (0xF0#32).toNat = 30 * 2 ^ 3 := rfl
  by_cases h1 : c ≤ 0x7f#32
  · rw [if_pos h1, if_pos (by have := i1.1 h1; omega)]
    have := i1.1 h1
    simp only [nums, form8, List.map_cons, List.map_nil, toChar, BitVec.toNat_setWidth]
    congr 1; omega
  have n1 : ¬ c.toNat ≤ 0x7f := fun h => h1 (i1.2 h)
  rw [if_neg h1, if_neg (show ¬ c.toNat < 0x80 by omega)]
  by_cases h2 : c ≤ 0x7ff#32
  · have := i2.1 h2
    rw [if_pos h2, if_pos (show c.toNat < 0x800 by omega)]
    simp only [nums, form8, List.map_cons, List.map_nil, cont]
    congr 1
    rw [toChar, BitVec.toNat_setWidth, BitVec.toNat_or, shr, f1, or_num _ _ _ (by omega)]
    omega
  have n2 : ¬ c.toNat ≤ 0x7ff := fun h => h2 (i2.2 h)
  rw [if_neg h2, if_neg (show ¬ c.toNat < 0x800 by omega)]
  by_cases h3 : c ≤ 0xffff#32
  · have := i3.1 h3
    rw [if_pos h3, if_pos (show c.toNat < 0x10000 by omega)]
    simp only [nums, form8, List.map_cons, List.map_nil, cont, shr]
    congr 1
    rw [toChar, BitVec.toNat_setWidth, BitVec.toNat_or, shr, f2, or_num _ _ _ (by omega)]
    omega
  have n3 : ¬ c.toNat ≤ 0xffff := fun h => h3 (i3.2 h)
  rw [if_neg h3, if_neg (show ¬ c.toNat < 0x10000 by omega)]
  simp only [nums, form8, List.map_cons, List.map_nil, cont, shr]
  congr 1
  rw [toChar, BitVec.toNat_setWidth, BitVec.toNat_or, shr, f3, or_num _ _ _ (by omega)]
  omega

/-- An output pointer that has written `done` and has `k` uninitialised cells left. -/
def at_ {β : Type} (done : List β) (k : Nat) : Out β := ⟨done.map some ++ List.replicate k none, done.length⟩

theorem put_at {β : Type} (done : List β) (k : Nat) (v : β) :
    put (at_ done (k + 1)) v = some (at_ (done ++ [v]) k) := by
  simp [put, at_, store, List.replicate_succ]

/-- Several writes. -/
def putAll {β : Type} (o : Out β) : List β → Option (Out β)
  | [] => some o
  | v :: vs => do
    let o ← put o v
    putAll o vs

theorem putAll_at {β : Type} (vs done : List β) (k : Nat) :
    putAll (at_ done (vs.length + k)) vs = some (at_ (done ++ vs) k) := by
  induction vs generalizing done with
  | nil => simp [putAll]
  | cons v vs ih =>
    rw [putAll, List.length_cons, Nat.add_right_comm, put_at, Option.bind_eq_bind, Option.bind_some, ih]
    simp

theorem enc_put (c : Char32) (o : Out Byte) :
    char32_to_utf8_unsafe c o = (putAll o (enc c)).map (·, (enc c).length) := by
  unfold char32_to_utf8_unsafe enc
  split
  · simp [putAll]; cases put o (toChar c) <;> rfl
  split
  · simp only [putAll, Option.bind_eq_bind]
    cases put o _ <;> simp
    cases put _ _ <;> rfl
  split
  · simp only [putAll, Option.bind_eq_bind]
    cases put o _ <;> simp
    cases put _ _ <;> simp
    cases put _ _ <;> rfl
  · simp only [putAll, Option.bind_eq_bind]
    cases put o _ <;> simp
    cases put _ _ <;> simp
    cases put _ _ <;> simp
    cases put _ _ <;> rfl

theorem enc_unsafe (c : Char32) (done : List Byte) (k : Nat) :
    char32_to_utf8_unsafe c (at_ done ((enc c).length + k)) = some (at_ (done ++ enc c) k, (enc c).length) := by
  rw [enc_put, putAll_at]; rfl

theorem enc_length (c : Char32) : (enc c).length =
    if c ≤ 0x7f#32 then 1 else if c ≤ 0x7ff#32 then 2 else if c ≤ 0xffff#32 then 3 else 4 := by
  unfold enc
  split <;> [skip; split <;> [skip; split]] <;> rfl

/-- The bounds-checked encoder. -/
theorem enc_safe (c : Char32) (out : List (Option Byte)) :
    char32_to_utf8 c out =
      if c.toNat ≤ 0x10ffff ∧ (enc c).length ≤ out.length then
        some (.ok ((enc c).map some ++ out.drop (enc c).length, (enc c).length))
      else some (.error .CONVERSION_FAILED) := by
  have i1 := le_iff c 0x7f (by decide)
  have i2 := le_iff c 0x7ff (by decide)
  have i3 := le_iff c 0xffff (by decide)
  have i4 := le_iff c 0x10ffff (by decide)
  unfold char32_to_utf8 enc
  by_cases h0 : out.length = 0
  · rw [if_pos h0, if_neg]
    rintro ⟨-, h⟩
    revert h
    split <;> [skip; split <;> [skip; split]] <;> simp [h0]
  rw [if_neg h0]
  by_cases h1 : c ≤ 0x7f#32
  · have h1' := i1.1 h1
    simp only [if_pos h1]
    obtain ⟨a, rest, rfl⟩ := List.exists_cons_of_length_pos (l := out) (by omega)
    rw [if_pos ⟨by omega, by simp⟩]
    simp [store]
  have h1' : ¬ c.toNat ≤ 0x7f := fun h => h1 (i1.2 h)
  by_cases h2 : c ≤ 0x7ff#32
  · have h2' := i2.1 h2
    simp only [if_neg h1, if_pos h2]
    by_cases hl : out.length < 2
    · rw [if_pos hl, if_neg (by simp; omega)]
    obtain ⟨a, r1, rfl⟩ := List.exists_cons_of_length_pos (l := out) (by omega)
    obtain ⟨b, r2, rfl⟩ := List.exists_cons_of_length_pos (l := r1) (by simp at hl; omega)
    rw [if_neg hl, if_pos ⟨by omega, by simp⟩]
    simp [store]
  have h2' : ¬ c.toNat ≤ 0x7ff := fun h => h2 (i2.2 h)
  by_cases h3 : c ≤ 0xffff#32
  · have h3' := i3.1 h3
    simp only [if_neg h1, if_neg h2, if_pos h3]
    by_cases hl : out.length < 3
    · rw [if_pos hl, if_neg (by simp; omega)]
    obtain ⟨a, r1, rfl⟩ := List.exists_cons_of_length_pos (l := out) (by omega)
    obtain ⟨b, r2, rfl⟩ := List.exists_cons_of_length_pos (l := r1) (by simp at hl; omega)
    obtain ⟨d, r3, rfl⟩ := List.exists_cons_of_length_pos (l := r2) (by simp at hl; omega)
    rw [if_neg hl, if_pos ⟨by omega, by simp⟩]
    simp [store]
  have h3' : ¬ c.toNat ≤ 0xffff := fun h => h3 (i3.2 h)
  by_cases h4 : c ≤ 0x10ffff#32
  · have h4' := i4.1 h4
    simp only [if_neg h1, if_neg h2, if_neg h3, if_pos h4]
    by_cases hl : out.length < 4
    · rw [if_pos hl, if_neg (by simp; omega)]
    obtain ⟨a, r1, rfl⟩ := List.exists_cons_of_length_pos (l := out) (by omega)
    obtain ⟨b, r2, rfl⟩ := List.exists_cons_of_length_pos (l := r1) (by simp at hl; omega)
    obtain ⟨d, r3, rfl⟩ := List.exists_cons_of_length_pos (l := r2) (by simp at hl; omega)
    obtain ⟨e, r4, rfl⟩ := List.exists_cons_of_length_pos (l := r3) (by simp at hl; omega)
    rw [if_neg hl, if_pos ⟨by omega, by simp⟩]
    simp [store]
  · have h4' : ¬ c.toNat ≤ 0x10ffff := fun h => h4 (i4.2 h)
    simp only [if_neg h1, if_neg h2, if_neg h3, if_neg h4]
    rw [if_neg (fun h => h4' h.1)]

/-! ## UTF-16 -/

/-- The units `char32_to_utf16_unsafe` writes. -/
def enc16 (c : Char32) : List Char16 :=
  if c < 0x10000#32 then [c.setWidth 16]
  else [(0xD800#32 ||| ((c - 0x10000#32) >>> 10 &&& 0x3FF#32)).setWidth 16, (0xDC00#32 ||| ((c - 0x10000#32) &&& 0x3FF#32)).setWidth 16]

theorem enc16_unsafe (c : Char32) (done : List Char16) (k : Nat) :
    char32_to_utf16_unsafe c (at_ done ((enc16 c).length + k)) = some (at_ (done ++ enc16 c) k) := by
  have h := putAll_at (enc16 c) done k
  unfold char32_to_utf16_unsafe
  unfold enc16 at h ⊢
  split <;> rename_i hc
  · simp only [hc, if_true, putAll, Option.bind_eq_bind] at h
    cases h2 : put (at_ done ([BitVec.setWidth 16 c].length + k)) (BitVec.setWidth 16 c) with
    | none => rw [h2] at h; simp at h
    | some o => rw [h2] at h; simpa using h
  · simp only [hc, if_false, putAll, Option.bind_eq_bind] at h
    simp only [Option.bind_eq_bind]
    simpa using h

theorem lt16 (c : Char32) : c < 0x10000#32 ↔ c.toNat < 0x10000 := by rw [BitVec.lt_def]; rfl

theorem sub16 (c : Char32) (h : ¬ c < 0x10000#32) : (c - 0x10000#32).toNat = c.toNat - 0x10000 := by
  rw [lt16] at h
  have e : (0x10000#32).toNat = 0x10000 := rfl
  have := c.isLt
  rw [BitVec.toNat_sub, e]; omega

theorem mask10 (x : Char32) : (x &&& 0x3FF#32).toNat = x.toNat % 1024 := by
  rw [BitVec.toNat_and, show (0x3FF#32).toNat = 2 ^ 10 - 1 from rfl, and_mask]; rfl

theorem enc16_utf16 (c : Char32) (hc : c.toNat < 0x110000) : nums (enc16 c) = utf16 c.toNat := by
  unfold enc16 utf16
  by_cases h : c < 0x10000#32
  · have := (lt16 c).1 h
    rw [if_pos h, if_pos this]
    simp only [nums, List.map_cons, List.map_nil, BitVec.toNat_setWidth]
    congr 1; omega
  · have := (lt16 c).not.1 h
    rw [if_neg h, if_neg this]
    have f1 : (0xD800#32).toNat = 54 * 2 ^ 10 := rfl
    have f2 : (0xDC00#32).toNat = 55 * 2 ^ 10 := rfl
    simp only [nums, List.map_cons, List.map_nil, List.cons.injEq, and_true]
    constructor
    · rw [BitVec.toNat_setWidth, BitVec.toNat_or, mask10, shr, sub16 c h, f1, or_num _ _ _ (by omega)]
      omega
    · rw [BitVec.toNat_setWidth, BitVec.toNat_or, mask10, sub16 c h, f2, or_num _ _ _ (by omega)]
      omega

theorem enc16_length (c : Char32) : (enc16 c).length = if c < 0x10000#32 then 1 else 2 := by
  unfold enc16; split <;> rfl

end C3.Utf
