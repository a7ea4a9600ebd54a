import Verif.Stream.Codec
import Verif.Stream.LemmasBuf

set_option autoImplicit false

/-! Property C169: variable length integers. -/

namespace C3.Stream

variable {σ τ : Type}

theorem or_high {y : Nat} : (y ||| 0x80) % 256 = y % 128 + 128 := by
  have h : ∀ a < 256, a ||| 128 = a % 128 + 128 := by decide +kernel
  rw [show (256 : Nat) = 2 ^ 8 from rfl, Nat.or_mod_two_pow, show (0x80 : Nat) % 2 ^ 8 = 128 from rfl, h _ (Nat.mod_lt _ (by decide))]
  omega

theorem readVarLoop_spec {R : In σ Nat} {good : σ → Prop} {rest : σ → List Nat} (h : Reads R good rest) (q : List Nat) (left : Nat) :
    ∀ s y fuel acc shift, good s → y ≤ fuel → acc < 2 ^ shift → rest s = varBytes fuel y ++ q →
    ∃ t r, readVarLoop R left s acc shift = some (t, r) ∧
      (r = .fault ∨ (left ≠ 0 ∧ y < 2 ^ (7 * (left - 1) + 1) ∧ r = .value (acc + y * 2 ^ shift) ∧ good t ∧ rest t = q) ∨
        (¬ (left ≠ 0 ∧ y < 2 ^ (7 * (left - 1) + 1)) ∧ r = .overflow)) := by
  induction left with
  | zero => intro s y fuel acc shift _ _ _ _; exact ⟨_, _, rfl, .inr (.inr ⟨by simp, rfl⟩)⟩
  | succ left ih =>
    intro s y fuel acc shift g hf ha hr
    obtain ⟨t, r, e, hk⟩ := h.byte s g
    unfold readVarLoop
    rw [e]
    by_cases hy : y ≥ 0x80
    · cases fuel with
      | zero => omega
      | succ fuel =>
        simp only [varBytes] at hr
        rw [if_pos hy, or_high, List.cons_append] at hr
        cases r with
        | eof => rw [hr] at hk; simp at hk
        | fault => exact ⟨_, _, rfl, .inl rfl⟩
        | ok c =>
          rw [hr] at hk
          obtain ⟨hc, h2⟩ := List.cons.inj hk.2
          have h80 : ∀ a < 256, 128 ≤ a → a &&& 0x80 ≠ 0 := by decide +kernel
          have h7f : c &&& 0x7F = y % 128 := by
            rw [show (0x7F : Nat) = 2 ^ 7 - 1 from rfl, Nat.and_two_pow_sub_one_eq_mod]; omega
          simp only
          rw [if_neg (h80 c (by omega) (by omega)), h7f]
          have hacc : acc ||| ((y % 128) <<< shift) = acc + (y % 128) * 2 ^ shift := by
            rw [Nat.or_comm, ← Nat.shiftLeft_add_eq_or_of_lt ha, Nat.shiftLeft_eq, Nat.add_comm]
          have hdiv : y >>> 7 = y / 128 := Nat.shiftRight_eq_div_pow y 7
          rw [hdiv] at h2
          have hpow : 2 ^ (shift + 7) = 2 ^ shift * 128 := by rw [Nat.pow_add]
          have hlt : (y % 128) * 2 ^ shift ≤ 127 * 2 ^ shift := Nat.mul_le_mul_right _ (by omega)
          obtain ⟨u, r, e', hu⟩ := ih t (y / 128) fuel (acc ||| ((y % 128) <<< shift)) (shift + 7) hk.1 (by omega)
            (by rw [hacc, hpow]; omega) h2.symm
          refine ⟨u, r, e', ?_⟩
          have hb : (left ≠ 0 ∧ y / 128 < 2 ^ (7 * (left - 1) + 1)) ↔ (left + 1 ≠ 0 ∧ y < 2 ^ (7 * (left + 1 - 1) + 1)) := by
            cases left with
            | zero => simp; omega
            | succ l =>
              rw [Nat.add_sub_cancel, Nat.add_sub_cancel, show 7 * (l + 1) + 1 = (7 * l + 1) + 7 by omega, Nat.pow_add 2 (7 * l + 1) 7,
                Nat.div_lt_iff_lt_mul (by decide)]
              exact ⟨fun h => ⟨by omega, h.2⟩, fun h => ⟨by omega, h.2⟩⟩
          rcases hu with hu | ⟨h0, hlt', hv, gu, hq⟩ | ⟨hn, hv⟩
          · exact .inl hu
          · have := hb.1 ⟨h0, hlt'⟩
            refine .inr (.inl ⟨this.1, this.2, ?_, gu, hq⟩)
            rw [hv, hacc, hpow]
            congr 1
            have hsplit : y * 2 ^ shift = (y % 128) * 2 ^ shift + y / 128 * (2 ^ shift * 128) := by
              have := Nat.mod_add_div y 128
              calc y * 2 ^ shift = (y % 128 + 128 * (y / 128)) * 2 ^ shift := by rw [this]
                _ = _ := by rw [Nat.add_mul, Nat.mul_comm 128, Nat.mul_assoc, Nat.mul_comm 128]
            omega
          · exact .inr (.inr ⟨fun hc => hn (hb.2 hc), hv⟩)
    · have hb : varBytes fuel y = [y] := by
        cases fuel with
        | zero => simp [varBytes]; omega
        | succ f => simp only [varBytes]; rw [if_neg hy, Nat.mod_eq_of_lt (by omega)]
      rw [hb] at hr
      cases r with
      | eof => rw [hr] at hk; simp at hk
      | fault => exact ⟨_, _, rfl, .inl rfl⟩
      | ok c =>
        rw [hr] at hk
        obtain ⟨hc, h2⟩ := List.cons.inj hk.2
        subst hc
        have h80 : ∀ a < 128, a &&& 0x80 = 0 := by decide +kernel
        simp only
        rw [if_pos (h80 y (by omega))]
        have hacc : acc ||| (y <<< shift) = acc + y * 2 ^ shift := by
          rw [Nat.or_comm, ← Nat.shiftLeft_add_eq_or_of_lt ha, Nat.shiftLeft_eq, Nat.add_comm]
        by_cases hlast : left = 0 ∧ y > 1
        · rw [if_pos hlast]
          refine ⟨_, _, rfl, .inr (.inr ⟨?_, rfl⟩)⟩
          rw [hlast.1]
          simp
          omega
        · rw [if_neg hlast, hacc]
          refine ⟨_, _, rfl, .inr (.inl ⟨by omega, ?_, rfl, hk.1, h2.symm⟩)⟩
          cases left with
          | zero => simp; omega
          | succ l =>
            have : 2 ^ 7 ≤ 2 ^ (7 * (l + 1 + 1 - 1) + 1) := Nat.pow_le_pow_right (by decide) (by omega)
            omega

theorem varBytes_length (k : Nat) : ∀ fuel y, y < 2 ^ (7 * (k + 1)) → (varBytes fuel y).length ≤ k + 1 := by
  induction k with
  | zero =>
    intro fuel y hy
    cases fuel with
    | zero => simp [varBytes]
    | succ f => simp only [varBytes]; rw [if_neg (by omega)]; simp
  | succ k ih =>
    intro fuel y hy
    cases fuel with
    | zero => simp [varBytes]
    | succ f =>
      simp only [varBytes]
      split
      · rw [List.length_cons]
        have : y >>> 7 < 2 ^ (7 * (k + 1)) := by
          rw [Nat.shiftRight_eq_div_pow, Nat.div_lt_iff_lt_mul (by decide), ← Nat.pow_add]
          exact hy
        have := ih f _ this
        omega
      · simp

/-- `write_varint` does not run out of its buffer. -/
theorem C169_length {size : Nat} (hs : size = 2 ∨ size = 4) {x : Nat} (hx : x < 2 ^ (8 * size)) :
    (varBytes x x).length ≤ maxVars size := by
  rcases hs with rfl | rfl
  · exact varBytes_length 2 _ _ (by omega)
  · exact varBytes_length 4 _ _ (by omega)

example : (varBytes 0xFFFF 0xFFFF).length = 3 := by decide +kernel

/-- An unsigned integer of two or four bytes should be read back by `read_varint`. -/
def C169_full : Prop :=
  ∀ x < 2 ^ 32, ∃ t, readVar byteReader 4 ⟨varBytes x x, 0⟩ = some (t, .value x)

/-- What `read_varint` makes of an unsigned integer written by `write_varint`, whatever follows: the integer, if it is below 2^15 or
2^29, and else `OVERFLOW`. -/
theorem C169_unsigned {R : In σ Nat} {good : σ → Prop} {rest : σ → List Nat} (h : Reads R good rest) {size : Nat}
    (hs : size = 2 ∨ size = 4) {x : Nat} {s : σ} (g : good s) {q : List Nat} (hr : rest s = varBytes x x ++ q) :
    ∃ t r, readVar R size s = some (t, r) ∧
      (r = .fault ∨ (x < (if size = 2 then 2 ^ 15 else 2 ^ 29) ∧ r = .value x ∧ good t ∧ rest t = q) ∨
        ((if size = 2 then 2 ^ 15 else 2 ^ 29) ≤ x ∧ r = .overflow)) := by
  obtain ⟨t, r, e, hk⟩ := readVarLoop_spec h q (maxVars size) s x x 0 0 g (Nat.le_refl _) (by decide) hr
  refine ⟨t, r, e, ?_⟩
  rcases hs with rfl | rfl
  all_goals
    simp [maxVars] at hk ⊢
    exact hk

example : varBytes 300 300 = [0xAC, 2] := by decide +kernel
example : readVar byteReader 2 (⟨[0xAC, 2, 7], 0⟩ : ByteReader Nat) = some (⟨[0xAC, 2, 7], 2⟩, .value 300) := by decide +kernel

/-- Every `uint` from 2^29 on is written but can not be read, as every `ushort` from 2^15 on. -/
theorem C169_fails : ¬ C169_full ∧ ∀ x, 2 ^ 29 ≤ x → ∃ t, readVar byteReader 4 ⟨varBytes x x, 0⟩ = some (t, .overflow) := by
  have key : ∀ x, 2 ^ 29 ≤ x → ∃ t, readVar byteReader 4 ⟨varBytes x x, 0⟩ = some (t, .overflow) := by
    intro x hx
    obtain ⟨t, r, e, hk⟩ := C169_unsigned (byteReader_reads) (size := 4) (.inr rfl) (x := x)
      (s := (⟨varBytes x x, 0⟩ : ByteReader Nat)) trivial (q := []) (by simp)
    rcases hk with rfl | ⟨hlt, _⟩ | ⟨_, rfl⟩
    · exfalso
      have hno : ∀ left (s t : ByteReader Nat) acc shift, readVarLoop byteReader left s acc shift ≠ some (t, .fault) := by
        intro left
        induction left with
        | zero => intro s t acc shift; simp [readVarLoop]
        | succ left ih =>
          intro s t acc shift
          unfold readVarLoop
          simp only [byteReader]
          by_cases hi : s.index ≥ s.bytes.length
          · rw [if_pos hi]; simp
          · rw [if_neg hi, List.getElem?_eq_getElem (by omega)]
            simp only
            split
            · split <;> simp
            · exact ih _ _ _ _
      exact hno _ _ _ _ _ e
    · simp only [show ¬ ((4 : Nat) = 2) by decide, if_false] at hlt; omega
    · exact ⟨t, e⟩
  refine ⟨fun h => ?_, key⟩
  obtain ⟨t, e⟩ := h (2 ^ 29) (by decide)
  obtain ⟨t', e'⟩ := key (2 ^ 29) (Nat.le_refl _)
  rw [e] at e'
  simp at e'

/-- A signed integer should be read back. -/
def C169_signed_full : Prop :=
  ∀ x : Int, -2 ^ 31 ≤ x → x < 2 ^ 31 → ∃ t, readVarInt byteReader 4 ⟨varBytesInt x, 0⟩ = some (t, .value x)

/-- None is, but 0: `write_varint` does not do the zigzag that `read_varint` undoes. Nothing follows in the stream. -/
theorem C169_signed_fails : ¬ C169_signed_full ∧
    ∀ x : Int, x ≠ 0 → ∀ size, size = 2 ∨ size = 4 → ∀ t, readVarInt byteReader size ⟨varBytesInt x, 0⟩ ≠ some (t, .value x) := by
  have key : ∀ x : Int, x ≠ 0 → ∀ size, size = 2 ∨ size = 4 → ∀ t,
      readVarInt byteReader size ⟨varBytesInt x, 0⟩ ≠ some (t, .value x) := by
    intro x hx size hs t he
    unfold readVarInt at he
    have hz : ∀ n : Nat, unzigzag n = if n % 2 = 0 then ((n / 2 : Nat) : Int) else -((n / 2 : Nat) : Int) - 1 := by
      intro n
      unfold unzigzag
      rw [Nat.and_one_is_mod, Nat.shiftRight_eq_div_pow, Nat.pow_one]
    by_cases hneg : x < 0
    · have hb : varBytesInt x = [(x % 256).toNat] := if_pos hneg
      rw [hb] at he
      generalize hc : (x % 256).toNat = c at he
      have hc256 : c < 256 := by omega
      have hcx : (c : Int) = x % 256 := by omega
      have h1 : (byteReader (α := Nat)).readByte ⟨[c], 0⟩ = some (⟨[c], 1⟩, .ok c) := rfl
      have h2 : (byteReader (α := Nat)).readByte ⟨[c], 1⟩ = some (⟨[c], 1⟩, .eof) := rfl
      obtain ⟨m, hm⟩ : ∃ m, maxVars size = m + 2 := by rcases hs with rfl | rfl <;> exact ⟨_, rfl⟩
      have hv : readVar byteReader size (⟨[c], 0⟩ : ByteReader Nat) =
          if c &&& 0x80 = 0 then some (⟨[c], 1⟩, .value c) else some (⟨[c], 1⟩, .unexpectedEof) := by
        unfold readVar
        rw [hm]
        unfold readVarLoop
        rw [h1]
        simp only
        by_cases h80 : c &&& 0x80 = 0
        · rw [if_pos h80, if_pos h80, if_neg (by omega)]
          simp
        · rw [if_neg h80, if_neg h80]
          unfold readVarLoop
          rw [h2]
      rw [hv] at he
      by_cases h80 : c &&& 0x80 = 0
      · rw [if_pos h80] at he
        have h3 : unzigzag c = x := by simpa using (Prod.mk.inj (Option.some.inj he)).2
        rw [hz] at h3
        have hlt : ∀ a < 256, a &&& 0x80 = 0 → a < 128 := by decide +kernel
        have := hlt c hc256 h80
        split at h3 <;> omega
      · rw [if_neg h80] at he
        simp at he
    · have hb : varBytesInt x = varBytes x.toNat x.toNat := if_neg hneg
      rw [hb] at he
      obtain ⟨u, r, e, hk⟩ := C169_unsigned (byteReader_reads) hs (x := x.toNat)
        (s := (⟨varBytes x.toNat x.toNat, 0⟩ : ByteReader Nat)) trivial (q := []) (by simp)
      rw [e] at he
      rcases hk with rfl | ⟨_, rfl, _⟩ | ⟨_, rfl⟩
      · simp at he
      · have h3 : unzigzag x.toNat = x := by simpa using (Prod.mk.inj (Option.some.inj he)).2
        rw [hz] at h3
        split at h3 <;> omega
      · simp at he
  refine ⟨fun h => ?_, key⟩
  obtain ⟨t, e⟩ := h 1 (by decide) (by decide)
  exact key 1 (by decide) 4 (.inr rfl) t e

example : varBytesInt 5 = [5] ∧ readVarInt byteReader 4 (⟨[5], 0⟩ : ByteReader Nat) = some (⟨[5], 1⟩, .value (-3)) := by decide +kernel
example : varBytesInt (-1) = [255] ∧ readVarInt byteReader 4 (⟨[255], 0⟩ : ByteReader Nat) = some (⟨[255], 1⟩, .unexpectedEof) := by
  decide +kernel

end C3.Stream
