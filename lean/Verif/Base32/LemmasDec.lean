import Verif.Base32.LemmasEnc

/-! # Helper lemmas for base32: decoding -/

set_option autoImplicit false

namespace C3.Base32
open C3.Codec

theorem ofNat_ne_ff {i : Nat} (h : i < 32) : BitVec.ofNat 8 i ≠ INVALID := by
  intro e
  have := congrArg BitVec.toNat e
  rw [BitVec.toNat_ofNat, show BitVec.toNat INVALID = 255 by decide] at this
  omega

theorem three_le {α : Type} (l : List α) (h : 3 ≤ l.length) : ∃ a b c t, l = a :: b :: c :: t := by
  match l, h with
  | a :: b :: c :: t, _ => exact ⟨a, b, c, t, rfl⟩

theorem one_le {α : Type} (l : List α) (h : 1 ≤ l.length) : ∃ a t, l = a :: t := by
  match l, h with
  | a :: t, _ => exact ⟨a, t, rfl⟩

/-! ## Bytes from symbols -/

/-- The symbols as they are in the buffer. -/
def vals (ss : List Nat) : List Byte := ss.map (BitVec.ofNat 8)

theorem sym_toNat {s : Nat} (h : s < 32) : (BitVec.ofNat 8 s).toNat = s := by
  rw [BitVec.toNat_ofNat]; omega

theorem or_shl (x y : Byte) (i j : Nat) (hij : i + j = 8) (hx : x.toNat < 2 ^ i) :
    (x ||| y <<< i : Byte).toNat = x.toNat + y.toNat % 2 ^ j * 2 ^ i := by
  rw [BitVec.toNat_or, BitVec.toNat_shiftLeft, Nat.shiftLeft_eq]
  have : y.toNat * 2 ^ i % 2 ^ 8 = y.toNat % 2 ^ j * 2 ^ i := by
    rw [show (2 : Nat) ^ 8 = 2 ^ j * 2 ^ i by rw [← pow_add, ← hij, Nat.add_comm], Nat.mul_mod_mul_right]
  rw [this, Nat.lor_comm, or_add _ _ _ hx, Nat.add_comm]

theorem shr_toNat (x : Byte) (i : Nat) : (x >>> i).toNat = x.toNat / 2 ^ i := by
  rw [BitVec.toNat_ushiftRight, Nat.shiftRight_eq_div_pow]

theorem byte0 {s0 s1 : Nat} (h0 : s0 < 32) (h1 : s1 < 32) :
    (BitVec.ofNat 8 s1 >>> 2 ||| BitVec.ofNat 8 s0 <<< 3 : Byte).toNat = s0 * 8 + s1 / 4 := by
  rw [or_shl _ _ 3 5 rfl (by rw [shr_toNat, sym_toNat h1]; omega), shr_toNat, sym_toNat h0, sym_toNat h1]
  omega

theorem byte1 {s1 s2 s3 : Nat} (h1 : s1 < 32) (h2 : s2 < 32) (h3 : s3 < 32) :
    (BitVec.ofNat 8 s3 >>> 4 ||| BitVec.ofNat 8 s2 <<< 1 ||| BitVec.ofNat 8 s1 <<< 6 : Byte).toNat =
      s1 % 4 * 64 + s2 * 2 + s3 / 16 := by
  have e : (BitVec.ofNat 8 s3 >>> 4 ||| BitVec.ofNat 8 s2 <<< 1 : Byte).toNat = s2 * 2 + s3 / 16 := by
    rw [or_shl _ _ 1 7 rfl (by rw [shr_toNat, sym_toNat h3]; omega), shr_toNat, sym_toNat h2, sym_toNat h3]
    omega
  rw [or_shl _ _ 6 2 rfl (by rw [e]; omega), e, sym_toNat h1]
  omega

theorem byte2 {s3 s4 : Nat} (h3 : s3 < 32) (h4 : s4 < 32) :
    (BitVec.ofNat 8 s4 >>> 1 ||| BitVec.ofNat 8 s3 <<< 4 : Byte).toNat = s3 % 16 * 16 + s4 / 2 := by
  rw [or_shl _ _ 4 4 rfl (by rw [shr_toNat, sym_toNat h4]; omega), shr_toNat, sym_toNat h3, sym_toNat h4]
  omega

theorem byte3 {s4 s5 s6 : Nat} (h4 : s4 < 32) (h5 : s5 < 32) (h6 : s6 < 32) :
    (BitVec.ofNat 8 s6 >>> 3 ||| BitVec.ofNat 8 s5 <<< 2 ||| BitVec.ofNat 8 s4 <<< 7 : Byte).toNat =
      s4 % 2 * 128 + s5 * 4 + s6 / 8 := by
  have e : (BitVec.ofNat 8 s6 >>> 3 ||| BitVec.ofNat 8 s5 <<< 2 : Byte).toNat = s5 * 4 + s6 / 8 := by
    rw [or_shl _ _ 2 6 rfl (by rw [shr_toNat, sym_toNat h6]; omega), shr_toNat, sym_toNat h5, sym_toNat h6]
    omega
  rw [or_shl _ _ 7 1 rfl (by rw [e]; omega), e, sym_toNat h4]
  omega

theorem byte4 {s6 s7 : Nat} (h6 : s6 < 32) (h7 : s7 < 32) :
    (BitVec.ofNat 8 s7 ||| BitVec.ofNat 8 s6 <<< 5 : Byte).toNat = s6 % 8 * 32 + s7 := by
  rw [or_shl _ _ 5 3 rfl (by rw [sym_toNat h7]; omega), sym_toNat h6, sym_toNat h7]
  omega

/-- The bytes of a group. -/
def gbytes : List Nat → List Byte
  | [s0, s1] => [BitVec.ofNat 8 (s0 * 8 + s1 / 4)]
  | [s0, s1, s2, s3] =>
    [BitVec.ofNat 8 (s0 * 8 + s1 / 4), BitVec.ofNat 8 (s1 % 4 * 64 + s2 * 2 + s3 / 16)]
  | [s0, s1, s2, s3, s4] =>
    [BitVec.ofNat 8 (s0 * 8 + s1 / 4), BitVec.ofNat 8 (s1 % 4 * 64 + s2 * 2 + s3 / 16),
      BitVec.ofNat 8 (s3 % 16 * 16 + s4 / 2)]
  | [s0, s1, s2, s3, s4, s5, s6] =>
    [BitVec.ofNat 8 (s0 * 8 + s1 / 4), BitVec.ofNat 8 (s1 % 4 * 64 + s2 * 2 + s3 / 16),
      BitVec.ofNat 8 (s3 % 16 * 16 + s4 / 2), BitVec.ofNat 8 (s4 % 2 * 128 + s5 * 4 + s6 / 8)]
  | [s0, s1, s2, s3, s4, s5, s6, s7] =>
    [BitVec.ofNat 8 (s0 * 8 + s1 / 4), BitVec.ofNat 8 (s1 % 4 * 64 + s2 * 2 + s3 / 16),
      BitVec.ofNat 8 (s3 % 16 * 16 + s4 / 2), BitVec.ofNat 8 (s4 % 2 * 128 + s5 * 4 + s6 / 8),
      BitVec.ofNat 8 (s6 % 8 * 32 + s7)]
  | _ => []

theorem eq_ofNat {x : Byte} {n : Nat} (h : x.toNat = n) : x = BitVec.ofNat 8 n := by
  rw [← h, BitVec.ofNat_toNat, BitVec.setWidth_eq]

theorem toNat_small {n : Nat} (h : n < 256) : (BitVec.ofNat 8 n).toNat = n := by
  rw [BitVec.toNat_ofNat]; omega

/-- The lengths that contain a whole number of groups or end in an allowed one. -/
def goodLen (n : Nat) : Prop := n = 2 ∨ n = 4 ∨ n = 5 ∨ n = 7 ∨ n = 8

theorem gbytes_length (ss : List Nat) (hl : goodLen ss.length) : (gbytes ss).length = 5 * ss.length / 8 := by
  unfold goodLen at hl
  match ss, hl with
  | [s0, s1], _ => simp [gbytes]
  | [s0, s1, s2, s3], _ => simp [gbytes]
  | [s0, s1, s2, s3, s4], _ => simp [gbytes]
  | [s0, s1, s2, s3, s4, s5, s6], _ => simp [gbytes]
  | [s0, s1, s2, s3, s4, s5, s6, s7], _ => simp [gbytes]
  | [], h => simp at h
  | [_], h => simp at h
  | [_, _, _], h => simp at h
  | [_, _, _, _, _, _], h => simp at h
  | _ :: _ :: _ :: _ :: _ :: _ :: _ :: _ :: _ :: _, h => simp only [List.length_cons] at h; omega

theorem gbytes_decodes (ss : List Nat) (hs : ∀ s ∈ ss, s < 32) (hl : goodLen ss.length) :
    Decodes 5 ss (gbytes ss) := by
  refine ⟨gbytes_length ss hl, ?_⟩
  rw [gbytes_length ss hl]
  unfold goodLen at hl
  match ss, hs, hl with
  | [s0, s1], hs, _ =>
    have h0 := hs s0 (by simp); have h1 := hs s1 (by simp)
    simp only [gbytes, bytesVal, symsVal, C3.Bigint.positional, List.map, List.foldl, List.length]
    rw [toNat_small (by omega)]
    omega
  | [s0, s1, s2, s3], hs, _ =>
    have h0 := hs s0 (by simp); have h1 := hs s1 (by simp); have h2 := hs s2 (by simp)
    have h3 := hs s3 (by simp)
    simp only [gbytes, bytesVal, symsVal, C3.Bigint.positional, List.map, List.foldl, List.length]
    rw [toNat_small (by omega), toNat_small (by omega)]
    omega
  | [s0, s1, s2, s3, s4], hs, _ =>
    have h0 := hs s0 (by simp); have h1 := hs s1 (by simp); have h2 := hs s2 (by simp)
    have h3 := hs s3 (by simp); have h4 := hs s4 (by simp)
    simp only [gbytes, bytesVal, symsVal, C3.Bigint.positional, List.map, List.foldl, List.length]
    rw [toNat_small (by omega), toNat_small (by omega), toNat_small (by omega)]
    omega
  | [s0, s1, s2, s3, s4, s5, s6], hs, _ =>
    have h0 := hs s0 (by simp); have h1 := hs s1 (by simp); have h2 := hs s2 (by simp)
    have h3 := hs s3 (by simp); have h4 := hs s4 (by simp); have h5 := hs s5 (by simp)
    have h6 := hs s6 (by simp)
    simp only [gbytes, bytesVal, symsVal, C3.Bigint.positional, List.map, List.foldl, List.length]
    rw [toNat_small (by omega), toNat_small (by omega), toNat_small (by omega), toNat_small (by omega)]
    omega
  | [s0, s1, s2, s3, s4, s5, s6, s7], hs, _ =>
    have h0 := hs s0 (by simp); have h1 := hs s1 (by simp); have h2 := hs s2 (by simp)
    have h3 := hs s3 (by simp); have h4 := hs s4 (by simp); have h5 := hs s5 (by simp)
    have h6 := hs s6 (by simp); have h7 := hs s7 (by simp)
    simp only [gbytes, bytesVal, symsVal, C3.Bigint.positional, List.map, List.foldl, List.length]
    rw [toNat_small (by omega), toNat_small (by omega), toNat_small (by omega), toNat_small (by omega),
      toNat_small (by omega)]
    omega
  | [], _, h => simp at h
  | [_], _, h => simp at h
  | [_, _, _], _, h => simp at h
  | [_, _, _, _, _, _], _, h => simp at h
  | _ :: _ :: _ :: _ :: _ :: _ :: _ :: _ :: _ :: _, _, h => simp only [List.length_cons] at h; omega

theorem decGroup_ok (ss : List Nat) (hs : ∀ s ∈ ss, s < 32) (hl : goodLen ss.length) (dst : List Byte)
    (hd : 5 * ss.length / 8 ≤ dst.length) :
    decGroup (vals ss) dst = some (.ok (gbytes ss ++ dst.drop (gbytes ss).length, (gbytes ss).length)) := by
  unfold goodLen at hl
  match ss, hs, hl with
  | [s0, s1], hs, _ =>
    have h0 := hs s0 (by simp); have h1 := hs s1 (by simp)
    obtain ⟨d0, t, rfl⟩ := one_le dst (by simpa using hd)
    simp [vals, decGroup, decCase2, store, gbytes, eq_ofNat (byte0 h0 h1)]
  | [s0, s1, s2, s3], hs, _ =>
    have h0 := hs s0 (by simp); have h1 := hs s1 (by simp); have h2 := hs s2 (by simp)
    have h3 := hs s3 (by simp)
    obtain ⟨d0, d1, t, rfl⟩ := two_le dst (by simpa using hd)
    simp [vals, decGroup, decCase4, decCase2, store, gbytes, eq_ofNat (byte0 h0 h1),
      eq_ofNat (byte1 h1 h2 h3)]
  | [s0, s1, s2, s3, s4], hs, _ =>
    have h0 := hs s0 (by simp); have h1 := hs s1 (by simp); have h2 := hs s2 (by simp)
    have h3 := hs s3 (by simp); have h4 := hs s4 (by simp)
    obtain ⟨d0, d1, d2, t, rfl⟩ := three_le dst (by simpa using hd)
    simp [vals, decGroup, decCase5, decCase4, decCase2, store, gbytes, eq_ofNat (byte0 h0 h1),
      eq_ofNat (byte1 h1 h2 h3), eq_ofNat (byte2 h3 h4)]
  | [s0, s1, s2, s3, s4, s5, s6], hs, _ =>
    have h0 := hs s0 (by simp); have h1 := hs s1 (by simp); have h2 := hs s2 (by simp)
    have h3 := hs s3 (by simp); have h4 := hs s4 (by simp); have h5 := hs s5 (by simp)
    have h6 := hs s6 (by simp)
    obtain ⟨d0, d1, d2, d3, t, rfl⟩ := four_le dst (by simpa using hd)
    simp [vals, decGroup, decCase7, decCase5, decCase4, decCase2, store, gbytes, eq_ofNat (byte0 h0 h1),
      eq_ofNat (byte1 h1 h2 h3), eq_ofNat (byte2 h3 h4), eq_ofNat (byte3 h4 h5 h6)]
  | [s0, s1, s2, s3, s4, s5, s6, s7], hs, _ =>
    have h0 := hs s0 (by simp); have h1 := hs s1 (by simp); have h2 := hs s2 (by simp)
    have h3 := hs s3 (by simp); have h4 := hs s4 (by simp); have h5 := hs s5 (by simp)
    have h6 := hs s6 (by simp); have h7 := hs s7 (by simp)
    obtain ⟨d0, d1, d2, d3, d4, t, rfl⟩ := five_le dst (by simpa using hd)
    simp [vals, decGroup, decCase8, decCase7, decCase5, decCase4, decCase2, store, gbytes,
      eq_ofNat (byte0 h0 h1), eq_ofNat (byte1 h1 h2 h3), eq_ofNat (byte2 h3 h4), eq_ofNat (byte3 h4 h5 h6),
      eq_ofNat (byte4 h6 h7)]
  | [], _, h => simp at h
  | [_], _, h => simp at h
  | [_, _, _], _, h => simp at h
  | [_, _, _, _, _, _], _, h => simp at h
  | _ :: _ :: _ :: _ :: _ :: _ :: _ :: _ :: _ :: _, _, h => simp only [List.length_cons] at h; omega

theorem decGroup_short (ss : List Nat) (hl : goodLen ss.length) (dst : List Byte)
    (hd : dst.length < 5 * ss.length / 8) : decGroup (vals ss) dst = none := by
  unfold goodLen at hl
  match ss, hl with
  | [s0, s1], _ => simp at hd; simp [vals, decGroup, decCase2, store, hd]
  | [s0, s1, s2, s3], _ =>
    simp at hd
    have : ¬ 1 < dst.length := by omega
    simp [vals, decGroup, decCase4, store, this]
  | [s0, s1, s2, s3, s4], _ =>
    simp at hd
    have : ¬ 2 < dst.length := by omega
    simp [vals, decGroup, decCase5, store, this]
  | [s0, s1, s2, s3, s4, s5, s6], _ =>
    simp at hd
    have : ¬ 3 < dst.length := by omega
    simp [vals, decGroup, decCase7, store, this]
  | [s0, s1, s2, s3, s4, s5, s6, s7], _ =>
    simp at hd
    have : ¬ 4 < dst.length := by omega
    simp [vals, decGroup, decCase8, store, this]
  | [], h => simp at h
  | [_], h => simp at h
  | [_, _, _], h => simp at h
  | [_, _, _, _, _, _], h => simp at h
  | _ :: _ :: _ :: _ :: _ :: _ :: _ :: _ :: _ :: _, h => simp only [List.length_cons] at h; omega

theorem decGroup_bad (ss : List Nat) (hl : ¬ goodLen ss.length) (dst : List Byte) :
    decGroup (vals ss) dst = some (.error .INVALID_CHARACTER) := by
  unfold goodLen at hl
  match ss, hl with
  | [s0, s1], h => simp at h
  | [s0, s1, s2, s3], h => simp at h
  | [s0, s1, s2, s3, s4], h => simp at h
  | [s0, s1, s2, s3, s4, s5, s6], h => simp at h
  | [s0, s1, s2, s3, s4, s5, s6, s7], h => simp at h
  | [], _ => rfl
  | [_], _ => rfl
  | [_, _, _], _ => rfl
  | [_, _, _, _, _, _], _ => rfl
  | _ :: _ :: _ :: _ :: _ :: _ :: _ :: _ :: _ :: _, _ => rfl

/-! ## Loading a group -/

theorem load_syms {al : Alphabet} (hal : al.Valid) {p : Byte} (hp : al.PadOk p) (rest : List Byte) :
    ∀ (ss : List Nat) (k : Nat) (buf : List Byte), (∀ s ∈ ss, s < 32) → ss.length ≤ k →
      load al p k (text al ss ++ rest) buf = load al p (k - ss.length) rest (buf ++ vals ss)
  | [], k, buf, _, _ => by simp [text, vals]
  | s :: ss, 0, buf, _, h => by simp at h
  | s :: ss, k + 1, buf, hs, h => by
    have h0 := hs s (by simp)
    have ih := load_syms hal hp rest ss k (buf ++ [BitVec.ofNat 8 s]) (fun x hx => hs x (by simp [hx]))
      (by simpa using h)
    rw [show text al (s :: ss) ++ rest = al.encoding.getD s 0 :: (text al ss ++ rest) from rfl, load,
      if_neg (hp s h0), hal.fwd s h0, Option.bind_eq_bind, Option.bind_some, if_neg (ofNat_ne_ff h0), ih]
    simp [vals]

/-- What a successful load means. -/
theorem load_inv {al : Alphabet} (hal : al.Valid) {p : Byte} :
    ∀ (k : Nat) (src buf buf' src' : List Byte), load al p k src buf = some (.ok (buf', src')) →
      ∃ ss, (∀ s ∈ ss, s < 32) ∧ buf' = buf ++ vals ss ∧ src = text al ss ++ src' ∧ ss.length ≤ k ∧
        (ss.length = k ∨ src'.head? = some p ∨ (src' = [] ∧ p = 0))
  | 0, src, buf, buf', src', h => by
    simp only [load, Option.some.injEq, Except.ok.injEq, Prod.mk.injEq] at h
    exact ⟨[], by simp, by simp [vals, h.1], by simp [text, h.2], by simp, Or.inl rfl⟩
  | k + 1, [], buf, buf', src', h => by
    rw [load] at h
    by_cases hp : p > 0
    · rw [if_pos hp] at h; simp at h
    · rw [if_neg hp] at h
      simp only [Option.some.injEq, Except.ok.injEq, Prod.mk.injEq] at h
      refine ⟨[], by simp, by simp [vals, h.1], by simp [text, h.2], by simp, Or.inr (Or.inr ⟨h.2.symm, ?_⟩)⟩
      by_contra hne
      exact hp ((pos_iff p).2 hne)
  | k + 1, c :: src, buf, buf', src', h => by
    rw [load] at h
    by_cases hc : c = p
    · rw [if_pos hc] at h
      simp only [Option.some.injEq, Except.ok.injEq, Prod.mk.injEq] at h
      exact ⟨[], by simp, by simp [vals, h.1], by simp [text, h.2], by simp,
        Or.inr (Or.inl (by rw [← h.2, hc]; rfl))⟩
    · rw [if_neg hc] at h
      rcases hal.bwd c with hr | ⟨i, hi, hc2⟩
      · rw [hr, Option.bind_eq_bind, Option.bind_some, if_pos (show (255 : Byte) = INVALID from rfl)] at h; simp at h
      · subst hc2
        rw [hal.fwd i hi, Option.bind_eq_bind, Option.bind_some, if_neg (ofNat_ne_ff hi)] at h
        obtain ⟨ss, a1, a2, a3, a4, a5⟩ := load_inv hal k src _ buf' src' h
        refine ⟨i :: ss, ?_, ?_, ?_, ?_, ?_⟩
        · intro s hs
          rcases List.mem_cons.1 hs with rfl | hs
          · exact hi
          · exact a1 s hs
        · rw [a2]; simp [vals]
        · rw [a3]; rfl
        · simpa using a4
        · rcases a5 with h | h | h
          · exact Or.inl (by simp [h])
          · exact Or.inr (Or.inl h)
          · exact Or.inr (Or.inr h)

theorem load_total {al : Alphabet} (hal : al.Valid) {p : Byte} :
    ∀ (k : Nat) (src buf : List Byte), ∃ r, load al p k src buf = some r
  | 0, src, buf => ⟨_, rfl⟩
  | k + 1, [], buf => by
    rw [load]; split <;> exact ⟨_, rfl⟩
  | k + 1, c :: src, buf => by
    rw [load]
    split
    · exact ⟨_, rfl⟩
    · have : al.reverse[c.toNat]? = some (al.reverse[c.toNat]'(by rw [hal.rlen]; exact c.isLt)) :=
        List.getElem?_eq_getElem _
      rw [this, Option.bind_eq_bind, Option.bind_some]
      split
      · exact ⟨_, rfl⟩
      · exact load_total hal k src _

/-! ## The loop -/

/-- Prefixing the cells already written. -/
def pre (bs : List Byte) (r : Option (Except Fault (List Byte × Nat))) :
    Option (Except Fault (List Byte × Nat)) :=
  r.map fun r => r.map fun r => (bs ++ r.1, bs.length + r.2)

theorem pre_nil (r) : pre [] r = r := by
  rcases r with _ | _ | ⟨_, _⟩ <;> simp [pre, Except.map]

theorem pre_pre (a b : List Byte) (r) : pre a (pre b r) = pre (a ++ b) r := by
  rcases r with _ | _ | ⟨_, _⟩ <;> simp [pre, Except.map, Nat.add_assoc]

theorem loop_dst_nil (al : Alphabet) (p : Byte) (fuel : Nat) (src : List Byte) :
    decLoop al p (fuel + 1) src [] = some (.ok ([], 0)) := by
  rw [decLoop, if_neg (by simp)]

theorem loop_src_nil (al : Alphabet) (p : Byte) (fuel : Nat) (dst : List Byte) :
    decLoop al p (fuel + 1) [] dst = some (.ok (dst, 0)) := by
  rw [decLoop, if_neg (by simp)]

/-- At a padding character there is nothing more to decode, but the loop does not stop. -/
theorem loop_pad (al : Alphabet) (p : Byte) (fuel : Nat) (src dst : List Byte) (hs : src.head? = some p)
    (hd : dst ≠ []) : decLoop al p (fuel + 1) src dst = some (.error .INVALID_CHARACTER) := by
  obtain ⟨t, rfl⟩ : ∃ t, src = p :: t := by
    match src, hs with
    | x :: t, hs => exact ⟨t, by simpa using hs⟩
  have : dst.length > 0 := List.length_pos_iff.2 hd
  rw [decLoop, if_pos ⟨by simp, this⟩, load, if_pos rfl]
  rfl

/-- One iteration, once the symbols are loaded. -/
theorem loop_step {al : Alphabet} (p : Byte) (fuel : Nat) (src src' : List Byte) (ss : List Nat)
    (dst : List Byte) (hs : ∀ s ∈ ss, s < 32) (hl : goodLen ss.length)
    (hload : load al p 8 src [] = some (.ok (vals ss, src'))) (hsrc : src ≠ []) (hd0 : dst ≠ [])
    (hd : 5 * ss.length / 8 ≤ dst.length) :
    decLoop al p (fuel + 1) src dst =
      if dst.length < 5 then some (.ok (gbytes ss ++ dst.drop (gbytes ss).length, (gbytes ss).length))
      else
        match decLoop al p fuel src' (dst.drop 5) with
        | none => none
        | some (.error f) => some (.error f)
        | some (.ok (rest, m)) =>
          some (.ok ((gbytes ss ++ dst.drop (gbytes ss).length).take 5 ++ rest, (gbytes ss).length + m)) := by
  have h1 : src.length > 0 := List.length_pos_iff.2 hsrc
  have h2 : dst.length > 0 := List.length_pos_iff.2 hd0
  have hg := gbytes_length ss hl
  have hg5 : (gbytes ss).length ≤ 5 := by unfold goodLen at hl; omega
  rw [decLoop, if_pos ⟨h1, h2⟩, hload]
  simp only [Option.bind_eq_bind, Option.bind_some]
  rw [decGroup_ok ss hs hl dst hd]
  simp only [Option.bind_some]
  have e1 : (gbytes ss ++ List.drop (gbytes ss).length dst).length = dst.length := by
    rw [List.length_append, List.length_drop]; omega
  have e2 : List.drop 5 (gbytes ss ++ List.drop (gbytes ss).length dst) = dst.drop 5 := by
    rw [List.drop_append, List.drop_eq_nil_of_le hg5, List.nil_append, List.drop_drop]
    congr 1; omega
  rw [e1, e2]
  by_cases h5 : dst.length < 5
  · rw [if_pos h5, if_pos h5]
  · rw [if_neg h5, if_neg h5]
    rcases decLoop al p fuel src' (List.drop 5 dst) with _ | _ | ⟨_, _⟩ <;> rfl

theorem load8 {al : Alphabet} (hal : al.Valid) {p : Byte} (hp : al.PadOk p) (ss : List Nat) (rest : List Byte)
    (hs : ∀ s ∈ ss, s < 32) (h : ss.length = 8) :
    load al p 8 (text al ss ++ rest) [] = some (.ok (vals ss, rest)) := by
  rw [load_syms hal hp rest ss 8 [] hs (by omega), h]; rfl

theorem loadPad {al : Alphabet} (hal : al.Valid) {p : Byte} (hp : al.PadOk p) (ss : List Nat)
    (rest : List Byte) (hs : ∀ s ∈ ss, s < 32) (h : ss.length < 8) (hr : rest.head? = some p) :
    load al p 8 (text al ss ++ rest) [] = some (.ok (vals ss, rest)) := by
  rw [load_syms hal hp rest ss 8 [] hs (by omega)]
  match rest, hr with
  | x :: t, hr =>
    have : x = p := by simpa using hr
    obtain ⟨k, hk⟩ : ∃ k, 8 - ss.length = k + 1 := ⟨7 - ss.length, by omega⟩
    rw [hk, load, if_pos this]; rfl

theorem loadEnd {al : Alphabet} (hal : al.Valid) (hp : al.PadOk 0) (ss : List Nat)
    (hs : ∀ s ∈ ss, s < 32) (h : ss.length < 8) :
    load al 0 8 (text al ss) [] = some (.ok (vals ss, [])) := by
  have := load_syms hal hp [] ss 8 [] hs (by omega)
  rw [List.append_nil] at this
  rw [this]
  obtain ⟨k, hk⟩ : ∃ k, 8 - ss.length = k + 1 := ⟨7 - ss.length, by omega⟩
  rw [hk, load, if_neg (by decide)]; rfl

/-- Whole groups. -/
theorem loop_full {al : Alphabet} (hal : al.Valid) {p : Byte} (hp : al.PadOk p) (rest : List Byte) :
    ∀ (n : Nat) (ss : List Nat) (dst : List Byte) (fuel : Nat), (∀ s ∈ ss, s < 32) → ss.length = 8 * n →
      5 * n ≤ dst.length → dst.length < fuel →
      ∃ bs fuel', Decodes 5 ss bs ∧ bs.length = 5 * n ∧ (dst.drop bs.length).length < fuel' ∧
        decLoop al p fuel (text al ss ++ rest) dst = pre bs (decLoop al p fuel' rest (dst.drop bs.length))
  | 0, ss, dst, fuel, hs, hl, hd, hf => by
    have : ss = [] := List.length_eq_zero_iff.1 (by simpa using hl)
    subst this
    exact ⟨[], fuel, by simp [Decodes, bytesVal, symsVal], rfl, by simpa using hf, by
      rw [pre_nil]; rfl⟩
  | n + 1, ss, dst, fuel, hs, hl, hd, hf => by
    obtain ⟨s1, s2, rfl, h8⟩ := split_list 8 ss (by omega)
    rw [List.length_append] at hl
    obtain ⟨f, rfl⟩ : ∃ f, fuel = f + 1 := ⟨fuel - 1, by omega⟩
    have hs1 : ∀ s ∈ s1, s < 32 := fun s h => hs s (List.mem_append_left _ h)
    have hg : goodLen s1.length := by unfold goodLen; omega
    have hgl : (gbytes s1).length = 5 := by rw [gbytes_length s1 hg, h8]
    obtain ⟨bs, fuel', a1, a2, a3, a4⟩ := loop_full hal hp rest n s2 (dst.drop 5) f
      (fun s h => hs s (List.mem_append_right _ h)) (by omega) (by rw [List.length_drop]; omega)
      (by rw [List.length_drop]; omega)
    refine ⟨gbytes s1 ++ bs, fuel', (gbytes_decodes s1 hs1 hg).append (by omega) a1, ?_, ?_, ?_⟩
    · rw [List.length_append]; omega
    · rw [List.length_append, hgl, ← List.drop_drop]; exact a3
    · rw [text_append, List.append_assoc,
        loop_step p f _ _ s1 dst hs1 hg (load8 hal hp s1 _ hs1 h8) (by
          intro h
          have := congrArg List.length h
          rw [List.length_append, text_length, h8] at this
          simp at this) (by
          intro h; rw [h] at hd; simp at hd) (by omega), if_neg (by omega), a4, ← pre_pre,
          List.length_append, hgl, ← List.drop_drop]
      rw [List.take_left' hgl]
      rcases decLoop al p fuel' rest (List.drop bs.length (List.drop 5 dst)) with _ | _ | ⟨_, _⟩ <;>
        simp [pre, Except.map, hgl]

end C3.Base32
