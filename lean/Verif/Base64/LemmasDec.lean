import Verif.Base64.Lemmas

/-! # Helper lemmas for base64: decoding -/

set_option autoImplicit false

namespace C3.Base64
open C3.Codec

theorem ofNat_ne_ff {i : Nat} (h : i < 64) : BitVec.ofNat 8 i ≠ 0xFF := by
  intro e
  have := congrArg BitVec.toNat e
  rw [BitVec.toNat_ofNat, show BitVec.toNat (0xFF : BitVec 8) = 255 by decide] at this
  omega

theorem rev_enc {al : Alphabet} (h : al.Valid) {i : Nat} (hi : i < 64) :
    al.reverse[(al.encoding.getD i 0).toNat]? = some (BitVec.ofNat 8 i) := h.fwd i hi

/-- The three bytes of a group. -/
def bytes4 (s0 s1 s2 s3 : Nat) : List Byte :=
  let g : BitVec 32 := (BitVec.ofNat 8 s0).setWidth 32 <<< 18 ||| (BitVec.ofNat 8 s1).setWidth 32 <<< 12 |||
    (BitVec.ofNat 8 s2).setWidth 32 <<< 6 ||| (BitVec.ofNat 8 s3).setWidth 32
  [(g >>> 16).setWidth 8, (g >>> 8).setWidth 8, g.setWidth 8]

def bytes3 (s0 s1 s2 : Nat) : List Byte :=
  let g : BitVec 32 := (BitVec.ofNat 8 s0).setWidth 32 <<< 18 ||| (BitVec.ofNat 8 s1).setWidth 32 <<< 12 |||
    (BitVec.ofNat 8 s2).setWidth 32 <<< 6
  [(g >>> 16).setWidth 8, (g >>> 8).setWidth 8]

def bytes2 (s0 s1 : Nat) : List Byte :=
  let g : BitVec 32 := (BitVec.ofNat 8 s0).setWidth 32 <<< 18 ||| (BitVec.ofNat 8 s1).setWidth 32 <<< 12
  [(g >>> 16).setWidth 8]

theorem bytes4_decodes (s0 s1 s2 s3 : Nat) (h0 : s0 < 64) (h1 : s1 < 64) (h2 : s2 < 64) (h3 : s3 < 64) :
    Decodes 6 [s0, s1, s2, s3] (bytes4 s0 s1 s2 s3) := by
  refine ⟨by simp [bytes4], ?_⟩
  simp only [bytes4, bytesVal, symsVal, C3.Bigint.positional, List.map, List.foldl, List.length, byte_of]
  simp only [byte_of0, dec4 _ _ _ _ h0 h1 h2 h3]
  omega

theorem bytes3_decodes (s0 s1 s2 : Nat) (h0 : s0 < 64) (h1 : s1 < 64) (h2 : s2 < 64) :
    Decodes 6 [s0, s1, s2] (bytes3 s0 s1 s2) := by
  refine ⟨by simp [bytes3], ?_⟩
  simp only [bytes3, bytesVal, symsVal, C3.Bigint.positional, List.map, List.foldl, List.length, byte_of,
    dec3 _ _ _ h0 h1 h2]
  omega

theorem bytes2_decodes (s0 s1 : Nat) (h0 : s0 < 64) (h1 : s1 < 64) :
    Decodes 6 [s0, s1] (bytes2 s0 s1) := by
  refine ⟨by simp [bytes2], ?_⟩
  simp only [bytes2, bytesVal, symsVal, C3.Bigint.positional, List.map, List.foldl, List.length, byte_of,
    dec2 _ _ h0 h1]
  omega

/-- Prefixing the cells already written. -/
def pre (bs : List Byte) (r : Option (Except Fault (List Byte × Nat))) :
    Option (Except Fault (List Byte × Nat)) :=
  r.map fun r => r.map fun r => (bs ++ r.1, r.2)

theorem pre_nil (r) : pre [] r = r := by
  rcases r with _ | _ | ⟨_, _⟩ <;> rfl

theorem pre_pre (a b : List Byte) (r) : pre a (pre b r) = pre (a ++ b) r := by
  rcases r with _ | _ | ⟨_, _⟩ <;> simp [pre, Except.map]

theorem loop_ok {al : Alphabet} (hal : al.Valid) (k : Tail) : ∀ (ss : List Nat) (dst : List Byte),
    (∀ s ∈ ss, s < 64) → ss.length % 4 = 0 → 3 * ss.length / 4 ≤ dst.length →
    ∃ bs, Decodes 6 ss bs ∧ 6 * ss.length = 8 * bs.length ∧
      decLoop al k (text al ss) dst = pre bs (k (dst.drop bs.length))
  | [], dst, _, _, _ => ⟨[], by simp [Decodes, bytesVal, symsVal], rfl, by
      rw [pre_nil]; rfl⟩
  | [_], _, _, h, _ => by simp at h
  | [_, _], _, _, h, _ => by simp at h
  | [_, _, _], _, _, h, _ => by simp at h
  | s0 :: s1 :: s2 :: s3 :: ss, dst, hs, hm, hd => by
    have h0 := hs s0 (by simp)
    have h1 := hs s1 (by simp)
    have h2 := hs s2 (by simp)
    have h3 := hs s3 (by simp)
    simp only [List.length_cons] at hm hd
    obtain ⟨d0, d1, d2, t, rfl⟩ := three_le dst (by omega)
    simp only [List.length_cons] at hd
    obtain ⟨bs, e1, e2, e3⟩ := loop_ok hal k ss t
      (fun s h => hs s (by simp [h])) (by omega) (by omega)
    refine ⟨bytes4 s0 s1 s2 s3 ++ bs,
      Decodes.append (s1 := [s0, s1, s2, s3]) (bytes4_decodes s0 s1 s2 s3 h0 h1 h2 h3) rfl e1, ?_, ?_⟩
    · simp only [List.length_cons, List.length_append, bytes4, List.length_nil]; omega
    · simp only [text, List.map_cons]
      rw [decLoop]
      simp only [rev_enc hal h0, rev_enc hal h1, rev_enc hal h2, rev_enc hal h3, Option.bind_eq_bind,
        Option.bind_some]
      rw [if_neg (by simp only [ofNat_ne_ff h0, ofNat_ne_ff h1, ofNat_ne_ff h2, ofNat_ne_ff h3, or_self,
        not_false_eq_true])]
      simp only [store, List.length_cons, List.set_cons_zero, List.set_cons_succ, Nat.zero_lt_succ,
        ↓reduceIte, Nat.succ_lt_succ_iff, Option.bind_some]
      rw [show List.drop 3 (_ :: _ :: _ :: t) = t from rfl]
      have e3' : decLoop al k (List.map (fun s => al.encoding.getD s 0) ss) t =
          pre bs (k (List.drop bs.length t)) := e3
      have e4 : List.drop (bytes4 s0 s1 s2 s3 ++ bs).length (d0 :: d1 :: d2 :: t) =
          List.drop bs.length t := by
        rw [List.length_append, show (bytes4 s0 s1 s2 s3).length = 3 from rfl, Nat.add_comm]
        rfl
      rw [e3', e4, ← pre_pre]
      rcases pre bs (k (List.drop bs.length t)) with _ | _ | ⟨_, _⟩ <;> rfl

theorem loop_bad {al : Alphabet} (hal : al.Valid) (k : Tail) : ∀ (src dst : List Byte),
    src.length % 4 = 0 → 3 * src.length / 4 ≤ dst.length →
    (∃ ss, (∀ s ∈ ss, s < 64) ∧ src = text al ss) ∨
      decLoop al k src dst = some (.error .INVALID_CHARACTER)
  | [], dst, _, _ => Or.inl ⟨[], by simp, rfl⟩
  | [_], _, h, _ => by simp at h
  | [_, _], _, h, _ => by simp at h
  | [_, _, _], _, h, _ => by simp at h
  | x0 :: x1 :: x2 :: x3 :: src, dst, hm, hd => by
    simp only [List.length_cons] at hm hd
    obtain ⟨d0, d1, d2, t, rfl⟩ := three_le dst (by omega)
    simp only [List.length_cons] at hd
    have hrev : ∀ x : Byte, ∃ c, al.reverse[x.toNat]? = some c := fun x =>
      ⟨_, List.getElem?_eq_getElem (by rw [hal.rlen]; exact x.isLt)⟩
    obtain ⟨c0, k0⟩ := hrev x0
    obtain ⟨c1, k1⟩ := hrev x1
    obtain ⟨c2, k2⟩ := hrev x2
    obtain ⟨c3, k3⟩ := hrev x3
    by_cases hbad : c0 = 0xFF ∨ c1 = 0xFF ∨ c2 = 0xFF ∨ c3 = 0xFF
    · right
      rw [decLoop]
      simp only [k0, k1, k2, k3, Option.bind_eq_bind, Option.bind_some]
      rw [if_pos hbad]
    · have hget : ∀ (x c : Byte), al.reverse[x.toNat]? = some c → c ≠ 0xFF →
          ∃ i < 64, al.encoding.getD i 0 = x := by
        intro x c h1 h2
        rcases hal.bwd x with h | h
        · rw [h1, Option.some.injEq] at h; exact absurd h h2
        · exact h
      simp only [not_or] at hbad
      obtain ⟨i0, p0, q0⟩ := hget _ _ k0 hbad.1
      obtain ⟨i1, p1, q1⟩ := hget _ _ k1 hbad.2.1
      obtain ⟨i2, p2, q2⟩ := hget _ _ k2 hbad.2.2.1
      obtain ⟨i3, p3, q3⟩ := hget _ _ k3 hbad.2.2.2
      rcases loop_bad hal k src t (by omega) (by omega) with ⟨ss, e1, e2⟩ | e
      · left
        refine ⟨i0 :: i1 :: i2 :: i3 :: ss, ?_, ?_⟩
        · intro s hs
          simp only [List.mem_cons] at hs
          rcases hs with rfl | rfl | rfl | rfl | hs
          · exact p0
          · exact p1
          · exact p2
          · exact p3
          · exact e1 s hs
        · simp only [text, List.map_cons, q0, q1, q2, q3, e2]
      · right
        rw [decLoop]
        simp only [k0, k1, k2, k3, Option.bind_eq_bind, Option.bind_some]
        rw [if_neg (by simp only [hbad, or_self, not_false_eq_true])]
        simp only [store, List.length_cons, List.set_cons_zero, List.set_cons_succ, Nat.zero_lt_succ,
          ↓reduceIte, Nat.succ_lt_succ_iff, Option.bind_some]
        rw [show List.drop 3 (_ :: _ :: _ :: t) = t from rfl, e]
        rfl

theorem rev_enc' {al : Alphabet} (h : al.Valid) {i : Nat} (hi : i < 64) :
    al.reverse[(al.encoding[i]?.getD 0#8).toNat]? = some (BitVec.ofNat 8 i) := by
  have := h.fwd i hi
  rw [List.getD_eq_getElem?_getD] at this
  exact this

theorem classify {al : Alphabet} (hal : al.Valid) (x : Byte) :
    (al.reverse[x.toNat]? = some 0xFF) ∨
      ∃ i < 64, al.encoding.getD i 0 = x ∧ al.reverse[x.toNat]? = some (BitVec.ofNat 8 i) := by
  rcases hal.bwd x with h | ⟨i, hi, rfl⟩
  · exact Or.inl h
  · exact Or.inr ⟨i, hi, rfl, hal.fwd i hi⟩

theorem tail_ok {al : Alphabet} (hal : al.Valid) (ss : List Nat) (dst : List Byte)
    (hs : ∀ s ∈ ss, s < 64) (hl : ss.length < 4) (h1 : ss.length ≠ 1) (hd : 6 * ss.length / 8 ≤ dst.length) :
    ∃ bs, Decodes 6 ss bs ∧
      decTail al 0 (text al ss) dst = some (.ok (bs ++ dst.drop bs.length, 0)) := by
  match ss, hl, h1 with
  | [], _, _ => exact ⟨[], by simp [Decodes, bytesVal, symsVal], by simp [decTail, text]⟩
  | [s0, s1], _, _ =>
    have h0 := hs s0 (by simp)
    have h1 := hs s1 (by simp)
    obtain ⟨d0, t, rfl⟩ := one_le dst (by simpa using hd)
    refine ⟨bytes2 s0 s1, bytes2_decodes s0 s1 h0 h1, ?_⟩
    have e0 := rev_enc' hal h0
    have e1 := rev_enc' hal h1
    have n0 : ¬ BitVec.ofNat 8 s0 = 255#8 := ofNat_ne_ff h0
    have n1 : ¬ BitVec.ofNat 8 s1 = 255#8 := ofNat_ne_ff h1
    simp [decTail, text, e0, e1, n0, n1, store, bytes2]
  | [s0, s1, s2], _, _ =>
    have h0 := hs s0 (by simp)
    have h1 := hs s1 (by simp)
    have h2 := hs s2 (by simp)
    obtain ⟨d0, d1, t, rfl⟩ := two_le dst (by simpa using hd)
    refine ⟨bytes3 s0 s1 s2, bytes3_decodes s0 s1 s2 h0 h1 h2, ?_⟩
    have e0 := rev_enc' hal h0
    have e1 := rev_enc' hal h1
    have e2 := rev_enc' hal h2
    have n0 : ¬ BitVec.ofNat 8 s0 = 255#8 := ofNat_ne_ff h0
    have n1 : ¬ BitVec.ofNat 8 s1 = 255#8 := ofNat_ne_ff h1
    have n2 : ¬ BitVec.ofNat 8 s2 = 255#8 := ofNat_ne_ff h2
    simp [decTail, text, e0, e1, e2, n0, n1, n2, store, bytes3]

theorem tail_bad {al : Alphabet} (hal : al.Valid) (src dst : List Byte)
    (hl : src.length < 4) (h1 : src.length ≠ 1) :
    (∃ ss, (∀ s ∈ ss, s < 64) ∧ src = text al ss) ∨ ∃ f, decTail al 0 src dst = some (.error f) := by
  match src, hl, h1 with
  | [], _, _ => exact Or.inl ⟨[], by simp, rfl⟩
  | [x0, x1], _, _ =>
    rcases classify hal x0 with e0 | ⟨i0, p0, q0, e0⟩ <;> rcases classify hal x1 with e1 | ⟨i1, p1, q1, e1⟩
    case inr.inr => exact Or.inl ⟨[i0, i1], by simp [p0, p1], by simp only [text, List.map_cons, List.map_nil, q0, q1]⟩
    all_goals right; exact ⟨_, by simp [decTail, e0, e1]; rfl⟩
  | [x0, x1, x2], _, _ =>
    rcases classify hal x0 with e0 | ⟨i0, p0, q0, e0⟩ <;> rcases classify hal x1 with e1 | ⟨i1, p1, q1, e1⟩
    case inr.inr =>
      have n0 : ¬ BitVec.ofNat 8 i0 = 255#8 := ofNat_ne_ff p0
      have n1 : ¬ BitVec.ofNat 8 i1 = 255#8 := ofNat_ne_ff p1
      rcases classify hal x2 with e2 | ⟨i2, p2, q2, e2⟩
      · right; exact ⟨_, by simp [decTail, e0, e1, e2, n0, n1]; rfl⟩
      · exact Or.inl ⟨[i0, i1, i2], by simp [p0, p1, p2], by
          simp only [text, List.map_cons, List.map_nil, q0, q1, q2]⟩
    all_goals right; exact ⟨_, by simp [decTail, e0, e1]; rfl⟩

theorem tail_pad2 {al : Alphabet} (hal : al.Valid) (p : Byte) (hp : p ≠ 0) (s0 s1 : Nat) (dst : List Byte)
    (h0 : s0 < 64) (h1 : s1 < 64) (hd : 1 ≤ dst.length) :
    decTail al p (text al [s0, s1] ++ [p, p]) dst =
      some (.ok (bytes2 s0 s1 ++ dst.drop (bytes2 s0 s1).length, 2)) := by
  obtain ⟨d0, t, rfl⟩ := one_le dst hd
  have e0 := rev_enc' hal h0
  have e1 := rev_enc' hal h1
  have n0 : ¬ BitVec.ofNat 8 s0 = 255#8 := ofNat_ne_ff h0
  have n1 : ¬ BitVec.ofNat 8 s1 = 255#8 := ofNat_ne_ff h1
  have hp0 : ¬ p = 0#8 := hp
  simp [decTail, text, e0, e1, n0, n1, store, bytes2, hp0]

theorem tail_pad1 {al : Alphabet} (hal : al.Valid) (p : Byte) (hp : p ≠ 0) (hpad : al.PadOk p)
    (s0 s1 s2 : Nat) (dst : List Byte)
    (h0 : s0 < 64) (h1 : s1 < 64) (h2 : s2 < 64) (hd : 2 ≤ dst.length) :
    decTail al p (text al [s0, s1, s2] ++ [p]) dst =
      some (.ok (bytes3 s0 s1 s2 ++ dst.drop (bytes3 s0 s1 s2).length, 1)) := by
  obtain ⟨d0, d1, t, rfl⟩ := two_le dst hd
  have e0 := rev_enc' hal h0
  have e1 := rev_enc' hal h1
  have e2 := rev_enc' hal h2
  have n0 : ¬ BitVec.ofNat 8 s0 = 255#8 := ofNat_ne_ff h0
  have n1 : ¬ BitVec.ofNat 8 s1 = 255#8 := ofNat_ne_ff h1
  have n2 : ¬ BitVec.ofNat 8 s2 = 255#8 := ofNat_ne_ff h2
  have hp0 : ¬ p = 0#8 := hp
  have hp2 := fun h => hpad s2 h2 (Eq.symm h)
  simp only [List.getD_eq_getElem?_getD] at hp2
  simp [decTail, text, e0, e1, e2, n0, n1, n2, store, bytes3, hp0]
  exact hp2

theorem tail_pad0 {al : Alphabet} (hal : al.Valid) (p : Byte) (hp : p ≠ 0) (hpad : al.PadOk p)
    (s0 s1 s2 s3 : Nat) (dst : List Byte)
    (h0 : s0 < 64) (h1 : s1 < 64) (h2 : s2 < 64) (h3 : s3 < 64) :
    decTail al p (text al [s0, s1, s2, s3]) dst = some (.ok (dst, 0)) := by
  have e0 := rev_enc' hal h0
  have e1 := rev_enc' hal h1
  have n0 : ¬ BitVec.ofNat 8 s0 = 255#8 := ofNat_ne_ff h0
  have n1 : ¬ BitVec.ofNat 8 s1 = 255#8 := ofNat_ne_ff h1
  have hp0 : ¬ p = 0#8 := hp
  have hp2 : ¬ p = _ := fun h => hpad s2 h2 (Eq.symm h)
  have hp3 : ¬ p = _ := fun h => hpad s3 h3 (Eq.symm h)
  simp only [List.getD_eq_getElem?_getD] at hp2 hp3
  have hp2' : ¬ p = al.encoding[s2]?.getD 0#8 := hp2
  have hp3' : ¬ p = al.encoding[s3]?.getD 0#8 := hp3
  simp [decTail, text, e0, e1, n0, n1, hp0, hp2', hp3']

theorem tail_padbad {al : Alphabet} (hal : al.Valid) (p : Byte) (hp : p ≠ 0)
    (x0 x1 x2 : Byte) (dst : List Byte) :
    (∃ s0 < 64, ∃ s1 < 64, [x0, x1, x2, p] = text al [s0, s1] ++ [p, p]) ∨
    (∃ s0 < 64, ∃ s1 < 64, ∃ s2 < 64, [x0, x1, x2, p] = text al [s0, s1, s2] ++ [p]) ∨
    ∃ f, decTail al p [x0, x1, x2, p] dst = some (.error f) := by
  have hp0 : ¬ p = 0#8 := hp
  rcases classify hal x0 with e0 | ⟨i0, p0, q0, e0⟩
  · right; right; exact ⟨.INVALID_PADDING, by
      rcases classify hal x1 with e1 | ⟨i1, p1, q1, e1⟩ <;> simp [decTail, e0, e1]⟩
  rcases classify hal x1 with e1 | ⟨i1, p1, q1, e1⟩
  · right; right; exact ⟨.INVALID_PADDING, by simp [decTail, e0, e1]⟩
  by_cases hx : x2 = p
  · left
    exact ⟨i0, p0, i1, p1, by simp only [text, List.map_cons, List.map_nil, q0, q1, hx]; rfl⟩
  right
  have n0 : ¬ BitVec.ofNat 8 i0 = 255#8 := ofNat_ne_ff p0
  have n1 : ¬ BitVec.ofNat 8 i1 = 255#8 := ofNat_ne_ff p1
  rcases classify hal x2 with e2 | ⟨i2, p2, q2, e2⟩
  · right; exact ⟨.INVALID_CHARACTER, by
      have : ¬ p = x2 := fun h => hx h.symm
      simp [decTail, e0, e1, e2, n0, n1, hp0, this]⟩
  · left
    exact ⟨i0, p0, i1, p1, i2, p2, by simp only [text, List.map_cons, List.map_nil, q0, q1, q2]; rfl⟩

end C3.Base64
