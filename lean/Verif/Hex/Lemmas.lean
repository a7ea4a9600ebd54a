import Verif.Hex.Spec
import Verif.Codec.Lemmas

/-! # Helper lemmas for hex -/

set_option autoImplicit false

namespace C3.Hex
open C3.Codec

theorem alphabet_spec : ∀ s < 16, HEXALPHABET[s]? = some (lower s) := by decide +kernel

/-- What the table should contain. -/
def rv (x : Byte) : Byte := match digitVal x with | some v => BitVec.ofNat 8 v | none => 0xFF

theorem reverse_nat : ∀ n < 256, HEXREVERSE[n]? = some (rv (BitVec.ofNat 8 n)) := by
  decide +kernel

theorem reverse_spec (x : Byte) : HEXREVERSE[x.toNat]? = some (rv x) := by
  have := reverse_nat x.toNat x.isLt
  rwa [BitVec.ofNat_toNat, BitVec.setWidth_eq] at this

theorem digitVal_lt {c : Byte} {v : Nat} (h : digitVal c = some v) : v < 16 := by
  unfold digitVal at h
  split at h
  · simp at h; omega
  · split at h
    · simp at h; omega
    · split at h
      · simp at h; omega
      · simp at h

theorem digitVal_lower {s : Nat} (h : s < 16) : digitVal (lower s) = some s := by
  have : ∀ s < 16, digitVal (lower s) = some s := by decide +kernel
  exact this s h

/-! ## Encoding -/

/-- The symbols of a byte string. -/
def syms : List Byte → List Nat
  | [] => []
  | b :: bs => b.toNat / 16 :: b.toNat % 16 :: syms bs

theorem syms_length (bs : List Byte) : (syms bs).length = 2 * bs.length := by
  induction bs with
  | nil => rfl
  | cons b bs ih => simp only [syms, List.length_cons, ih]; omega

theorem syms_encodes (bs : List Byte) : Encodes 4 bs (syms bs) := by
  induction bs with
  | nil => simp [syms, Encodes, symsVal, bytesVal]
  | cons b bs ih =>
    have := b.isLt
    refine Encodes.append (b1 := [b]) (s1 := [_, _]) ⟨by simp, by simp, ?_, ?_⟩ (by simp) ih
    · intro s hs
      simp only [List.mem_cons, List.not_mem_nil, or_false] at hs
      omega
    · simp only [symsVal, bytesVal, C3.Bigint.positional, List.map, List.foldl, List.length]
      omega

theorem store_mid {α : Type} (a : List α) (x v : α) (t : List α) (i : Nat) (h : a.length = i) :
    store (a ++ x :: t) i v = some (a ++ v :: t) := by
  unfold store
  rw [if_pos (by rw [List.length_append, List.length_cons]; omega), List.set_append_right _ _ (by omega)]
  simp [h]

theorem encLoop_spec (src : List Byte) : ∀ (j : Nat) (a t : List Byte), a.length = j →
    2 * src.length ≤ t.length →
    encLoop src j (a ++ t) = some (a ++ (syms src).map lower ++ t.drop (2 * src.length)) := by
  induction src with
  | nil => intro j a t _ _; simp [encLoop, syms]
  | cons v src ih =>
    intro j a t ha ht
    have hv := v.isLt
    match t, ht with
    | x :: y :: t, ht =>
      have e1 : (v >>> 4).toNat = v.toNat / 16 := by
        rw [BitVec.toNat_ushiftRight, Nat.shiftRight_eq_div_pow]
      have e2 : (v &&& 0x0f).toNat = v.toNat % 16 := by
        rw [BitVec.toNat_and]; exact and_mask _ 4
      rw [encLoop, e1, e2, alphabet_spec _ (by omega), alphabet_spec _ (by omega)]
      simp only [Option.bind_eq_bind, Option.bind_some]
      rw [store_mid a x _ _ j ha, Option.bind_some]
      rw [show a ++ lower (v.toNat / 16) :: y :: t = (a ++ [lower (v.toNat / 16)]) ++ y :: t by simp,
        store_mid _ y _ _ (j + 1) (by simp [ha]), Option.bind_some]
      rw [show a ++ [lower (v.toNat / 16)] ++ lower (v.toNat % 16) :: t =
        (a ++ [lower (v.toNat / 16), lower (v.toNat % 16)]) ++ t by simp]
      rw [ih (j + 2) _ t (by simp [ha]) (by simp only [List.length_cons] at ht; omega)]
      rw [List.length_cons, show 2 * (src.length + 1) = 2 * src.length + 2 by omega, List.drop_succ_cons,
        List.drop_succ_cons]
      simp [syms]
    | [], ht => simp at ht
    | [x], ht => simp at ht; omega

theorem encode_spec (src dst : List Byte) (h : encode_len src.length ≤ dst.length) :
    encode_bytes src dst =
      some ((syms src).map lower ++ dst.drop (encode_len src.length), encode_len src.length) := by
  unfold encode_len at *
  unfold encode_bytes
  have := encLoop_spec src 0 [] dst rfl (by omega)
  rw [List.nil_append] at this
  rw [this]
  simp [Nat.mul_comm]

/-! ## Decoding -/

theorem decByte {a b : Nat} (ha : a < 16) (hb : b < 16) :
    (BitVec.ofNat 8 a <<< 4 ||| BitVec.ofNat 8 b : Byte) = BitVec.ofNat 8 (a * 16 + b) := by
  apply BitVec.eq_of_toNat_eq
  rw [BitVec.toNat_or, BitVec.toNat_shiftLeft, Nat.shiftLeft_eq, BitVec.toNat_ofNat, BitVec.toNat_ofNat,
    BitVec.toNat_ofNat, Nat.mod_eq_of_lt (show a < 2 ^ 8 by omega), Nat.mod_eq_of_lt (show b < 2 ^ 8 by omega),
    Nat.mod_eq_of_lt (show a * 2 ^ 4 < 2 ^ 8 by omega), or_add _ _ 4 (by omega),
    Nat.mod_eq_of_lt (show a * 16 + b < 2 ^ 8 by omega)]
  omega

theorem small_not_gt {v : Nat} (h : v < 16) : ¬ BitVec.ofNat 8 v > (0x0f : Byte) := by
  rw [gt_iff_lt, BitVec.lt_def, BitVec.toNat_ofNat]
  change ¬ 15 < v % 2 ^ 8
  omega

theorem decLoop_spec : ∀ (n : Nat) (rest front bs t : List Byte), rest.length = 2 * n →
    front.length = 2 * bs.length → n ≤ t.length →
    (∃ ss bs', rest.map digitVal = ss.map some ∧ Decodes 4 ss bs' ∧
      decLoop (front ++ rest) (2 * bs.length + 1) bs.length (bs ++ t) =
        some (.ok (bs ++ bs' ++ t.drop bs'.length, bs.length + bs'.length))) ∨
    ((∃ c ∈ rest, digitVal c = none) ∧
      decLoop (front ++ rest) (2 * bs.length + 1) bs.length (bs ++ t) = some (.error .INVALID_CHARACTER))
  | 0, rest, front, bs, t, hr, hf, ht => by
    have : rest = [] := List.length_eq_zero_iff.1 (by simpa using hr)
    subst this
    left
    refine ⟨[], [], rfl, by simp [Decodes, bytesVal, symsVal], ?_⟩
    rw [decLoop, if_neg (by simp; omega)]
    simp
  | n + 1, x :: y :: rest, front, bs, t, hr, hf, ht => by
    match t, ht with
    | d :: t, ht =>
      have hlen : 2 * bs.length + 1 < (front ++ x :: y :: rest).length := by
        rw [List.length_append, List.length_cons, List.length_cons]; omega
      have g1 : (front ++ x :: y :: rest)[2 * bs.length + 1 - 1]? = some x := by
        rw [List.getElem?_append_right (by omega)]; simp [hf]
      have g2 : (front ++ x :: y :: rest)[2 * bs.length + 1]? = some y := by
        rw [List.getElem?_append_right (by omega)]; simp [hf]
      have step : decLoop (front ++ x :: y :: rest) (2 * bs.length + 1) bs.length (bs ++ d :: t) =
          (if rv x > (0x0f : Byte) ∨ rv y > (0x0f : Byte) then some (.error .INVALID_CHARACTER)
            else do
              let dst ← store (bs ++ d :: t) bs.length (rv x <<< 4 ||| rv y)
              decLoop (front ++ x :: y :: rest) (2 * bs.length + 1 + 2) (bs.length + 1) dst) := by
        rw [decLoop, if_pos hlen, g1, g2]
        simp only [Option.bind_eq_bind, Option.bind_some, reverse_spec]
      rw [step]
      clear step
      cases hx : digitVal x with
      | none =>
        right
        refine ⟨⟨x, by simp, hx⟩, ?_⟩
        rw [if_pos (Or.inl (by rw [rv, hx]; decide))]
      | some a =>
        cases hy : digitVal y with
        | none =>
          right
          refine ⟨⟨y, by simp, hy⟩, ?_⟩
          rw [if_pos (Or.inr (by rw [rv, hy]; decide))]
        | some b =>
          have ha := digitVal_lt hx
          have hb := digitVal_lt hy
          have rx : rv x = BitVec.ofNat 8 a := by rw [rv, hx]
          have ry : rv y = BitVec.ofNat 8 b := by rw [rv, hy]
          rw [rx, ry, if_neg (by simp only [not_or]; exact ⟨small_not_gt ha, small_not_gt hb⟩)]
          simp only [decByte ha hb]
          rw [store_mid bs d _ t bs.length rfl, Option.bind_eq_bind, Option.bind_some]
          have ih := decLoop_spec n rest (front ++ [x, y]) (bs ++ [BitVec.ofNat 8 (a * 16 + b)]) t
            (by simp only [List.length_cons] at hr; omega) (by simp; omega)
            (by simp only [List.length_cons] at ht; omega)
          have e1 : front ++ [x, y] ++ rest = front ++ x :: y :: rest := by simp
          have e2 : bs ++ [BitVec.ofNat 8 (a * 16 + b)] ++ t = bs ++ BitVec.ofNat 8 (a * 16 + b) :: t := by simp
          have e3 : (bs ++ [BitVec.ofNat 8 (a * 16 + b)]).length = bs.length + 1 := by simp
          rw [e1, e2, e3, show 2 * (bs.length + 1) + 1 = 2 * bs.length + 1 + 2 by omega] at ih
          rcases ih with ⟨ss, bs', i1, i2, i3⟩ | ⟨⟨c, i1, i2⟩, i3⟩
          · left
            refine ⟨a :: b :: ss, BitVec.ofNat 8 (a * 16 + b) :: bs', by simp [hx, hy, i1], ?_, ?_⟩
            · refine Decodes.append (s1 := [a, b]) (b1 := [_]) ⟨by simp, ?_⟩ (by simp) i2
              simp only [symsVal, bytesVal, C3.Bigint.positional, List.map, List.foldl, List.length,
                BitVec.toNat_ofNat]
              omega
            · rw [i3]
              simp only [List.length_cons, List.drop_succ_cons]
              rw [show bs.length + 1 + bs'.length = bs.length + (bs'.length + 1) by omega]
              simp
          · right
            exact ⟨⟨c, by simp [i1], i2⟩, i3⟩
  | n + 1, [], front, bs, t, hr, hf, ht => by simp at hr
  | n + 1, [_], front, bs, t, hr, hf, ht => by simp at hr; omega

end C3.Hex
