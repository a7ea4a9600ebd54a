import Verif.ByteLiteral.Spec
import Verif.Codec.Lemmas

/-! # Helper lemmas for byte literals: characters, scanning, hex -/

set_option autoImplicit false

namespace C3.ByteLiteral
open C3.Codec (Decodes store bytesVal symsVal)

/-! ## Characters -/

theorem hexVal_eq (c : Byte) : hexVal c = if hex_conv c = 0 then none else some (hex_conv c - 1) := by
  unfold hexVal hex_conv
  by_cases h1 : 48 ≤ c.toNat ∧ c.toNat ≤ 57
  · simp only [if_pos h1]; rw [if_neg (by omega)]; rfl
  by_cases h2 : 97 ≤ c.toNat ∧ c.toNat ≤ 102
  · have h3 : ¬ (65 ≤ c.toNat ∧ c.toNat ≤ 70) := by omega
    simp only [if_neg h1, if_pos h2, if_neg h3]; rw [if_neg (by omega)]; rfl
  by_cases h3 : 65 ≤ c.toNat ∧ c.toNat ≤ 70
  · simp only [if_neg h1, if_neg h2, if_pos h3]; rw [if_neg (by omega)]; rfl
  simp only [if_neg h1, if_neg h2, if_neg h3, if_true]

theorem is_hex_iff (c : Byte) : char_is_hex c = true ↔ ∃ v, hexVal c = some v := by
  rw [hexVal_eq]
  unfold char_is_hex
  by_cases h : hex_conv c = 0 <;> simp [h]

theorem hexVal_lt {c : Byte} {v : Nat} (h : hexVal c = some v) : v < 16 ∧ c.toNat < 128 := by
  unfold hexVal at h
  split at h
  · simp at h; omega
  · split at h
    · simp at h; omega
    · split at h
      · simp at h; omega
      · simp at h

theorem nibble_of_hexVal {c : Byte} {v : Nat} (h : hexVal c = some v) :
    char_hex_to_nibble c = some (some v) := by
  have h1 := hexVal_lt h
  rw [hexVal_eq] at h
  unfold char_hex_to_nibble
  rw [if_neg (by omega)]
  split at h
  · simp at h
  · next hc => rw [if_neg hc, h]

theorem space_toNat {c : Byte} (h : isSpace c) : c.toNat = 32 ∨ c.toNat = 9 ∨ c.toNat = 10 := by
  rcases h with rfl | rfl | rfl <;> simp

theorem nibble_of_space {c : Byte} (h : isSpace c) : char_hex_to_nibble c = some none := by
  rcases h with rfl | rfl | rfl <;> decide

theorem hexVal_space {c : Byte} (h : isSpace c) : hexVal c = none := by
  rcases h with rfl | rfl | rfl <;> decide

theorem b64Val_space {c : Byte} (h : isSpace c) : b64Val c = none := by
  rcases h with rfl | rfl | rfl <;> decide

theorem sextet_space {c : Byte} (h : isSpace c) : base64_to_sextet c = none := by
  rcases h with rfl | rfl | rfl <;> decide

theorem is_space_inv {c : Byte} (h : char_is_whitespace c = some true) : isSpace c := by
  unfold char_is_whitespace at h
  split at h
  · next hc => exact hc
  · split at h <;> simp at h

theorem is_space_of {c : Byte} (h : isSpace c) : char_is_whitespace c = some true := by
  unfold char_is_whitespace
  exact if_pos h

theorem is_b64_iff (c : Byte) : char_is_base64 c = true ↔ ∃ v, b64Val c = some v := by
  unfold char_is_base64 b64Val
  rw [decide_eq_true_iff]
  by_cases h1 : 65 ≤ c.toNat ∧ c.toNat ≤ 90
  · simp [h1]
  by_cases h2 : 97 ≤ c.toNat ∧ c.toNat ≤ 122
  · simp [h1, h2]
  by_cases h3 : 48 ≤ c.toNat ∧ c.toNat ≤ 57
  · simp [h1, h2, h3]
  by_cases h4 : c = 43
  · simp [h4]
  by_cases h5 : c = 47
  · simp [h5]
  simp only [h1, h2, h3, h4, h5, or_self, if_false, false_iff]
  rintro ⟨v, hv⟩
  simp at hv

theorem b64Val_eq61 : b64Val 61 = none := by decide

theorem sextet_eq (c : Byte) : base64_to_sextet c = if c = 61 then some 0 else b64Val c := by
  unfold base64_to_sextet b64Val
  by_cases h : c = 61
  · subst h; decide
  · rw [if_neg h, if_neg h]

theorem sextet_lt {c : Byte} {v : Nat} (h : base64_to_sextet c = some v) : v < 64 := by
  unfold base64_to_sextet at h
  repeat' split at h
  all_goals first | (simp at h; omega) | simp at h

/-! ## Scanning -/

theorem scanHexLoop_inv (q : Byte) : ∀ (text : List Byte) (len k len' k' : Nat) (rest : List Byte),
    scanHexLoop q text len k = some (some (len', k', rest)) →
    ∃ cs, text = cs ++ q :: rest ∧ q ∉ cs ∧ (∀ c ∈ cs, (∃ v, hexVal c = some v) ∨ isSpace c) ∧
      len' = len + (cs.filterMap hexVal).length ∧ k' = k + cs.length
  | [], len, k, len', k', rest, h => by simp [scanHexLoop] at h
  | c :: text, len, k, len', k', rest, h => by
    rw [scanHexLoop] at h
    by_cases h0 : c = 0
    · rw [if_pos h0] at h; simp at h
    rw [if_neg h0] at h
    by_cases hq : c = q
    · rw [if_pos hq] at h
      simp only [Option.some.injEq, Prod.mk.injEq] at h
      obtain ⟨rfl, rfl, rfl⟩ := h
      exact ⟨[], by simp [hq], by simp, by simp, by simp, by simp⟩
    rw [if_neg hq] at h
    by_cases hh : char_is_hex c = true
    · rw [if_pos hh] at h
      obtain ⟨cs, e1, e2, e3, e4, e5⟩ := scanHexLoop_inv q text _ _ len' k' rest h
      obtain ⟨v, hv⟩ := (is_hex_iff c).1 hh
      refine ⟨c :: cs, by rw [e1]; rfl, by simp [e2, Ne.symm hq], ?_, ?_, ?_⟩
      · intro x hx
        rcases List.mem_cons.1 hx with rfl | hx
        · exact Or.inl ⟨v, hv⟩
        · exact e3 x hx
      · rw [List.filterMap_cons_some hv, List.length_cons]; omega
      · rw [List.length_cons]; omega
    · rw [if_neg hh, Option.bind_eq_bind] at h
      cases hw : char_is_whitespace c with
      | none => rw [hw] at h; simp at h
      | some b =>
        rw [hw, Option.bind_some] at h
        cases b with
        | false => simp at h
        | true =>
          rw [if_pos rfl] at h
          obtain ⟨cs, e1, e2, e3, e4, e5⟩ := scanHexLoop_inv q text _ _ len' k' rest h
          have hs := is_space_inv hw
          refine ⟨c :: cs, by rw [e1]; rfl, by simp [e2, Ne.symm hq], ?_, ?_, ?_⟩
          · intro x hx
            rcases List.mem_cons.1 hx with rfl | hx
            · exact Or.inr hs
            · exact e3 x hx
          · rw [List.filterMap_cons_none (hexVal_space hs)]; omega
          · rw [List.length_cons]; omega

theorem scanHexLoop_of (q : Byte) (hq0 : q ≠ 0) (rest : List Byte) : ∀ (cs : List Byte) (len k : Nat), q ∉ cs →
    (∀ c ∈ cs, (∃ v, hexVal c = some v) ∨ isSpace c) →
    scanHexLoop q (cs ++ q :: rest) len k =
      some (some (len + (cs.filterMap hexVal).length, k + cs.length, rest))
  | [], len, k, _, _ => by
    rw [List.nil_append, scanHexLoop, if_neg hq0, if_pos rfl]; rfl
  | c :: cs, len, k, h1, h2 => by
    have hc := h2 c (by simp)
    have hq : ¬ c = q := by intro h; exact h1 (by simp [h])
    have h0 : ¬ c = 0 := by
      rintro rfl
      rcases hc with ⟨v, hv⟩ | hs
      · exact absurd hv (by simp [hexVal])
      · exact absurd (space_toNat hs) (by simp)
    have ih := fun len k => scanHexLoop_of q hq0 rest cs len k (fun h => h1 (by simp [h]))
      (fun x hx => h2 x (by simp [hx]))
    rw [List.cons_append, scanHexLoop, if_neg h0, if_neg hq]
    rcases hc with ⟨v, hv⟩ | hs
    · rw [if_pos ((is_hex_iff c).2 ⟨v, hv⟩), ih, List.filterMap_cons_some hv, List.length_cons, List.length_cons]
      rw [Nat.add_assoc, Nat.add_comm 1, Nat.add_assoc, Nat.add_comm 1]
    · have : ¬ char_is_hex c = true := by
        rw [is_hex_iff, hexVal_space hs]; simp
      rw [if_neg this, is_space_of hs, Option.bind_eq_bind, Option.bind_some, if_pos rfl, ih,
        List.filterMap_cons_none (hexVal_space hs), List.length_cons, Nat.add_assoc, Nat.add_comm 1]

/-- The characters behind the first `=`. -/
theorem scan64Loop_inv2 (q : Byte) : ∀ (text : List Byte) (len e k len' e' k' : Nat), 0 < e → e ≤ 2 →
    scan64Loop q text len e k = some (some (len', e', k')) →
    ∃ cs rest, text = cs ++ q :: rest ∧ q ∉ cs ∧ (∀ c ∈ cs, c = 61 ∨ isSpace c) ∧
      len' = len ∧ e' = e + cs.count 61 ∧ e' ≤ 2 ∧ k' = k + cs.length
  | [], len, e, k, len', e', k', _, _, h => by simp [scan64Loop] at h
  | c :: text, len, e, k, len', e', k', he, he2, h => by
    rw [scan64Loop] at h
    by_cases h0 : c = 0
    · rw [if_pos h0] at h; simp at h
    rw [if_neg h0] at h
    by_cases hq : c = q
    · rw [if_pos hq] at h
      simp only [Option.some.injEq, Prod.mk.injEq] at h
      exact ⟨[], text, by simp [hq], by simp, by simp, by omega, by simp; omega, by omega, by simp; omega⟩
    rw [if_neg hq] at h
    by_cases hb : char_is_base64 c = true
    · rw [if_pos hb, if_pos (by omega)] at h; simp at h
    rw [if_neg hb] at h
    by_cases h61 : c = 61
    · rw [if_pos h61] at h
      by_cases h2 : e > 1
      · rw [if_pos h2] at h; simp at h
      · rw [if_neg h2] at h
        obtain ⟨cs, rest, e1, e2, e3, e4, e5, e6, e7⟩ :=
          scan64Loop_inv2 q text len (e + 1) (k + 1) len' e' k' (by omega) (by omega) h
        refine ⟨c :: cs, rest, by rw [e1]; rfl, by simp [e2, Ne.symm hq], ?_, e4, ?_, e6, by simp; omega⟩
        · intro x hx
          rcases List.mem_cons.1 hx with rfl | hx
          · exact Or.inl h61
          · exact e3 x hx
        · rw [h61, List.count_cons_self]; omega
    · rw [if_neg h61, Option.bind_eq_bind] at h
      cases hw : char_is_whitespace c with
      | none => rw [hw] at h; simp at h
      | some b =>
        rw [hw, Option.bind_some] at h
        cases b with
        | false => simp at h
        | true =>
          rw [if_pos rfl] at h
          obtain ⟨cs, rest, e1, e2, e3, e4, e5, e6, e7⟩ :=
            scan64Loop_inv2 q text len e (k + 1) len' e' k' he he2 h
          refine ⟨c :: cs, rest, by rw [e1]; rfl, by simp [e2, Ne.symm hq], ?_, e4, ?_, e6, by simp; omega⟩
          · intro x hx
            rcases List.mem_cons.1 hx with rfl | hx
            · exact Or.inr (is_space_inv hw)
            · exact e3 x hx
          · rw [List.count_cons_of_ne h61]; exact e5

theorem scan64Loop_inv (q : Byte) : ∀ (text : List Byte) (len k len' e' k' : Nat),
    scan64Loop q text len 0 k = some (some (len', e', k')) →
    ∃ body tail rest, text = (body ++ tail) ++ q :: rest ∧ q ∉ body ++ tail ∧
      (∀ c ∈ body, (∃ v, b64Val c = some v) ∨ isSpace c) ∧ (∀ c ∈ tail, c = 61 ∨ isSpace c) ∧
      len' = len + (body.filterMap b64Val).length ∧ e' = tail.count 61 ∧ e' ≤ 2 ∧
      k' = k + (body ++ tail).length
  | [], len, k, len', e', k', h => by simp [scan64Loop] at h
  | c :: text, len, k, len', e', k', h => by
    rw [scan64Loop] at h
    by_cases h0 : c = 0
    · rw [if_pos h0] at h; simp at h
    rw [if_neg h0] at h
    by_cases hq : c = q
    · rw [if_pos hq] at h
      simp only [Option.some.injEq, Prod.mk.injEq] at h
      exact ⟨[], [], text, by simp [hq], by simp, by simp, by simp, by simp; omega, by simp; omega, by omega,
        by simp; omega⟩
    rw [if_neg hq] at h
    by_cases hb : char_is_base64 c = true
    · rw [if_pos hb, if_neg (by omega)] at h
      obtain ⟨body, tail, rest, e1, e2, e3, e4, e5, e6, e7, e8⟩ := scan64Loop_inv q text _ _ len' e' k' h
      obtain ⟨v, hv⟩ := (is_b64_iff c).1 hb
      refine ⟨c :: body, tail, rest, by rw [e1]; rfl, ?_, ?_, e4, ?_, e6, e7, ?_⟩
      · rw [List.cons_append, List.mem_cons, not_or]; exact ⟨Ne.symm hq, e2⟩
      · intro x hx
        rcases List.mem_cons.1 hx with rfl | hx
        · exact Or.inl ⟨v, hv⟩
        · exact e3 x hx
      · rw [List.filterMap_cons_some hv, List.length_cons]; omega
      · rw [List.cons_append, List.length_cons]; omega
    rw [if_neg hb] at h
    by_cases h61 : c = 61
    · rw [if_pos h61, if_neg (by omega)] at h
      obtain ⟨cs, rest, e1, e2, e3, e4, e5, e6, e7⟩ :=
        scan64Loop_inv2 q text len (0 + 1) (k + 1) len' e' k' (by omega) (by omega) h
      refine ⟨[], c :: cs, rest, by rw [e1]; rfl, by simp [e2, Ne.symm hq], by simp, ?_, by simp; omega, ?_, e6,
        by simp; omega⟩
      · intro x hx
        rcases List.mem_cons.1 hx with rfl | hx
        · exact Or.inl h61
        · exact e3 x hx
      · rw [h61, List.count_cons_self]; omega
    · rw [if_neg h61, Option.bind_eq_bind] at h
      cases hw : char_is_whitespace c with
      | none => rw [hw] at h; simp at h
      | some b =>
        rw [hw, Option.bind_some] at h
        cases b with
        | false => simp at h
        | true =>
          rw [if_pos rfl] at h
          obtain ⟨body, tail, rest, e1, e2, e3, e4, e5, e6, e7, e8⟩ := scan64Loop_inv q text _ _ len' e' k' h
          have hs := is_space_inv hw
          refine ⟨c :: body, tail, rest, by rw [e1]; rfl, ?_, ?_, e4, ?_, e6, e7, ?_⟩
          · rw [List.cons_append, List.mem_cons, not_or]; exact ⟨Ne.symm hq, e2⟩
          · intro x hx
            rcases List.mem_cons.1 hx with rfl | hx
            · exact Or.inr hs
            · exact e3 x hx
          · rw [List.filterMap_cons_none (b64Val_space hs)]; omega
          · rw [List.cons_append, List.length_cons]; omega

theorem scan64Loop_tail (q : Byte) (hq0 : q ≠ 0) (rest : List Byte) : ∀ (cs : List Byte) (len e k : Nat),
    q ∉ cs → (∀ c ∈ cs, c = 61 ∨ isSpace c) → e + cs.count 61 ≤ 2 →
    scan64Loop q (cs ++ q :: rest) len e k = some (some (len, e + cs.count 61, k + cs.length))
  | [], len, e, k, _, _, _ => by
    rw [List.nil_append, scan64Loop, if_neg hq0, if_pos rfl]; rfl
  | c :: cs, len, e, k, h1, h2, h3 => by
    have hc := h2 c (by simp)
    have hq : ¬ c = q := by intro h; exact h1 (by simp [h])
    have h0 : ¬ c = 0 := by
      rintro rfl
      rcases hc with hs | hs
      · exact absurd hs (by decide)
      · exact absurd (space_toNat hs) (by simp)
    have hb : ¬ char_is_base64 c = true := by
      rw [is_b64_iff]
      rcases hc with rfl | hs
      · rw [b64Val_eq61]; simp
      · rw [b64Val_space hs]; simp
    have ih := fun e => scan64Loop_tail q hq0 rest cs len e (k + 1) (fun h => h1 (by simp [h]))
      (fun x hx => h2 x (by simp [hx]))
    rw [List.cons_append, scan64Loop, if_neg h0, if_neg hq, if_neg hb]
    by_cases h61 : c = 61
    · subst h61
      rw [List.count_cons_self] at h3 ⊢
      rw [if_pos rfl, if_neg (by omega), ih (e + 1) (by omega), List.length_cons, Nat.add_assoc, Nat.add_comm 1,
        Nat.add_assoc, Nat.add_comm 1]
    · rw [List.count_cons_of_ne h61] at h3 ⊢
      have hs : isSpace c := by
        rcases hc with h | h
        · exact absurd h h61
        · exact h
      rw [if_neg h61, is_space_of hs, Option.bind_eq_bind, Option.bind_some, if_pos rfl, ih e h3, List.length_cons,
        Nat.add_assoc, Nat.add_comm 1]

theorem scan64Loop_of (q : Byte) (hq0 : q ≠ 0) (rest tail : List Byte)
    (ht : ∀ c ∈ tail, c = 61 ∨ isSpace c) (hcount : tail.count 61 ≤ 2) (hqt : q ∉ tail) :
    ∀ (cs : List Byte) (len k : Nat), q ∉ cs → (∀ c ∈ cs, (∃ v, b64Val c = some v) ∨ isSpace c) →
    scan64Loop q (cs ++ (tail ++ q :: rest)) len 0 k =
      some (some (len + (cs.filterMap b64Val).length, tail.count 61, k + (cs ++ tail).length))
  | [], len, k, _, _ => by
    rw [List.nil_append, scan64Loop_tail q hq0 rest tail len 0 k hqt ht (by omega)]
    simp
  | c :: cs, len, k, h1, h2 => by
    have hc := h2 c (by simp)
    have hq : ¬ c = q := by intro h; exact h1 (by simp [h])
    have h0 : ¬ c = 0 := by
      rintro rfl
      rcases hc with ⟨v, hv⟩ | hs
      · exact absurd hv (by simp [b64Val])
      · exact absurd (space_toNat hs) (by simp)
    have ih := fun len k => scan64Loop_of q hq0 rest tail ht hcount hqt cs len k (fun h => h1 (by simp [h]))
      (fun x hx => h2 x (by simp [hx]))
    rw [List.cons_append, scan64Loop, if_neg h0, if_neg hq]
    rcases hc with ⟨v, hv⟩ | hs
    · rw [if_pos ((is_b64_iff c).2 ⟨v, hv⟩), if_neg (by simp), ih, List.filterMap_cons_some hv, List.cons_append,
        List.length_cons, List.length_cons, Nat.add_assoc, Nat.add_comm 1, Nat.add_assoc, Nat.add_comm 1]
    · have hb : ¬ char_is_base64 c = true := by
        rw [is_b64_iff, b64Val_space hs]; simp
      have h61 : ¬ c = 61 := by
        rintro rfl
        exact absurd (space_toNat hs) (by simp)
      rw [if_neg hb, if_neg h61, is_space_of hs, Option.bind_eq_bind, Option.bind_some, if_pos rfl, ih,
        List.filterMap_cons_none (b64Val_space hs), List.cons_append, List.length_cons, Nat.add_assoc,
        Nat.add_comm 1]

/-! ## `parse_hex` -/

theorem store_mid {α : Type} (a : List α) (x v : α) (t : List α) (i : Nat) (h : a.length = i) :
    store (a ++ x :: t) i v = some (a ++ v :: t) := by
  unfold store
  rw [if_pos (by rw [List.length_append, List.length_cons]; omega), List.set_append_right _ _ (by omega)]
  simp [h]

theorem parse_hex_spec (rest : List Byte) : ∀ (cs : List Byte) (m : Option Nat) (a t : Cells) (i : Nat),
    (∀ c ∈ cs, (∃ v, hexVal c = some v) ∨ isSpace c) → (∀ v, m = some v → v < 16) →
    (m.toList ++ cs.filterMap hexVal).length % 2 = 0 →
    (m.toList ++ cs.filterMap hexVal).length / 2 ≤ t.length → a.length = i →
    ∃ bs, Decodes 4 (m.toList ++ cs.filterMap hexVal) bs ∧
      parse_hex (cs ++ rest) cs.length m (a ++ t) i = some (a ++ bs.map some ++ t.drop bs.length)
  | [], none, a, t, i, _, _, _, _, _ => by
    refine ⟨[], by simp [Decodes, bytesVal, symsVal], ?_⟩
    cases rest <;> simp [parse_hex]
  | [], some v, a, t, i, _, _, h, _, _ => by simp at h
  | c :: cs, none, a, t, i, hc, hm, he, ht, ha => by
    rw [List.cons_append, parse_hex, if_neg (by simp), Option.bind_eq_bind]
    have hcs : ∀ c ∈ cs, (∃ v, hexVal c = some v) ∨ isSpace c := fun x hx => hc x (by simp [hx])
    rcases hc c (by simp) with ⟨v, hv⟩ | hs
    · rw [nibble_of_hexVal hv, Option.bind_some]
      rw [List.filterMap_cons_some hv] at he ht ⊢
      exact parse_hex_spec rest cs (some v) a t i hcs (fun w h => by
        rw [Option.some.injEq] at h; rw [← h]; exact (hexVal_lt hv).1) he ht ha
    · rw [nibble_of_space hs, Option.bind_some]
      rw [List.filterMap_cons_none (hexVal_space hs)] at he ht ⊢
      exact parse_hex_spec rest cs none a t i hcs hm he ht ha
  | c :: cs, some w, a, t, i, hc, hm, he, ht, ha => by
    rw [List.cons_append, parse_hex, Option.bind_eq_bind]
    have hcs : ∀ c ∈ cs, (∃ v, hexVal c = some v) ∨ isSpace c := fun x hx => hc x (by simp [hx])
    rcases hc c (by simp) with ⟨v, hv⟩ | hs
    · rw [nibble_of_hexVal hv, Option.bind_some]
      rw [List.filterMap_cons_some hv] at he ht ⊢
      match t, ht with
      | x :: t, ht =>
        simp only []
        rw [store_mid a x _ t i ha, Option.bind_eq_bind, Option.bind_some]
        have e : a ++ some (BitVec.ofNat 8 (w * 16 + v)) :: t =
          (a ++ [some (BitVec.ofNat 8 (w * 16 + v))]) ++ t := by simp
        have hl : (some w).toList ++ v :: cs.filterMap hexVal = [w, v] ++ cs.filterMap hexVal := by simp
        rw [hl] at he ht ⊢
        rw [List.length_append] at he ht
        simp only [List.length_cons, List.length_nil] at he ht
        obtain ⟨bs, e1, e2⟩ := parse_hex_spec rest cs none (a ++ [some (BitVec.ofNat 8 (w * 16 + v))]) t (i + 1)
          hcs (by simp) (by simp; omega) (by simp; omega) (by simp [ha])
        refine ⟨BitVec.ofNat 8 (w * 16 + v) :: bs, ?_, ?_⟩
        · have hw := hm w rfl
          have hv' := (hexVal_lt hv).1
          refine Decodes.append (s1 := [w, v]) (b1 := [_]) ⟨by simp, ?_⟩ (by simp) (by simpa using e1)
          simp only [symsVal, bytesVal, C3.Bigint.positional, List.map, List.foldl, List.length,
            BitVec.toNat_ofNat]
          omega
        · rw [e]
          simp only [List.length_cons, Nat.add_sub_cancel]
          rw [e2]
          simp
      | [], ht => simp at ht; omega
    · rw [nibble_of_space hs, Option.bind_some]
      rw [List.filterMap_cons_none (hexVal_space hs)] at he ht ⊢
      exact parse_hex_spec rest cs (some w) a t i hcs hm he ht ha

/-- `parse_hex` does not touch the cells in front of `i`. -/
theorem parse_hex_front (j : Nat) : ∀ (data : List Byte) (k : Nat) (m : Option Nat) (buf out : Cells) (i : Nat),
    j < i → parse_hex data k m buf i = some out → out[j]? = buf[j]? ∧ out.length = buf.length
  | [], k, none, buf, out, i, hj, h => by
    rw [parse_hex] at h
    split at h
    · rw [Option.some.injEq] at h; rw [h]; exact ⟨rfl, rfl⟩
    · simp at h
  | c :: data, k, none, buf, out, i, hj, h => by
    rw [parse_hex] at h
    split at h
    · rw [Option.some.injEq] at h; rw [h]; exact ⟨rfl, rfl⟩
    · rcases hn : char_hex_to_nibble c with _ | _ | v
      · rw [hn] at h; simp at h
      · rw [hn] at h; exact parse_hex_front j data _ none buf out i hj h
      · rw [hn] at h; exact parse_hex_front j data _ (some v) buf out i hj h
  | [], k, some _, buf, out, i, hj, h => by simp [parse_hex] at h
  | c :: data, k, some w, buf, out, i, hj, h => by
    rw [parse_hex] at h
    rcases hn : char_hex_to_nibble c with _ | _ | v
    · rw [hn] at h; simp at h
    · rw [hn] at h; exact parse_hex_front j data _ (some w) buf out i hj h
    · rw [hn] at h
      simp only [Option.bind_eq_bind, Option.bind_some] at h
      unfold store at h
      split at h
      · rw [Option.bind_some] at h
        have := parse_hex_front j data _ none _ out (i + 1) (by omega) h
        rw [List.getElem?_set_ne (by omega), List.length_set] at this
        exact this
      · simp at h

end C3.ByteLiteral
