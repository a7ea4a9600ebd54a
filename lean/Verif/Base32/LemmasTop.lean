import Verif.Base32.LemmasDec

/-! # Helper lemmas for base32: `decode_buffer` as a whole -/

set_option autoImplicit false

namespace C3.Base32
open C3.Codec

theorem decode_len_eq (n : Nat) : decode_len n 0 = 5 * n / 8 := by
  unfold decode_len
  rw [if_neg (by simp)]
  simp only []
  omega

theorem decode_len_pad (n : Nat) {p : Byte} (hp : p ≠ 0) : decode_len n p = n / 8 * 5 := by
  unfold decode_len
  rw [if_pos hp]

/-- `decode_buffer` does not look at the source if it is empty. -/
theorem decode_buffer_eq (src dst : List Byte) (p : Byte) (al : Alphabet) :
    decode_buffer src dst p al = decLoop al p (dst.length + 1) src dst := by
  unfold decode_buffer
  split
  · next h =>
    have : src = [] := List.length_eq_zero_iff.1 h
    subst this
    rw [loop_src_nil]
  · rfl

/-- What a successful decoding means. -/
theorem loop_sound {al : Alphabet} (hal : al.Valid) {p : Byte} :
    ∀ (fuel : Nat) (src dst out : List Byte) (n : Nat), src.length / 8 * 5 ≤ dst.length →
      decLoop al p fuel src dst = some (.ok (out, n)) →
      ∃ ss rest bs, Complete ss ∧ src = text al ss ++ rest ∧ Decodes 5 ss bs ∧
        out = bs ++ dst.drop bs.length ∧ n = bs.length ∧
        (rest = [] ∨ rest.head? = some p ∨ (8 ∣ ss.length ∧ rest.length < 8))
  | 0, src, dst, out, n, _, h => by simp [decLoop] at h
  | fuel + 1, src, dst, out, n, hd, h => by
    by_cases hc : src.length > 0 ∧ dst.length > 0
    · have h' := h
      rw [decLoop, if_pos hc] at h'
      obtain ⟨r, hr⟩ := load_total hal (p := p) 8 src []
      rcases r with f | ⟨buf, src'⟩
      · rw [hr] at h'; simp at h'
      · rw [hr] at h'
        obtain ⟨s1, a1, a2, a3, a4, a5⟩ := load_inv hal 8 src [] buf src' hr
        rw [List.nil_append] at a2
        subst a2
        simp only [Option.bind_eq_bind, Option.bind_some] at h'
        by_cases hg : goodLen s1.length
        · by_cases hs : dst.length < 5 * s1.length / 8
          · rw [decGroup_short s1 hg dst hs] at h'; simp at h'
          · have hgl := gbytes_length s1 hg
            have hgd := gbytes_decodes s1 a1 hg
            have hcomp : Complete s1 := ⟨a1, by unfold goodLen at hg; omega⟩
            rw [loop_step p fuel src src' s1 dst a1 hg hr (List.length_pos_iff.1 hc.1)
              (List.length_pos_iff.1 hc.2) (by omega)] at h
            by_cases h5 : dst.length < 5
            · rw [if_pos h5] at h
              simp only [Option.some.injEq, Except.ok.injEq, Prod.mk.injEq] at h
              refine ⟨s1, src', gbytes s1, hcomp, a3, hgd, h.1.symm, h.2.symm, ?_⟩
              rcases a5 with h8 | h8 | h8
              · omega
              · exact Or.inr (Or.inl h8)
              · exact Or.inl h8.1
            · rw [if_neg h5] at h
              have key : ∀ rest m, decLoop al p fuel src' (dst.drop 5) = some (.ok (rest, m)) →
                  out = (gbytes s1 ++ dst.drop (gbytes s1).length).take 5 ++ rest ∧
                  n = (gbytes s1).length + m := by
                intro rest m hrec
                rw [hrec] at h
                simp only [Option.some.injEq, Except.ok.injEq, Prod.mk.injEq] at h
                exact ⟨h.1.symm, h.2.symm⟩
              have hex : ∃ rest m, decLoop al p fuel src' (dst.drop 5) = some (.ok (rest, m)) := by
                rcases hrec : decLoop al p fuel src' (dst.drop 5) with _ | _ | ⟨rest, m⟩
                · rw [hrec] at h; simp at h
                · rw [hrec] at h; simp at h
                · exact ⟨_, _, rfl⟩
              obtain ⟨rest, m, hrec⟩ := hex
              obtain ⟨k1, k2⟩ := key rest m hrec
              by_cases h8 : s1.length = 8
              · have hl5 : (gbytes s1).length = 5 := by omega
                have hsl := congrArg List.length a3
                rw [List.length_append, text_length] at hsl
                obtain ⟨s2, rest2, bs2, c1, c2, c3, c4, c5, c6⟩ :=
                  loop_sound hal fuel src' (dst.drop 5) rest m (by rw [List.length_drop]; omega) hrec
                refine ⟨s1 ++ s2, rest2, gbytes s1 ++ bs2, ⟨?_, ?_⟩, ?_, hgd.append (by omega) c3, ?_, ?_, ?_⟩
                · intro s hs
                  rcases List.mem_append.1 hs with h | h
                  · exact a1 s h
                  · exact c1.1 s h
                · have := c1.2
                  rw [List.length_append, h8]; omega
                · rw [a3, c2, text_append, List.append_assoc]
                · rw [k1, c4, List.take_left' hl5, List.append_assoc, List.length_append, hl5, List.drop_drop]
                · rw [k2, c5, List.length_append]
                · rcases c6 with h | h | h
                  · exact Or.inl h
                  · exact Or.inr (Or.inl h)
                  · refine Or.inr (Or.inr ⟨?_, h.2⟩)
                    rw [List.length_append, h8]; omega
              · have hrest : rest = dst.drop 5 ∧ m = 0 := by
                  match fuel, hrec with
                  | 0, hrec => simp [decLoop] at hrec
                  | f + 1, hrec =>
                    rcases a5 with a5 | a5 | a5
                    · exact absurd a5 h8
                    · by_cases hdn : dst.drop 5 = []
                      · rw [hdn, loop_dst_nil] at hrec
                        simp only [Option.some.injEq, Except.ok.injEq, Prod.mk.injEq] at hrec
                        exact ⟨by rw [hdn]; exact hrec.1.symm, hrec.2.symm⟩
                      · rw [loop_pad al p f src' _ a5 hdn] at hrec; simp at hrec
                    · rw [a5.1, loop_src_nil] at hrec
                      simp only [Option.some.injEq, Except.ok.injEq, Prod.mk.injEq] at hrec
                      exact ⟨hrec.1.symm, hrec.2.symm⟩
                have hl5 : (gbytes s1).length ≤ 5 := by unfold goodLen at hg; omega
                refine ⟨s1, src', gbytes s1, hcomp, a3, hgd, ?_, by rw [k2, hrest.2]; rfl, ?_⟩
                · rw [k1, hrest.1, List.take_append, List.take_of_length_le hl5, List.append_assoc]
                  congr 1
                  have : dst.drop 5 = (dst.drop (gbytes s1).length).drop (5 - (gbytes s1).length) := by
                    rw [List.drop_drop]; congr 1; omega
                  rw [this, List.take_append_drop]
                · rcases a5 with h8 | h8 | h8
                  · omega
                  · exact Or.inr (Or.inl h8)
                  · exact Or.inl h8.1
        · rw [decGroup_bad s1 hg dst] at h'; simp at h'
    · rw [decLoop, if_neg hc] at h
      simp only [Option.some.injEq, Except.ok.injEq, Prod.mk.injEq] at h
      refine ⟨[], src, [], by simp [Complete], by simp [text], by simp [Decodes, bytesVal, symsVal],
        by simp [h.1], by simp [h.2], ?_⟩
      by_cases hn : src = []
      · exact Or.inl hn
      · have := List.length_pos_iff.2 hn
        exact Or.inr (Or.inr ⟨by simp, by omega⟩)

/-- No access leaves a buffer. -/
theorem loop_total {al : Alphabet} (hal : al.Valid) {p : Byte} :
    ∀ (fuel : Nat) (src dst : List Byte), dst.length < fuel →
      (if p = 0 then 5 * src.length / 8 ≤ dst.length else 5 ∣ dst.length) →
      ∃ r, decLoop al p fuel src dst = some r
  | 0, src, dst, hf, _ => by omega
  | fuel + 1, src, dst, hf, hd => by
    by_cases hc : src.length > 0 ∧ dst.length > 0
    · obtain ⟨r, hr⟩ := load_total hal (p := p) 8 src []
      rcases r with f | ⟨buf, src'⟩
      · exact ⟨.error f, by rw [decLoop, if_pos hc, hr]; rfl⟩
      · obtain ⟨s1, a1, a2, a3, a4, a5⟩ := load_inv hal 8 src [] buf src' hr
        rw [List.nil_append] at a2
        subst a2
        have hsl := congrArg List.length a3
        rw [List.length_append, text_length] at hsl
        by_cases hg : goodLen s1.length
        · have hlen : 5 * s1.length / 8 ≤ dst.length := by
            split at hd <;> omega
          rw [loop_step p fuel src src' s1 dst a1 hg hr (List.length_pos_iff.1 hc.1)
              (List.length_pos_iff.1 hc.2) hlen]
          by_cases h5 : dst.length < 5
          · rw [if_pos h5]; exact ⟨_, rfl⟩
          · rw [if_neg h5]
            obtain ⟨f, rfl⟩ : ∃ f, fuel = f + 1 := ⟨fuel - 1, by omega⟩
            have : ∃ r, decLoop al p (f + 1) src' (dst.drop 5) = some r := by
              rcases a5 with a5 | a5 | a5
              · refine loop_total hal (f + 1) src' (dst.drop 5) (by rw [List.length_drop]; omega) ?_
                rw [List.length_drop]
                split at hd
                · next h => rw [if_pos h]; omega
                · next h => rw [if_neg h]; omega
              · by_cases hdn : dst.drop 5 = []
                · exact ⟨_, by rw [hdn, loop_dst_nil]⟩
                · exact ⟨_, by rw [loop_pad al p f src' _ a5 hdn]⟩
              · exact ⟨_, by rw [a5.1, loop_src_nil]⟩
            obtain ⟨r, hrec⟩ := this
            rw [hrec]
            rcases r with _ | ⟨_, _⟩ <;> exact ⟨_, rfl⟩
        · exact ⟨_, by
            rw [decLoop, if_pos hc, hr]
            simp only [Option.bind_eq_bind, Option.bind_some]
            rw [decGroup_bad s1 hg dst]; rfl⟩
    · exact ⟨_, by rw [decLoop, if_neg hc]⟩

/-- Decoding what an encoder may produce; `large` says that the buffer is larger than the one
`decode` allocates. -/
theorem decode_complete {al : Alphabet} (hal : al.Valid) (p : Byte) (hp : al.PadOk p)
    (ss : List Nat) (hss : Complete ss) (dst : List Byte)
    (hd : decode_len (text al ss ++ pads p ss.length).length p ≤ dst.length) :
    decode_buffer (text al ss ++ pads p ss.length) dst p al =
      some (.error .INVALID_CHARACTER) ∧
      p ≠ 0 ∧ ss.length % 8 ≠ 0 ∧ decode_len (text al ss ++ pads p ss.length).length p < dst.length ∨
    (p = 0 ∨ ss.length % 8 = 0 ∨ decode_len (text al ss ++ pads p ss.length).length p = dst.length) ∧
    ∃ bs, Decodes 5 ss bs ∧
      decode_buffer (text al ss ++ pads p ss.length) dst p al =
        some (.ok (bs ++ dst.drop bs.length, bs.length)) := by
  rw [decode_buffer_eq]
  obtain ⟨hs, hc⟩ := hss
  obtain ⟨s1, s2, hsplit, h1⟩ := split_list (8 * (ss.length / 8)) ss (by omega)
  have hlen := congrArg List.length hsplit
  rw [List.length_append] at hlen
  have hs1 : ∀ s ∈ s1, s < 32 := fun s h => hs s (by rw [hsplit]; exact List.mem_append_left _ h)
  have hs2 : ∀ s ∈ s2, s < 32 := fun s h => hs s (by rw [hsplit]; exact List.mem_append_right _ h)
  have hpl : (pads p ss.length).length = if p = 0 then 0 else (8 - ss.length % 8) % 8 := by
    unfold pads; split <;> simp
  have hdl : decode_len (text al ss ++ pads p ss.length).length p =
      if p = 0 then 5 * ss.length / 8 else (ss.length + (8 - ss.length % 8) % 8) / 8 * 5 := by
    rw [List.length_append, text_length, hpl]
    split
    · next h => rw [h, decode_len_eq]; rfl
    · next h => rw [decode_len_pad _ h]
  have htext : text al ss ++ pads p ss.length = text al s1 ++ (text al s2 ++ pads p ss.length) := by
    rw [← List.append_assoc, ← text_append, ← hsplit]
  have hdst : 5 * (ss.length / 8) ≤ dst.length := by
    rw [hdl] at hd
    split at hd <;> omega
  obtain ⟨b1, fuel', e1, e2, e3, e4⟩ := loop_full hal hp (text al s2 ++ pads p ss.length) (ss.length / 8) s1 dst
    (dst.length + 1) hs1 h1 hdst (by omega)
  obtain ⟨f, rfl⟩ : ∃ f, fuel' = f + 1 := ⟨fuel' - 1, by omega⟩
  rw [htext, e4]
  rw [← htext, hdl]
  rw [hdl] at hd
  by_cases h0 : ss.length % 8 = 0
  · right
    refine ⟨Or.inr (Or.inl h0), b1, ?_, ?_⟩
    · have : s2 = [] := List.length_eq_zero_iff.1 (by omega)
      rw [hsplit, this, List.append_nil]; exact e1
    · have h2 : s2 = [] := List.length_eq_zero_iff.1 (by omega)
      have hp0 : pads p ss.length = [] := List.length_eq_zero_iff.1 (by rw [hpl]; split <;> omega)
      rw [h2, hp0, show text al [] ++ [] = [] from rfl, loop_src_nil]
      simp [pre, Except.map]
  · have hg : goodLen s2.length := by unfold goodLen; omega
    have hgl := gbytes_length s2 hg
    have hgd := gbytes_decodes s2 hs2 hg
    have hsne : text al s2 ++ pads p ss.length ≠ [] := by
      intro h
      have := congrArg List.length h
      rw [List.length_append, text_length] at this
      simp at this
      unfold goodLen at hg
      rw [this.1] at hg
      simp at hg
    have hdec : Decodes 5 ss (b1 ++ gbytes s2) := by
      rw [hsplit]; exact e1.append (by omega) hgd
    by_cases hp0 : p = 0
    · right
      refine ⟨Or.inl hp0, b1 ++ gbytes s2, hdec, ?_⟩
      subst hp0
      rw [show pads 0 ss.length = [] from if_pos rfl, List.append_nil] at hsne ⊢
      rw [if_pos rfl] at hd
      have hdl2 : (dst.drop b1.length).length = dst.length - 5 * (ss.length / 8) := by
        rw [List.length_drop, e2]
      have hg8 : 5 * s2.length / 8 ≤ 5 ∧ 1 ≤ 5 * s2.length / 8 := by unfold goodLen at hg; omega
      have hd2 : 5 * s2.length / 8 ≤ (dst.drop b1.length).length := by omega
      rw [loop_step 0 f _ [] s2 (dst.drop b1.length) hs2 hg (loadEnd hal hp s2 hs2 (by omega)) hsne
        (List.length_pos_iff.1 (by omega)) hd2]
      have fin : (gbytes s2 ++ (dst.drop b1.length).drop (gbytes s2).length) =
          gbytes s2 ++ dst.drop (b1 ++ gbytes s2).length := by
        rw [List.drop_drop, List.length_append]
      by_cases h5 : (dst.drop b1.length).length < 5
      · rw [if_pos h5, fin]
        simp [pre, Except.map]
      · rw [if_neg h5]
        obtain ⟨f', rfl⟩ : ∃ f', f = f' + 1 := ⟨f - 1, by omega⟩
        rw [loop_src_nil]
        simp only []
        have : List.drop 5 (dst.drop b1.length) =
            List.drop 5 (gbytes s2 ++ (dst.drop b1.length).drop (gbytes s2).length) := by
          rw [List.drop_append, List.drop_eq_nil_of_le (show (gbytes s2).length ≤ 5 by omega), List.nil_append]
          rw [List.drop_drop, List.drop_drop, List.drop_drop]
          congr 1; omega
        rw [this, List.take_append_drop, fin]
        simp [pre, Except.map]
    · have hph : (pads p ss.length).head? = some p := by
        unfold pads
        rw [if_neg hp0]
        obtain ⟨k, hk⟩ : ∃ k, (8 - ss.length % 8) % 8 = k + 1 := ⟨(8 - ss.length % 8) % 8 - 1, by omega⟩
        rw [hk]; rfl
      rw [if_neg hp0] at hd ⊢
      have hdl2 : (dst.drop b1.length).length = dst.length - 5 * (ss.length / 8) := by
        rw [List.length_drop, e2]
      have hg8 : 5 * s2.length / 8 ≤ 5 ∧ 1 ≤ 5 * s2.length / 8 := by unfold goodLen at hg; omega
      rw [loop_step p f _ (pads p ss.length) s2 (dst.drop b1.length) hs2 hg
        (loadPad hal hp s2 _ hs2 (by omega) hph) hsne (List.length_pos_iff.1 (by omega)) (by omega),
        if_neg (by omega)]
      obtain ⟨f', rfl⟩ : ∃ f', f = f' + 1 := ⟨f - 1, by omega⟩
      by_cases heq : (ss.length + (8 - ss.length % 8) % 8) / 8 * 5 = dst.length
      · right
        refine ⟨Or.inr (Or.inr heq), b1 ++ gbytes s2, hdec, ?_⟩
        have hnil : List.drop 5 (dst.drop b1.length) = [] := List.drop_eq_nil_of_le (by omega)
        rw [hnil, loop_dst_nil]
        simp only [List.append_nil, Nat.add_zero]
        rw [List.take_of_length_le (by rw [List.length_append, List.length_drop]; omega), List.drop_drop]
        simp [pre, Except.map]
      · left
        refine ⟨?_, hp0, h0, by omega⟩
        rw [loop_pad al p f' _ _ hph (List.length_pos_iff.1 (by rw [List.length_drop]; omega))]
        rfl

end C3.Base32
