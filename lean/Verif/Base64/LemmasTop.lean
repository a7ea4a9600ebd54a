import Verif.Base64.LemmasDec

/-! # Helper lemmas for base64: `decode_buffer` as a whole -/

set_option autoImplicit false

namespace C3.Base64
open C3.Codec

theorem text_append (al : Alphabet) (a b : List Nat) : text al (a ++ b) = text al a ++ text al b := by
  simp [text]

theorem text_length (al : Alphabet) (a : List Nat) : (text al a).length = a.length := by simp [text]

theorem drop_drop_append {α : Type} (a b : List α) (dst : List α) :
    b ++ (dst.drop a.length).drop b.length = b ++ dst.drop (a ++ b).length := by
  rw [List.drop_drop, List.length_append]

/-- The body of `decode_buffer` once the parts of the source are known. -/
theorem decode_split {al : Alphabet} (p : Byte) (src4 tail dst : List Byte) (dn m : Nat) (b1 b2 : List Byte)
    (src : List Byte) (hne : src ≠ [])
    (hlen : decode_len src.length p = .ok dn) (hd : dn ≤ dst.length)
    (h4 : src4 = if p = 0 then src.take (src.length - src.length % 4)
      else if src.getLast? = some p then src.take (src.length - 4) else src)
    (ht : tail = src.drop (src.length - if p = 0 then src.length % 4 else 4))
    (hloop : decLoop al (decTail al p tail) src4 dst = pre b1 (decTail al p tail (dst.drop b1.length)))
    (htail : decTail al p tail (dst.drop b1.length) =
      some (.ok (b2 ++ (dst.drop b1.length).drop b2.length, m)))
    (hdn : dn - m = (b1 ++ b2).length) :
    decode_buffer src dst p al =
      some (.ok ((b1 ++ b2) ++ dst.drop (b1 ++ b2).length, (b1 ++ b2).length)) := by
  unfold decode_buffer
  rw [if_neg (by simpa using hne), hlen]
  simp only []
  rw [if_neg (by omega)]
  obtain ⟨x, hx⟩ : ∃ x, src.getLast? = some x := ⟨_, List.getLast?_eq_some_getLast hne⟩
  rw [hx] at h4
  rw [hx]
  simp only [Option.bind_eq_bind, Option.bind_some]
  rw [← ht]
  have e : (if p = 0 then src.take (src.length - if p = 0 then src.length % 4 else 4)
      else if x = p then src.take (src.length - 4) else src) = src4 := by
    rw [h4]
    by_cases hp : p = 0
    · rw [if_pos hp, if_pos hp, if_pos hp]
    · rw [if_neg hp, if_neg hp]
      by_cases hxp : x = p
      · rw [if_pos hxp, if_pos (by rw [hxp])]
      · rw [if_neg hxp, if_neg (by simpa using hxp)]
  rw [e, hloop, htail]
  simp only [pre, Option.map_some, Except.map, Option.bind_some]
  rw [hdn, List.drop_drop, ← List.length_append, List.append_assoc]

theorem decode_ok {al : Alphabet} (hal : al.Valid) (p : Byte) (hpad : p ≠ 0 → al.PadOk p)
    (ss : List Nat) (hss : Complete ss) (dst : List Byte)
    (hd : ∀ n, decode_len (text al ss ++ pads p ss.length).length p = .ok n → n ≤ dst.length) :
    ∃ bs, Decodes 6 ss bs ∧
      decode_buffer (text al ss ++ pads p ss.length) dst p al =
        some (.ok (bs ++ dst.drop bs.length, bs.length)) := by
  by_cases hnil : ss = []
  · subst hnil
    refine ⟨[], by simp [Decodes, bytesVal, symsVal], ?_⟩
    have : text al [] ++ pads p ([] : List Nat).length = [] := by
      unfold pads; split <;> simp [text]
    rw [this]
    simp [decode_buffer]
  obtain ⟨hs, h1⟩ := hss
  have hpos : 0 < ss.length := List.length_pos_iff.2 hnil
  have hlt : ∀ n, (∀ s ∈ ss.take n, s < 64) ∧ (∀ s ∈ ss.drop n, s < 64) := fun n =>
    ⟨fun s h => hs s (List.mem_of_mem_take h), fun s h => hs s (List.mem_of_mem_drop h)⟩
  have hsplit : ∀ n, ss = ss.take n ++ ss.drop n := fun n => (List.take_append_drop n ss).symm
  by_cases hp : p = 0
  · subst hp
    rw [show pads 0 ss.length = [] from if_pos rfl, List.append_nil] at hd ⊢
    rw [text_length] at hd
    have hlen : decode_len ss.length 0 = .ok (ss.length / 4 * 3 + ss.length % 4 * 3 / 4) := by
      unfold decode_len
      rw [if_neg (by simp), if_neg h1]
    have hd := hd _ hlen
    generalize hn : ss.length - ss.length % 4 = n at *
    have ht4 : (ss.take n).length = n := by rw [List.length_take]; omega
    have hd4 : (ss.drop n).length = ss.length % 4 := by rw [List.length_drop]; omega
    obtain ⟨b1, e1, e2, e3⟩ := loop_ok hal (decTail al 0 (text al (ss.drop n))) (ss.take n) dst (hlt n).1
      (by omega) (by omega)
    obtain ⟨b2, f1, f2⟩ := tail_ok hal (ss.drop n) (dst.drop b1.length) (hlt n).2 (by omega) (by omega)
      (by rw [hd4, List.length_drop]; omega)
    have hdec : Decodes 6 ss (b1 ++ b2) := by
      conv => lhs; rw [hsplit n]
      exact e1.append e2 f1
    refine ⟨b1 ++ b2, hdec, ?_⟩
    refine decode_split 0 (text al (ss.take n)) (text al (ss.drop n)) dst _ 0 b1 b2 (text al ss) ?_ ?_ hd ?_ ?_
      e3 f2 ?_
    · simpa [text] using hnil
    · rw [text_length]; exact hlen
    · rw [if_pos rfl, text_length, hn]; simp [text]
    · rw [if_pos rfl, text_length, hn]; simp [text]
    · have := hdec.1; omega
  · have hpk := hpad hp
    have hpads : pads p ss.length = List.replicate ((4 - ss.length % 4) % 4) p := if_neg hp
    rw [hpads] at hd ⊢
    have hlen : ∀ N, N % 4 = 0 → decode_len N p = .ok (N / 4 * 3) := by
      intro N h
      unfold decode_len
      rw [if_pos hp, if_neg (by omega)]
    by_cases h0 : ss.length % 4 = 0
    · rw [h0] at hd ⊢
      simp only [Nat.sub_zero, Nat.mod_self, List.replicate_zero, List.append_nil] at hd ⊢
      rw [text_length] at hd
      have hd := hd _ (hlen _ h0)
      obtain ⟨s0, s1, s2, s3, hq⟩ : ∃ s0 s1 s2 s3, ss.drop (ss.length - 4) = [s0, s1, s2, s3] := by
        have hl : (ss.drop (ss.length - 4)).length = 4 := by rw [List.length_drop]; omega
        match ss.drop (ss.length - 4), hl with
        | [a, b, c, d], _ => exact ⟨a, b, c, d, rfl⟩
      have hq' := (hlt (ss.length - 4)).2
      rw [hq] at hq'
      obtain ⟨b1, e1, e2, e3⟩ := loop_ok hal (decTail al p (text al [s0, s1, s2, s3])) ss dst hs h0 (by omega)
      have f2 := tail_pad0 hal p hp hpk s0 s1 s2 s3 (dst.drop b1.length)
        (hq' _ (by simp)) (hq' _ (by simp)) (hq' _ (by simp)) (hq' _ (by simp))
      refine ⟨b1, e1, ?_⟩
      have := decode_split p (text al ss) (text al [s0, s1, s2, s3]) dst _ 0 b1 [] (text al ss)
        (by simpa [text] using hnil) (by rw [text_length]; exact hlen _ h0) hd ?_ ?_ e3 ?_ ?_
      · simpa using this
      · rw [if_neg hp, if_neg]
        intro h
        have hm := List.mem_of_getLast? h
        obtain ⟨s, hs1, hs2⟩ := List.mem_map.1 hm
        exact hpk s (hs s hs1) hs2
      · rw [if_neg hp, text_length, ← hq]; simp [text]
      · simpa using f2
      · rw [List.append_nil]; omega
    · generalize hn : ss.length - ss.length % 4 = n at *
      have ht4 : (ss.take n).length = n := by rw [List.length_take]; omega
      have hd4 : (ss.drop n).length = ss.length % 4 := by rw [List.length_drop]; omega
      have hq' := (hlt n).2
      have hN : (text al ss ++ List.replicate ((4 - ss.length % 4) % 4) p).length = n + 4 := by
        rw [List.length_append, text_length, List.length_replicate]; omega
      have hd := hd _ (by rw [hN]; exact hlen _ (by omega))
      have hlen' := hlen (n + 4) (by omega)
      have hsrc : text al ss ++ List.replicate ((4 - ss.length % 4) % 4) p =
          text al (ss.take n) ++ (text al (ss.drop n) ++ List.replicate ((4 - ss.length % 4) % 4) p) := by
        rw [← List.append_assoc, ← text_append, ← hsplit]
      have main : ∀ (tail : List Byte) (b2f : List Byte) (m : Nat),
          tail = text al (ss.drop n) ++ List.replicate ((4 - ss.length % 4) % 4) p →
          Decodes 6 (ss.drop n) b2f → m = (4 - ss.length % 4) % 4 →
          (∀ d : List Byte, 3 ≤ d.length →
            decTail al p tail d = some (.ok (b2f ++ d.drop b2f.length, m))) →
          ∃ bs, Decodes 6 ss bs ∧
            decode_buffer (text al ss ++ List.replicate ((4 - ss.length % 4) % 4) p) dst p al =
              some (.ok (bs ++ dst.drop bs.length, bs.length)) := by
        intro tail b2 m htl f1 hm f2
        obtain ⟨b1, e1, e2, e3⟩ := loop_ok hal (decTail al p tail) (ss.take n) dst (hlt n).1
          (by omega) (by omega)
        have hdec : Decodes 6 ss (b1 ++ b2) := by
          conv => lhs; rw [hsplit n]
          exact e1.append e2 f1
        refine ⟨b1 ++ b2, hdec, ?_⟩
        refine decode_split p (text al (ss.take n)) tail dst _ m b1 b2 _ ?_
          (by rw [hN]; exact hlen') hd ?_ ?_ e3 (f2 _ ?_) ?_
        · intro h
          rw [h] at hN; simp at hN
        · have hlast : (text al ss ++ List.replicate ((4 - ss.length % 4) % 4) p).getLast? = some p := by
            rw [List.getLast?_append, List.getLast?_replicate, if_neg (by omega)]; rfl
          rw [if_neg hp, if_pos hlast, hN, hsrc]
          exact (List.take_left' (by rw [text_length]; omega)).symm
        · rw [if_neg hp, hN, hsrc, htl]
          exact (List.drop_left' (by rw [text_length]; omega)).symm
        · rw [List.length_drop]; omega
        · have := hdec.1
          omega
      rcases (show ss.length % 4 = 2 ∨ ss.length % 4 = 3 by omega) with h2 | h3
      · obtain ⟨s0, s1, hq⟩ : ∃ s0 s1, ss.drop n = [s0, s1] := by
          rw [h2] at hd4
          match ss.drop n, hd4 with
          | [a, b], _ => exact ⟨a, b, rfl⟩
        rw [hq] at hq'
        have k0 := hq' s0 (by simp)
        have k1 := hq' s1 (by simp)
        refine main (text al [s0, s1] ++ [p, p]) (bytes2 s0 s1) 2 (by rw [hq, h2]; rfl)
          (by rw [hq]; exact bytes2_decodes _ _ k0 k1) (by omega)
          (fun d hd => tail_pad2 hal p hp s0 s1 d k0 k1 (by omega))
      · obtain ⟨s0, s1, s2, hq⟩ : ∃ s0 s1 s2, ss.drop n = [s0, s1, s2] := by
          rw [h3] at hd4
          match ss.drop n, hd4 with
          | [a, b, c], _ => exact ⟨a, b, c, rfl⟩
        rw [hq] at hq'
        have k0 := hq' s0 (by simp)
        have k1 := hq' s1 (by simp)
        have k2 := hq' s2 (by simp)
        refine main (text al [s0, s1, s2] ++ [p]) (bytes3 s0 s1 s2) 1 (by rw [hq, h3]; rfl)
          (by rw [hq]; exact bytes3_decodes _ _ _ k0 k1 k2) (by omega)
          (fun d hd => tail_pad1 hal p hp hpk s0 s1 s2 d k0 k1 k2 (by omega))

/-- A source that is not the text of complete symbols with the right padding is rejected. -/
theorem decode_bad {al : Alphabet} (hal : al.Valid) (p : Byte) (src dst : List Byte)
    (hd : ∀ n, decode_len src.length p = .ok n → n ≤ dst.length)
    (hbad : ¬ ∃ ss, Complete ss ∧ src = text al ss ++ pads p ss.length) :
    ∃ f, decode_buffer src dst p al = some (.error f) := by
  have hnil : src ≠ [] := by
    rintro rfl
    exact hbad ⟨[], ⟨by simp, by simp⟩, by unfold pads; split <;> simp [text]⟩
  unfold decode_buffer
  rw [if_neg (by simpa using hnil)]
  rcases hlen : decode_len src.length p with f | dn
  · exact ⟨f, rfl⟩
  simp only []
  have hd := hd dn hlen
  rw [if_neg (by omega)]
  obtain ⟨x, hx⟩ : ∃ x, src.getLast? = some x := ⟨_, List.getLast?_eq_some_getLast hnil⟩
  rw [hx]
  simp only [Option.bind_eq_bind, Option.bind_some]
  by_cases hp : p = 0
  · subst hp
    simp only [↓reduceIte]
    unfold decode_len at hlen
    rw [if_neg (by simp)] at hlen
    by_cases h1 : src.length % 4 = 1
    · rw [if_pos h1] at hlen; exact absurd hlen (by simp)
    rw [if_neg h1, Except.ok.injEq] at hlen
    generalize hn : src.length - src.length % 4 = n at *
    have ht4 : (src.take n).length = n := by rw [List.length_take]; omega
    have hd4 : (src.drop n).length = src.length % 4 := by rw [List.length_drop]; omega
    rcases loop_bad hal (decTail al 0 (src.drop n)) (src.take n) dst (by omega) (by omega) with
      ⟨s1, a1, a2⟩ | e
    · rw [a2]
      have hs1 : s1.length = n := by rw [← ht4, a2, text_length]
      obtain ⟨b1, e1, e2, e3⟩ := loop_ok hal (decTail al 0 (src.drop n)) s1 dst a1 (by omega) (by omega)
      rw [e3]
      rcases tail_bad hal (src.drop n) (dst.drop b1.length) (by omega) (by omega) with ⟨s2, c1, c2⟩ | ⟨f, e⟩
      · exfalso
        apply hbad
        have hl2 : s2.length = src.length % 4 := by rw [← hd4, c2, text_length]
        refine ⟨s1 ++ s2, ⟨?_, ?_⟩, ?_⟩
        · intro s hs
          rcases List.mem_append.1 hs with h | h
          · exact a1 s h
          · exact c1 s h
        · rw [List.length_append]; omega
        · rw [show pads 0 _ = [] from if_pos rfl, List.append_nil, text_append, ← a2, ← c2,
            List.take_append_drop]
      · rw [e]; exact ⟨f, rfl⟩
    · rw [e]; exact ⟨_, rfl⟩
  · simp only [if_neg hp]
    unfold decode_len at hlen
    rw [if_pos hp] at hlen
    by_cases h0 : src.length % 4 = 0
    swap
    · rw [if_pos h0] at hlen; exact absurd hlen (by simp)
    rw [if_neg (by omega), Except.ok.injEq] at hlen
    have hpos : 0 < src.length := List.length_pos_iff.2 hnil
    have hpads : ∀ n, pads p n = List.replicate ((4 - n % 4) % 4) p := fun n => if_neg hp
    by_cases hxp : x = p
    · rw [if_pos hxp]
      subst hxp
      generalize hn : src.length - 4 = n at *
      have ht4 : (src.take n).length = n := by rw [List.length_take]; omega
      obtain ⟨x0, x1, x2, hq⟩ : ∃ x0 x1 x2, src.drop n = [x0, x1, x2, x] := by
        have hl : (src.drop n).length = 4 := by rw [List.length_drop]; omega
        have hlast : (src.drop n).getLast? = some x := by
          rw [List.getLast?_drop, if_neg (by omega)]; exact hx
        match src.drop n, hl, hlast with
        | [a, b, c, d], _, h =>
          simp at h
          exact ⟨a, b, c, by rw [h]⟩
      rw [hq]
      rcases loop_bad hal (decTail al x [x0, x1, x2, x]) (src.take n) dst (by omega) (by omega) with
        ⟨s1, a1, a2⟩ | e
      · rw [a2]
        have hs1 : s1.length = n := by rw [← ht4, a2, text_length]
        obtain ⟨b1, e1, e2, e3⟩ := loop_ok hal (decTail al x [x0, x1, x2, x]) s1 dst a1 (by omega) (by omega)
        rw [e3]
        have hsrc : src = text al s1 ++ [x0, x1, x2, x] := by
          rw [← a2, ← hq, List.take_append_drop]
        rcases tail_padbad hal x hp x0 x1 x2 (dst.drop b1.length) with
          ⟨i0, p0, i1, p1, e⟩ | ⟨i0, p0, i1, p1, i2, p2, e⟩ | ⟨f, e⟩
        · exfalso
          apply hbad
          refine ⟨s1 ++ [i0, i1], ⟨?_, ?_⟩, ?_⟩
          · intro s hs
            rcases List.mem_append.1 hs with h | h
            · exact a1 s h
            · simp at h; rcases h with rfl | rfl <;> assumption
          · rw [List.length_append]; simp; omega
          · rw [hsrc, e, text_append, hpads, List.length_append, List.append_assoc]
            have : (4 - (s1.length + [i0, i1].length) % 4) % 4 = 2 := by simp; omega
            rw [this]; rfl
        · exfalso
          apply hbad
          refine ⟨s1 ++ [i0, i1, i2], ⟨?_, ?_⟩, ?_⟩
          · intro s hs
            rcases List.mem_append.1 hs with h | h
            · exact a1 s h
            · simp at h; rcases h with rfl | rfl | rfl <;> assumption
          · rw [List.length_append]; simp; omega
          · rw [hsrc, e, text_append, hpads, List.length_append, List.append_assoc]
            have : (4 - (s1.length + [i0, i1, i2].length) % 4) % 4 = 1 := by simp; omega
            rw [this]; rfl
        · rw [e]; exact ⟨f, rfl⟩
      · rw [e]; exact ⟨_, rfl⟩
    · rw [if_neg hxp]
      rcases loop_bad hal (decTail al p (src.drop (src.length - 4))) src dst (by omega) (by omega) with
        ⟨s1, a1, a2⟩ | e
      · exfalso
        apply hbad
        have hl : s1.length = src.length := by rw [a2, text_length]
        refine ⟨s1, ⟨a1, by omega⟩, ?_⟩
        rw [hpads, hl, h0]
        simpa using a2
      · rw [e]; exact ⟨_, rfl⟩

end C3.Base64
