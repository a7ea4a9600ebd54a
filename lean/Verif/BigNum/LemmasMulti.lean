import Verif.BigNum.PropsShift

set_option autoImplicit false

namespace C3.BigNum

/-- The leading zeros. -/
theorem leading_spec (v n : Nat) (h : v < 2 ^ n) (h0 : v ≠ 0) :
    leading v n < n ∧ (v + 1) * 2 ^ leading v n ≤ 2 ^ n := by
  induction n with
  | zero => simp at h; omega
  | succ n ih =>
    rw [leading]
    rw [Nat.pow_succ] at h
    by_cases hb : (v &&& 2 ^ n) = 0
    · rw [if_pos hb]
      have hlt : v < 2 ^ n := by
        have ht := congrArg (fun u => Nat.testBit u n) hb
        simp only [Nat.testBit_and, Nat.testBit_two_pow_self, Bool.and_true, Nat.zero_testBit] at ht
        rw [Nat.testBit_eq_decide_div_mod_eq, decide_eq_false_iff_not] at ht
        have hd : v / 2 ^ n < 2 := Nat.div_lt_of_lt_mul h
        have hd0 : v / 2 ^ n = 0 := by
          generalize v / 2 ^ n = q at *
          omega
        rcases Nat.div_eq_zero_iff.1 hd0 with h1 | h1
        · have : 0 < 2 ^ n := Nat.pow_pos (by decide)
          omega
        · exact h1
      obtain ⟨i1, i2⟩ := ih hlt
      refine ⟨by omega, ?_⟩
      rw [Nat.pow_succ, Nat.pow_succ, ← Nat.mul_assoc]
      exact Nat.mul_le_mul_right 2 i2
    · rw [if_neg hb]
      refine ⟨by omega, ?_⟩
      rw [Nat.pow_zero, Nat.pow_succ]
      omega

/-- A shift of less than a word that has no carry. -/
theorem shl_nocarry (len L s : Nat) (data : List Nat) (hs : s < 32) (hl : L ≤ data.length)
    (hsm : ∀ w ∈ data, w < 2 ^ 32) (h : value (data.take L) * 2 ^ s < span L) :
    (shlLoop len s data L).2 = L ∧ (shlLoop len s data L).1.length = data.length ∧
    (∀ w ∈ (shlLoop len s data L).1, w < 2 ^ 32) ∧ (shlLoop len s data L).1.drop L = data.drop L ∧
    value ((shlLoop len s data L).1.take L) = value (data.take L) * 2 ^ s := by
  cases s with
  | zero =>
    rw [shlLoop]
    exact ⟨rfl, rfl, hsm, rfl, by simp⟩
  | succ s =>
    obtain ⟨p1, p2, p3, p4, p5⟩ := shlPass_spec (s + 1) L 0 data (by omega)
      (Nat.pow_pos (by decide)) hl hsm
    rw [shlLoop, show min (s + 1) 32 = s + 1 by omega]
    generalize shlPass (s + 1) L 0 data = P at *
    have hc : P.2 = 0 := by
      rcases Nat.eq_zero_or_pos P.2 with h0 | h0
      · exact h0
      · have := Nat.le_mul_of_pos_right (span L) h0
        omega
    have hst : shlStore len L P = (P.1, L) := by
      unfold shlStore
      rw [if_neg (by omega)]
    rw [hst, Nat.sub_self, shlLoop]
    rw [hc] at p5
    exact ⟨rfl, p1, p2, p3, by omega⟩

/-- One pass of a shift to the right, from the highest word on; `h` is what is
left of the word before. -/
theorem shrPass_spec (s c h : Nat) (ws : List Nat) (hs : s < 32) (hh : h < 2 ^ s)
    (hc : c % 2 ^ 32 = h * 2 ^ (32 - s)) (hsm : ∀ w ∈ ws, w < 2 ^ 32) :
    (shrPass s (32 - s) c ws).length = ws.length ∧
    (∀ w ∈ shrPass s (32 - s) c ws, w < 2 ^ 32) ∧
    value (shrPass s (32 - s) c ws).reverse = (h * span ws.length + value ws.reverse) / 2 ^ s := by
  induction ws generalizing c h with
  | nil =>
    rw [shrPass]
    refine ⟨rfl, by simp, ?_⟩
    simp only [List.reverse_nil, value, List.length_nil, span, Nat.pow_zero, Nat.mul_one, Nat.add_zero]
    rw [Nat.div_eq_of_lt hh]
  | cons w ws ih =>
    have hw := hsm w (List.mem_cons_self ..)
    have h32 : (2 : Nat) ^ s * 2 ^ (32 - s) = 2 ^ 32 := by
      rw [← Nat.pow_add]; congr 1; omega
    have hp : 0 < (2 : Nat) ^ s := Nat.pow_pos (by decide)
    have hq : w / 2 ^ s < 2 ^ (32 - s) := Nat.div_lt_of_lt_mul (by rw [h32]; exact hw)
    have hr := Nat.mod_lt w hp
    have hword : ((w / 2 ^ s) ||| c) % 2 ^ 32 = w / 2 ^ s + h * 2 ^ (32 - s) := by
      rw [Nat.or_mod_two_pow, hc, Nat.mod_eq_of_lt (by
        have : 2 ^ (32 - s) ≤ 2 ^ 32 := Nat.pow_le_pow_right (by decide) (by omega)
        omega), Nat.or_comm, Nat.mul_comm h, ← Nat.two_pow_add_eq_or_of_lt hq, Nat.add_comm]
    have hc' : w * 2 ^ (32 - s) % 2 ^ 64 % 2 ^ 32 = w % 2 ^ s * 2 ^ (32 - s) := by
      rw [Nat.mod_mod_of_dvd _ (by decide : (2 : Nat) ^ 32 ∣ 2 ^ 64)]
      rw [← Nat.div_add_mod w (2 ^ s)]
      rw [Nat.add_mul, Nat.mul_comm (2 ^ s), Nat.mul_assoc, h32, Nat.add_comm, Nat.add_mul_mod_self_right,
        Nat.mod_eq_of_lt (by
          rw [← h32]
          exact Nat.mul_lt_mul_of_pos_right hr (Nat.pow_pos (by decide)))]
      simp [Nat.add_mod]
    obtain ⟨i1, i2, i3⟩ := ih (w * 2 ^ (32 - s) % 2 ^ 64) (w % 2 ^ s) hr hc'
      (fun v hv => hsm v (List.mem_cons_of_mem _ hv))
    rw [shrPass, hword]
    refine ⟨by simpa using i1, ?_, ?_⟩
    · intro v hv
      rcases List.mem_cons.1 hv with rfl | hv
      · have : (h + 1) * 2 ^ (32 - s) ≤ 2 ^ s * 2 ^ (32 - s) := Nat.mul_le_mul_right _ hh
        rw [h32, Nat.add_mul] at this
        omega
      · exact i2 v hv
    · rw [List.reverse_cons, value_append, List.length_reverse, i1, i3, List.reverse_cons, value_append,
        List.length_reverse, List.length_cons, span_succ]
      simp only [value, Nat.mul_zero, Nat.add_zero]
      have hdm := Nat.div_add_mod w (2 ^ s)
      have e : h * (2 ^ 32 * span ws.length) + (value ws.reverse + span ws.length * w) =
          2 ^ s * (span ws.length * (w / 2 ^ s + h * 2 ^ (32 - s))) +
            (w % 2 ^ s * span ws.length + value ws.reverse) := by
        conv => lhs; rw [← hdm, ← h32]
        ring
      rw [e, Nat.mul_add_div hp, Nat.add_comm]

theorem drop_eq_zeros {N : Nat} {a : Big} (h : Valid N a) :
    a.data.drop a.len = List.replicate (N - a.len) 0 := by
  rw [List.eq_replicate_iff]
  exact ⟨by rw [List.length_drop, h.size], h.high⟩

theorem take_pad {N : Nat} {a : Big} (h : Valid N a) :
    a.data.take a.len ++ List.replicate (N - a.len) 0 = a.data := by
  rw [← drop_eq_zeros h, List.take_append_drop]

/-- The shift of the dividend. -/
theorem shiftLeft_dividend {N : Nat} {a : Big} (ha : Canon N a) (hN : a.len < N) (s : Nat) (hs : s < 32)
    (h : value a.data * 2 ^ s < span a.len) :
    ∃ out, shiftLeft a.data (a.len + 1) s = (out, a.len) ∧ out.length = N ∧ (∀ w ∈ out, w < 2 ^ 32) ∧
      (∀ w ∈ out.drop a.len, w = 0) ∧ value out = value a.data * 2 ^ s := by
  have hsz := ha.size
  have hfl : findLength a.data (a.len + 1) = a.len := by
    rw [findLength, if_pos, findLength_self ha]
    refine ⟨by have := ha.pos; omega, ?_⟩
    apply ha.high
    rw [getD_get _ _ (by omega), List.mem_iff_getElem]
    exact ⟨0, by rw [List.length_drop]; omega, by rw [List.getElem_drop]; rfl⟩
  obtain ⟨i1, i2, i3, i4, i5⟩ := shl_nocarry (a.len + 1) a.len s a.data hs (by omega) ha.small
    (by rw [take_value ha.toValid]; exact h)
  unfold shiftLeft
  rw [hfl, Int.toNat_natCast]
  refine ⟨(shlLoop (a.len + 1) s a.data a.len).1, ?_, by omega, i3, ?_, ?_⟩
  · exact Prod.ext rfl i1
  · rw [i4]; exact ha.high
  · rw [← value_take _ a.len (by omega) (by rw [i4]; exact ha.high), i5, take_value ha.toValid]

theorem canon_of {N : Nat} {d : List Nat} {len : Nat} (hl : d.length = N) (hs : ∀ w ∈ d, w < 2 ^ 32)
    (hp : 1 ≤ len) (hle : len ≤ N) (hz : ∀ w ∈ d.drop len, w = 0)
    (h : len = 1 ∨ span (len - 1) ≤ value d) : Canon N ⟨d, len⟩ :=
  { size := hl, small := hs, pos := hp, le := hle, high := hz,
    top := h.imp id (top_ne hl hs hp hle hz) }

theorem Canon.one_or_ge {N : Nat} {a : Big} (h : Canon N a) :
    a.len = 1 ∨ span (a.len - 1) ≤ value a.data := by
  by_cases h0 : value a.data = 0
  · left
    rcases h.top with h1 | h1
    · exact h1
    · refine absurd (zeros_of_value _ h0 _ (getD_mem _ _ ?_)) h1
      have := h.size
      have := h.le
      have := h.pos
      omega
  · exact Or.inr (h.ge h0)

/-- A shift to the right by less than a word. -/
theorem shiftRight_small {N : Nat} {d : List Nat} {len : Nat} (h : Canon N ⟨d, len⟩) (s : Nat) (hs : s < 32) :
    (shiftRight d len s).1.length = N ∧ (∀ w ∈ (shiftRight d len s).1, w < 2 ^ 32) ∧
    (shiftRight d len s).2 = findLength (shiftRight d len s).1 len ∧
    (∀ w ∈ (shiftRight d len s).1.drop len, w = 0) ∧
    value (shiftRight d len s).1 = value d / 2 ^ s := by
  have hsz : d.length = N := h.size
  have hle : len ≤ N := h.le
  have hhi : ∀ w ∈ d.drop len, w = 0 := h.high
  have hsm : ∀ w ∈ d, w < 2 ^ 32 := h.small
  have hf : findLength d len = len := findLength_self h
  unfold shiftRight
  rw [hf, Int.toNat_natCast]
  dsimp only
  cases s with
  | zero =>
    rw [shrLoop]
    exact ⟨hsz, hsm, rfl, hhi, by simp⟩
  | succ s =>
    rw [shrLoop, show min (s + 1) 32 = s + 1 by omega, Nat.sub_self, shrLoop]
    obtain ⟨p1, p2, p3⟩ := shrPass_spec (s + 1) 0 0 (d.take len).reverse hs (Nat.pow_pos (by decide))
      (by simp) (fun w hw => hsm w (List.mem_of_mem_take (List.mem_reverse.1 hw)))
    generalize shrPass (s + 1) (32 - (s + 1)) 0 (d.take len).reverse = P at *
    have hlen : P.reverse.length = len := by
      rw [List.length_reverse, p1, List.length_reverse, List.length_take]; omega
    have hdr : (P.reverse ++ d.drop len).drop len = d.drop len := by
      exact List.drop_left' hlen
    refine ⟨?_, ?_, rfl, ?_, ?_⟩
    · rw [List.length_append, hlen, List.length_drop]; omega
    · intro w hw
      rcases List.mem_append.1 hw with hw | hw
      · exact p2 w (List.mem_reverse.1 hw)
      · exact hsm w (List.mem_of_mem_drop hw)
    · rw [hdr]; exact hhi
    · rw [value_append, value_zeros _ hhi, Nat.mul_zero, Nat.add_zero, p3, List.reverse_reverse,
        Nat.zero_mul, Nat.zero_add, value_take _ _ (by omega) hhi]

/-- A dividend that after the shift has no more words than the divisor: the
quotient is zero, and the remainder is the dividend. -/
theorem multiDivide_short {N : Nat} {a b : Big} (ha : Canon N a) (hb : Canon N b)
    (hN : a.len < N) (hle : a.len ≤ b.len) (hb0 : b.word (b.len - 1) ≠ 0)
    (h : value a.data * 2 ^ leading (b.word (b.len - 1)) 32 < span a.len) :
    multiDivide N a b = some (zero N, a) := by
  have hbs := hb.size
  have hbl := hb.le
  have hbp := hb.pos
  obtain ⟨hl, -⟩ := leading_spec (b.word (b.len - 1)) 32 (hb.small _ (getD_mem _ _ (by omega))) hb0
  unfold multiDivide
  rw [if_neg (by omega)]
  generalize leading (b.word (b.len - 1)) 32 = s at *
  obtain ⟨out, o1, o2, o3, o4, o5⟩ := shiftLeft_dividend ha hN s hl h
  obtain ⟨v1, v2, v3⟩ := C85_shl_words N b hb s
  dsimp only
  rw [take_pad ha.toValid, o1, v2]
  dsimp only
  rw [show a.len - b.len = 0 by omega, multiLoop]
  have hco : Canon N ⟨out, a.len⟩ := canon_of o2 o3 ha.pos ha.le o4 (by
    rcases ha.one_or_ge with h1 | h1
    · exact Or.inl h1
    · right
      rw [o5]
      exact Nat.le_trans h1 (Nat.le_mul_of_pos_right _ (Nat.pow_pos (by decide))))
  obtain ⟨r1, r2, r3, r4, r5⟩ := shiftRight_small hco s hl
  show some ((⟨List.replicate N 0, 0⟩ : Big).reduceLen,
    (⟨(shiftRight out a.len s).1.take (shiftRight out a.len s).2 ++
      List.replicate (N - (shiftRight out a.len s).2) 0, (shiftRight out a.len s).2⟩ : Big)) = _
  generalize shiftRight out a.len s = R at *
  rw [o5, Nat.mul_div_cancel _ (Nat.pow_pos (by decide))] at r5
  have hR : Canon N ⟨R.1, a.len⟩ := canon_of r1 r2 ha.pos ha.le r4 (by rw [r5]; exact ha.one_or_ge)
  have hRa : (⟨R.1, a.len⟩ : Big) = a := hR.ext ha r5
  have hd : R.1 = a.data := congrArg Big.data hRa
  have hlen : R.2 = a.len := by
    rw [r3, hd, findLength_self ha]
  rw [hd, hlen, take_pad ha.toValid]
  rfl

end C3.BigNum
