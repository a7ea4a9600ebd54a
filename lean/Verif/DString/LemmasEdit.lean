import Verif.DString.Lemmas

set_option autoImplicit false

namespace C3.DString
open Spec

/-! ## Deleting -/

theorem delete_spec (s : Str) (start n : Nat) (h : Valid s) (hs : start + n ≤ len s) :
    ∃ t, delete s start n = some t ∧ Valid t ∧ view t = (view s).take start ++ (view s).drop (start + n) := by
  unfold delete
  by_cases hn : n = 0
  · subst hn
    rw [if_pos rfl]
    exact ⟨s, rfl, h, (List.take_append_drop _ _).symm⟩
  · rw [if_neg hn]
    cases s with
    | none => simp only [len] at hs; omega
    | some d =>
      have hd : d.len ≤ d.buf.length := h
      have hs : start + n ≤ d.len := hs
      have v1 : (view (some d)).take start = d.buf.take start := by
        simp only [view, List.take_take]; rw [Nat.min_eq_left (by omega)]
      have v2 : (view (some d)).drop (start + n) = (d.buf.drop (start + n)).take (d.len - start - n) := by
        simp only [view, List.drop_take]; rw [Nat.sub_sub]
      rw [v1, v2]
      simp only
      by_cases h0 : d.len - n = 0
      · rw [if_pos h0]
        refine ⟨_, rfl, Nat.zero_le _, ?_⟩
        rw [show start = 0 by omega, show d.len - 0 - n = 0 by omega]
        rfl
      · rw [if_neg h0]
        by_cases ha : d.len - start - n > 0
        · rw [if_pos ha]
          have e1 := slice_some d.buf (start + n) (d.len - start - n) (by omega)
          have hL : ((d.buf.drop (start + n)).take (d.len - start - n)).length = d.len - start - n := by
            simp only [List.length_take, List.length_drop]; omega
          have hle : start + ((d.buf.drop (start + n)).take (d.len - start - n)).length ≤ d.buf.length := by
            rw [hL]; omega
          have e2 := put_some d.buf start _ hle
          simp only [e1, e2]
          refine ⟨_, rfl, ?_, ?_⟩
          · show d.len - n ≤ List.length _
            rw [put_length _ _ _ _ e2]; omega
          · have := take_put d.buf start _ hle
            rw [hL, show start + (d.len - start - n) = d.len - n by omega] at this
            simp only [view, hL]
            rw [show start + (d.len - start - n) = d.len - n by omega]
            exact this
        · rw [if_neg ha]
          refine ⟨_, rfl, ?_, ?_⟩
          · show d.len - n ≤ d.buf.length
            omega
          · rw [show d.len - start - n = 0 by omega, List.take_zero, List.append_nil]
            simp only [view]
            rw [show d.len - n = start by omega]

/-! ## Inserting -/

theorem insertChars_spec (junk : Byte) (s : Str) (index : Nat) (str : List Byte) (h : Valid s) (hi : index ≤ len s) :
    ∃ t, insertChars junk s index str = some t ∧ Valid t ∧
      view t = (view s).take index ++ (str ++ (view s).drop index) := by
  unfold insertChars
  by_cases hl : str.length = 0
  · rw [if_pos hl, List.eq_nil_of_length_eq_zero hl]
    exact ⟨s, rfl, h, (List.take_append_drop _ _).symm⟩
  · rw [if_neg hl]
    obtain ⟨r1, r2, r3⟩ := reserve_spec junk s str.length h
    obtain ⟨l, b, b', e1, e2, e3, e4, e5⟩ := insert_core (reserve junk s str.length).buf str (len s) index hi r2
    simp only [r1, Nat.min_eq_left hi, e1, e2, e3, Option.bind_eq_bind, Option.bind_some]
    refine ⟨_, rfl, ?_, ?_⟩
    · show len s + str.length ≤ b'.length
      omega
    · rw [r3] at e5; exact e5

theorem insertChar_spec (junk : Byte) (s : Str) (index : Nat) (c : Byte) (h : Valid s) (hi : index ≤ len s) :
    ∃ t, insertChar junk s index c = some t ∧ Valid t ∧ view t = (view s).take index ++ (c :: (view s).drop index) := by
  unfold insertChar
  obtain ⟨r1, r2, r3⟩ := reserve_spec junk s 1 h
  obtain ⟨l, b, b', e1, e2, e3, e4, e5⟩ := insert_core (reserve junk s 1).buf [c] (len s) index hi r2
  rw [show [c].length = 1 from rfl] at e2 e5
  simp only [r1, e1, e2, e3, Option.bind_eq_bind, Option.bind_some]
  refine ⟨_, rfl, ?_, ?_⟩
  · show len s + 1 ≤ b'.length
    omega
  · rw [r3] at e5; exact e5

/-- The loop that copies from the last to the first byte is a move, if the source does not lie behind. -/
theorem copyDown_eq (index p : Nat) (hp : p ≤ index) (n : Nat) : ∀ b : List Byte, index + n ≤ b.length →
    copyDown index p n b = put b index ((b.drop p).take n) := by
  induction n with
  | zero =>
    intro b h
    rw [List.take_zero, put_some b index [] (by simpa using h)]
    simp [copyDown]
  | succ n ih =>
    intro b h
    have hc : p + n < b.length := by omega
    have e1 := put_some b (index + n) [b[p + n]] (by simp only [List.length_cons, List.length_nil]; omega)
    rw [copyDown, List.getElem?_eq_getElem hc]
    simp only [e1]
    have hl := put_length _ _ _ _ e1
    rw [ih _ (by rw [hl]; omega)]
    have hA : (b.take (index + n)).length = index + n := by simp only [List.length_take]; omega
    have d1 : ((b.take (index + n) ++ ([b[p + n]] ++ b.drop (index + n + [b[p + n]].length))).drop p).take n =
        (b.drop p).take n := by
      rw [List.drop_append_of_le_length (by omega), List.take_append_of_le_length (by simp only [List.length_drop]; omega),
        List.drop_take, List.take_take, Nat.min_eq_left (by omega)]
    have hX : ((b.drop p).take n).length = n := by simp only [List.length_take, List.length_drop]; omega
    have hX' : ((b.drop p).take (n + 1)).length = n + 1 := by simp only [List.length_take, List.length_drop]; omega
    have hs : (b.drop p).take (n + 1) = (b.drop p).take n ++ [b[p + n]] := by
      rw [List.take_succ_eq_append_getElem (by simp only [List.length_drop]; omega), List.getElem_drop]
    rw [d1, put_some _ index _ (by rw [hl, hX]; omega), put_some b index _ (by rw [hX']; omega), hX, hX',
      List.drop_left' hA, List.take_append_of_le_length (by omega), List.take_take, Nat.min_eq_left (by omega), hs]
    simp [Nat.add_assoc]

theorem insertSelf_spec (d : Data) (index p n : Nat) (hp : 0 < p) (hn : p + n ≤ d.len)
    (hi : index ≤ d.len) (hroom : d.len + n ≤ d.buf.length) :
    ∃ t, insertSelf (some d) index p n = some t ∧ Valid t ∧
      view t = (view (some d)).take index ++ (((view (some d)).drop p).take n ++ (view (some d)).drop index) := by
  unfold insertSelf
  by_cases hz : n = 0
  · subst hz
    rw [if_pos rfl]
    refine ⟨_, rfl, ?_, by simp⟩
    show d.len ≤ d.buf.length
    omega
  · have hstr : ((view (some d)).drop p).take n = (d.buf.drop p).take n := by
      simp only [view, List.drop_take, List.take_take]; rw [Nat.min_eq_left (by omega)]
    have hlen : ((d.buf.drop p).take n).length = n := by simp only [List.length_take, List.length_drop]; omega
    obtain ⟨l, b, b', e1, e2, e3, e4, e5⟩ := insert_core d.buf ((d.buf.drop p).take n) d.len index hi (by rw [hlen]; exact hroom)
    rw [hlen] at e2 e5
    have hb := put_length _ _ _ _ e2
    have hl : l = (d.buf.drop index).take (d.len - index) := by
      rw [slice_some _ _ _ (by omega)] at e1; exact (Option.some.inj e1).symm
    have hll : l.length = d.len - index := by rw [hl]; simp only [List.length_take, List.length_drop]; omega
    have hbe : b = d.buf.take (index + n) ++ (l ++ d.buf.drop (index + n + l.length)) := by
      rw [put_some _ _ _ (by rw [hll]; omega)] at e2; exact (Option.some.inj e2).symm
    have hA : (d.buf.take (index + n)).length = index + n := by simp only [List.length_take]; omega
    -- below the index nothing has moved
    have low : p ≤ index → (b.drop p).take n = (d.buf.drop p).take n := by
      intro h
      rw [hbe, List.drop_append_of_le_length (by omega), List.take_append_of_le_length (by simp only [List.length_drop]; omega),
        List.drop_take, List.take_take, Nat.min_eq_left (by omega)]
    have goal : Valid (some { d with buf := b', len := d.len + n }) ∧ view (some { d with buf := b', len := d.len + n }) =
        (view (some d)).take index ++ (((view (some d)).drop p).take n ++ (view (some d)).drop index) := by
      refine ⟨?_, ?_⟩
      · show d.len + n ≤ b'.length
        omega
      · rw [hstr]; exact e5
    rw [if_neg hz]
    simp only
    rw [if_neg (by omega), if_neg (by omega)]
    simp only [Nat.min_eq_left hi, e1, e2, Option.bind_eq_bind, Option.bind_some]
    by_cases c1 : p ≤ index ∧ index < p + n
    · rw [if_pos c1, copyDown_eq index p c1.1 n b (by omega), low c1.1, e3]
      exact ⟨_, rfl, goal⟩
    · rw [if_neg c1]
      by_cases c2 : index ≤ p ∧ p < index + d.len
      · rw [if_pos c2, slice_some b (p + n) n (by omega)]
        have : (b.drop (p + n)).take n = (d.buf.drop p).take n := by
          rw [hbe, show p + n = (index + n) + (p - index) by omega, ← List.drop_drop, List.drop_left' hA,
            List.drop_append_of_le_length (by omega), List.take_append_of_le_length (by simp only [List.length_drop]; omega),
            hl, List.drop_take, List.take_take, List.drop_drop, Nat.min_eq_left (by omega),
            show index + (p - index) = p by omega]
        simp only [this, e3, Option.bind_some]
        exact ⟨_, rfl, goal⟩
      · rw [if_neg c2, slice_some b p n (by omega)]
        simp only [low (by omega), e3, Option.bind_some]
        exact ⟨_, rfl, goal⟩

/-! ## Comparing -/

theorem allPairs_spec (p : Byte → Byte → Bool) (a b : List Byte) (n : Nat) : ∀ i, i + n ≤ a.length → i + n ≤ b.length →
    ∃ r, allPairs p n i a b = some r ∧
      (r = true ↔ ∀ j x y, i ≤ j → j < i + n → a[j]? = some x → b[j]? = some y → p x y = true) := by
  induction n with
  | zero => intro i _ _; exact ⟨true, rfl, ⟨fun _ j x y h1 h2 => absurd h2 (by omega), fun _ => rfl⟩⟩
  | succ n ih =>
    intro i ha hb
    have h1 : i < a.length := by omega
    have h2 : i < b.length := by omega
    rw [allPairs, List.getElem?_eq_getElem h1, List.getElem?_eq_getElem h2]
    simp only
    by_cases hp : p a[i] b[i] = true
    · rw [if_pos hp]
      obtain ⟨r, e, hr⟩ := ih (i + 1) (by omega) (by omega)
      refine ⟨r, e, hr.trans ⟨fun h j x y h3 h4 h5 h6 => ?_, fun h j x y h3 h4 => h j x y (by omega) (by omega)⟩⟩
      by_cases hj : j = i
      · subst hj
        rw [List.getElem?_eq_getElem h1] at h5
        rw [List.getElem?_eq_getElem h2] at h6
        cases h5; cases h6; exact hp
      · exact h j x y (by omega) (by omega) h5 h6
    · rw [if_neg hp]
      refine ⟨false, rfl, ⟨fun h => (Bool.false_ne_true h).elim, fun h => absurd (h i _ _ (Nat.le_refl _) (by omega)
        (List.getElem?_eq_getElem h1) (List.getElem?_eq_getElem h2)) hp⟩⟩

theorem equals_spec (a b : Str) (ha : Valid a) (hb : Valid b) : ∃ r, equals a b = some r ∧ (r = true ↔ view a = view b) := by
  have nil : ∀ d : Data, Valid (some d) → ((d.len == 0) = true ↔ view (some d) = []) := by
    intro d hd
    rw [← List.length_eq_zero_iff, view_length _ hd, beq_iff_eq]
    rfl
  cases a with
  | none =>
    cases b with
    | none => exact ⟨true, rfl, ⟨fun _ => rfl, fun _ => rfl⟩⟩
    | some b => exact ⟨_, rfl, (nil b hb).trans ⟨fun h => h.symm, fun h => h.symm⟩⟩
  | some a =>
    cases b with
    | none => exact ⟨_, rfl, nil a ha⟩
    | some b =>
      have ha : a.len ≤ a.buf.length := ha
      have hb : b.len ≤ b.buf.length := hb
      unfold equals
      by_cases hl : a.len = b.len
      · simp only [ne_eq, hl, not_true_eq_false, if_false]
        obtain ⟨r, e, hr⟩ := allPairs_spec (fun x y => x == y) a.buf b.buf b.len 0 (by omega) (by omega)
        refine ⟨r, e, hr.trans ⟨fun h => ?_, fun h j x y _ hj hx hy => ?_⟩⟩
        · apply List.ext_getElem?
          intro j
          simp only [view, hl, List.getElem?_take]
          split
          · rw [List.getElem?_eq_getElem (by omega), List.getElem?_eq_getElem (by omega)]
            have := h j _ _ (Nat.zero_le _) (by omega) (List.getElem?_eq_getElem (by omega)) (List.getElem?_eq_getElem (by omega))
            rw [beq_iff_eq.1 this]
          · rfl
        · have := congrArg (fun l => l[j]?) h
          simp only [view, hl, List.getElem?_take] at this
          rw [if_pos (by omega), if_pos (by omega), hx, hy] at this
          cases this
          simp
      · refine ⟨false, if_pos hl, ⟨fun h => (Bool.false_ne_true h).elim, fun h => absurd ?_ hl⟩⟩
        have := congrArg List.length h
        rw [view_length _ (show Valid (some a) from ha), view_length _ (show Valid (some b) from hb)] at this
        exact this

end C3.DString
