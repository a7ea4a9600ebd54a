import Verif.DString.Spec

set_option autoImplicit false

namespace C3.DString
open Spec

/-! ## Memory -/

theorem put_some (buf : List Byte) (i : Nat) (l : List Byte) (h : i + l.length ≤ buf.length) :
    put buf i l = some (buf.take i ++ (l ++ buf.drop (i + l.length))) := if_pos h

theorem slice_some (buf : List Byte) (i n : Nat) (h : i + n ≤ buf.length) :
    slice buf i n = some ((buf.drop i).take n) := if_pos h

theorem put_length (buf b : List Byte) (i : Nat) (l : List Byte) (h : put buf i l = some b) : b.length = buf.length := by
  unfold put at h
  split at h
  · cases h
    simp only [List.length_append, List.length_take, List.length_drop]
    omega
  · cases h

theorem take_put (buf : List Byte) (i : Nat) (l : List Byte) (h : i + l.length ≤ buf.length) :
    (buf.take i ++ (l ++ buf.drop (i + l.length))).take (i + l.length) = buf.take i ++ l := by
  rw [← List.append_assoc]
  exact List.take_left' (by simp only [List.length_append, List.length_take]; omega)

/-- Moving the end away and writing in between. -/
theorem insert_core (buf str : List Byte) (len index : Nat) (hi : index ≤ len) (hl : len + str.length ≤ buf.length) :
    ∃ l b b', slice buf index (len - index) = some l ∧ put buf (index + str.length) l = some b ∧
      put b index str = some b' ∧ b'.length = buf.length ∧
      b'.take (len + str.length) = (buf.take len).take index ++ (str ++ (buf.take len).drop index) := by
  have hL : ((buf.drop index).take (len - index)).length = len - index := by
    simp only [List.length_take, List.length_drop]; omega
  have hA : (buf.take (index + str.length)).length = index + str.length := by
    simp only [List.length_take]; omega
  have e1 := slice_some buf index (len - index) (by omega)
  have e2 := put_some buf (index + str.length) ((buf.drop index).take (len - index)) (by rw [hL]; omega)
  have hb := put_length _ _ _ _ e2
  have e3 := put_some _ index str (show index + str.length ≤ _ by rw [hb]; omega)
  refine ⟨_, _, _, e1, e2, e3, (put_length _ _ _ _ e3).trans hb, ?_⟩
  have t1 : (buf.take (index + str.length) ++ ((buf.drop index).take (len - index) ++
      buf.drop (index + str.length + ((buf.drop index).take (len - index)).length))).take index = buf.take index := by
    rw [List.take_append_of_le_length (by omega), List.take_take, Nat.min_eq_left (Nat.le_add_right _ _)]
  have hI : (buf.take index).length = index := by simp only [List.length_take]; omega
  rw [List.drop_left' hA, t1, ← List.append_assoc, ← List.append_assoc,
    List.take_left' (by simp only [List.length_append, hL, hI]; omega), List.append_assoc, List.take_take,
    Nat.min_eq_left hi, List.drop_take]

/-! ## Growing -/

theorem grow_le (n : Nat) : ∀ c len, c ≤ grow n c len := by
  induction n with
  | zero => intro c len; exact Nat.le_refl _
  | succ n ih =>
    intro c len
    rw [grow]
    split
    · exact Nat.le_trans (by omega) (ih (c * 2) len)
    · exact Nat.le_refl _

theorem grow_ge (n : Nat) : ∀ c len, len ≤ c * 2 ^ n → len ≤ grow n c len := by
  induction n with
  | zero => intro c len h; simpa [grow] using h
  | succ n ih =>
    intro c len h
    rw [grow]
    split
    · exact ih _ _ (by rw [Nat.pow_succ] at h; rw [Nat.mul_assoc, Nat.mul_comm 2]; exact h)
    · omega

theorem reserve_spec (junk : Byte) (s : Str) (n : Nat) (h : Valid s) :
    (reserve junk s n).len = len s ∧ len s + n ≤ (reserve junk s n).buf.length ∧
      (reserve junk s n).buf.take (len s) = view s := by
  cases s with
  | none =>
    refine ⟨rfl, ?_, rfl⟩
    simp only [reserve, withCapacity, len, List.length_replicate]
    split <;> omega
  | some d =>
    have hd : d.len ≤ d.buf.length := h
    by_cases hc : d.buf.length ≥ d.len + n
    · have : reserve junk (some d) n = d := if_pos hc
      rw [this]
      exact ⟨rfl, hc, rfl⟩
    · have e : reserve junk (some d) n = ⟨d.owner, d.len, d.buf ++ List.replicate
            (grow (d.len + n) (if d.buf.length * 2 < 16 then 16 else d.buf.length * 2) (d.len + n) - d.buf.length) junk⟩ :=
        if_neg hc
      rw [e]
      refine ⟨rfl, ?_, List.take_append_of_le_length hd⟩
      simp only [len, List.length_append, List.length_replicate]
      have h16 : 1 ≤ (if d.buf.length * 2 < 16 then 16 else d.buf.length * 2) := by split <;> omega
      have := grow_ge (d.len + n) (if d.buf.length * 2 < 16 then 16 else d.buf.length * 2) (d.len + n)
        (Nat.le_trans (Nat.le_of_lt Nat.lt_two_pow_self) (Nat.le_mul_of_pos_left _ h16))
      omega

theorem view_length (s : Str) (h : Valid s) : (view s).length = len s := by
  cases s with
  | none => rfl
  | some d =>
    have hd : d.len ≤ d.buf.length := h
    simp only [view, len, List.length_take]; omega

/-! ## Appending -/

/-- The write behind the end. -/
theorem append_core (d : Data) (l : List Byte) (h : d.len + l.length ≤ d.buf.length) :
    ∃ b, put d.buf d.len l = some b ∧ Valid (some { d with buf := b, len := d.len + l.length }) ∧
      view (some { d with buf := b, len := d.len + l.length }) = d.buf.take d.len ++ l := by
  have e := put_some d.buf d.len l h
  refine ⟨_, e, ?_, take_put _ _ _ h⟩
  show d.len + l.length ≤ List.length _
  rw [put_length _ _ _ _ e]; exact h

theorem new_spec (junk : Byte) (owner : Nat) (l : List Byte) :
    ∃ d, new junk owner l = some d ∧ Valid (some d) ∧ view (some d) = l ∧ d.owner = owner := by
  unfold new
  by_cases h : l.length = 0
  · simp only [h, if_true]
    exact ⟨_, rfl, Nat.zero_le _, (List.eq_nil_of_length_eq_zero h).symm, rfl⟩
  · simp only [if_neg h]
    have hl : 0 + l.length ≤ (withCapacity junk owner l.length).buf.length := by
      simp only [withCapacity, List.length_replicate]; split <;> omega
    obtain ⟨b, e, hv, hw⟩ := append_core ⟨owner, 0, (withCapacity junk owner l.length).buf⟩ l hl
    rw [show put (withCapacity junk owner l.length).buf 0 l = some b from e]
    refine ⟨_, rfl, ?_, ?_, rfl⟩
    · simpa [Valid, Nat.zero_add] using hv
    · simpa [view, Nat.zero_add] using hw

theorem appendChars_spec (junk : Byte) (s : Str) (l : List Byte) (h : Valid s) :
    ∃ t, appendChars junk s l = some t ∧ Valid t ∧ view t = view s ++ l := by
  unfold appendChars
  by_cases hl : l.length = 0
  · rw [if_pos hl, List.eq_nil_of_length_eq_zero hl]
    exact ⟨s, rfl, h, (List.append_nil _).symm⟩
  · rw [if_neg hl]
    cases s with
    | none =>
      obtain ⟨d, e, hv, hw, _⟩ := new_spec junk tmem l
      simp only [e, Option.map_some]
      exact ⟨_, rfl, hv, hw⟩
    | some d =>
      obtain ⟨r1, r2, r3⟩ := reserve_spec junk (some d) l.length h
      obtain ⟨b, e, hv, hw⟩ := append_core (reserve junk (some d) l.length) l (by rw [r1]; exact r2)
      simp only [e]
      refine ⟨_, rfl, hv, ?_⟩
      rw [hw, r1, r3]

theorem appendChar_spec (junk : Byte) (s : Str) (c : Byte) (h : Valid s) :
    ∃ t, appendChar junk s c = some t ∧ Valid t ∧ view t = view s ++ [c] := by
  have key : ∀ d : Data, Valid (some d) → ∃ t, appendChar junk (some d) c = some t ∧ Valid t ∧
      view t = view (some d) ++ [c] := by
    intro d h
    unfold appendChar
    obtain ⟨r1, r2, r3⟩ := reserve_spec junk (some d) 1 h
    obtain ⟨b, e, hv, hw⟩ := append_core (reserve junk (some d) 1) [c] (by rw [r1]; exact r2)
    simp only [e]
    refine ⟨_, rfl, hv, ?_⟩
    exact hw.trans (by rw [r1, r3])
  cases s with
  | none => exact key (withCapacity junk tmem 16) (Nat.zero_le _)
  | some d => exact key d h

theorem repeatLoop_spec (c : Byte) (n : Nat) : ∀ d : Data, d.len + n ≤ d.buf.length →
    ∃ t, repeatLoop c n d = some t ∧ Valid (some t) ∧ view (some t) = view (some d) ++ List.replicate n c := by
  induction n with
  | zero => intro d h; exact ⟨d, rfl, h, (List.append_nil _).symm⟩
  | succ n ih =>
    intro d h
    obtain ⟨b, e, hv, hw⟩ := append_core d [c] (show d.len + 1 ≤ _ by omega)
    have hb := put_length _ _ _ _ e
    obtain ⟨t, e', hv', hw'⟩ := ih { d with buf := b, len := d.len + 1 } (by simp only; omega)
    refine ⟨t, ?_, hv', ?_⟩
    · rw [repeatLoop, e]; exact e'
    · rw [hw']
      rw [show view (some { d with buf := b, len := d.len + 1 }) = d.buf.take d.len ++ [c] from hw,
        List.append_assoc, List.replicate_succ]
      rfl

end C3.DString
