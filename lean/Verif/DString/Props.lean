import Verif.DString.LemmasEdit
import Verif.DString.LemmasReplace

/-! # Properties of the string builder -/

set_option autoImplicit false

namespace C3.DString
open Spec

/-- The bytes of a text. -/
def txt (l : List Char) : List Byte := l.map fun c => BitVec.ofNat 8 c.toNat

/-- A string with 32 bytes of memory. -/
def str (l : List Char) : Str := some ⟨1, l.length, txt l ++ List.replicate (32 - l.length) 0⟩

/-! ## C179: the string is what was put into it -/

theorem C179_append (junk : Byte) (s : Str) (l : List Byte) (h : Valid s) :
    ∃ t, appendChars junk s l = some t ∧ Valid t ∧ view t = view s ++ l := appendChars_spec junk s l h

theorem C179_append_char (junk : Byte) (s : Str) (c : Byte) (h : Valid s) :
    ∃ t, appendChar junk s c = some t ∧ Valid t ∧ view t = view s ++ [c] := appendChar_spec junk s c h

theorem C179_append_repeat (junk : Byte) (s : Str) (c : Byte) (n : Nat) (h : Valid s) :
    ∃ t, appendRepeat junk s c n = some t ∧ Valid t ∧ view t = view s ++ List.replicate n c := by
  unfold appendRepeat
  by_cases hn : n = 0
  · subst hn
    exact ⟨s, rfl, h, (List.append_nil _).symm⟩
  · rw [if_neg hn]
    obtain ⟨r1, r2, r3⟩ := reserve_spec junk s n h
    obtain ⟨t, e, hv, hw⟩ := repeatLoop_spec c n (reserve junk s n) (by rw [r1]; exact r2)
    rw [e]
    refine ⟨_, rfl, hv, ?_⟩
    rw [hw, ← r3, ← r1]
    rfl

theorem C179_insert (junk : Byte) (s : Str) (index : Nat) (l : List Byte) (h : Valid s) (hi : index ≤ len s) :
    ∃ t, insertChars junk s index l = some t ∧ Valid t ∧ view t = (view s).take index ++ (l ++ (view s).drop index) :=
  insertChars_spec junk s index l h hi

theorem C179_insert_char (junk : Byte) (s : Str) (index : Nat) (c : Byte) (h : Valid s) (hi : index ≤ len s) :
    ∃ t, insertChar junk s index c = some t ∧ Valid t ∧ view t = (view s).take index ++ (c :: (view s).drop index) :=
  insertChar_spec junk s index c h hi

theorem C179_delete (s : Str) (start n : Nat) (h : Valid s) (hs : start + n ≤ len s) :
    ∃ t, delete s start n = some t ∧ Valid t ∧ view t = (view s).take start ++ (view s).drop (start + n) :=
  delete_spec s start n h hs

theorem C179_delete_range (s : Str) (start stop : Nat) (h : Valid s) (h1 : start ≤ stop) (h2 : stop < len s) :
    ∃ t, deleteRange s start stop = some t ∧ Valid t ∧ view t = (view s).take start ++ (view s).drop (stop + 1) := by
  have := delete_spec s start (stop - start + 1) h (by omega)
  rwa [show start + (stop - start + 1) = stop + 1 by omega] at this

theorem C179_chop (s : Str) (n : Nat) (h : Valid s) (hn : n ≤ len s) : Valid (chop s n) ∧ view (chop s n) = (view s).take n := by
  cases s with
  | none => exact ⟨trivial, (List.take_nil).symm⟩
  | some d =>
    have h : d.len ≤ d.buf.length := h
    have hn : n ≤ d.len := hn
    refine ⟨Nat.le_trans hn h, ?_⟩
    simp only [chop, view, List.take_take]
    rw [Nat.min_eq_left hn]

theorem C179_concat (junk : Byte) (a b : Str) (owner : Nat) :
    ∃ t, concat junk a b owner = some t ∧ Valid t ∧ view t = view a ++ view b := by
  unfold concat
  obtain ⟨t1, e1, v1, w1⟩ := appendChars_spec junk (some (withCapacity junk owner (len a + len b))) (view a) (Nat.zero_le _)
  obtain ⟨t2, e2, v2, w2⟩ := appendChars_spec junk t1 (view b) v1
  simp only [e1]
  exact ⟨t2, e2, v2, by rw [w2, w1]; rfl⟩

theorem C179_join (junk : Byte) (owner : Nat) (s : List (List Byte)) (joiner : List Byte) :
    ∃ t, join junk owner s joiner = some t ∧ Valid t ∧ view t = joiner.intercalate s := by
  have loop : ∀ (l : List (List Byte)) (s : Str), Valid s → ∃ t, joinLoop junk joiner l s = some t ∧ Valid t ∧
      view t = view s ++ (l.map (joiner ++ ·)).flatten := by
    intro l
    induction l with
    | nil => intro s h; exact ⟨s, rfl, h, (List.append_nil _).symm⟩
    | cons x l ih =>
      intro s h
      obtain ⟨t1, e1, v1, w1⟩ := appendChars_spec junk s joiner h
      obtain ⟨t2, e2, v2, w2⟩ := appendChars_spec junk t1 x v1
      obtain ⟨t, e, v, w⟩ := ih t2 v2
      refine ⟨t, ?_, v, ?_⟩
      · rw [joinLoop]; simp only [e1, e2]; exact e
      · rw [w, w2, w1]; simp
  have inter : ∀ (x : List Byte) (l : List (List Byte)), joiner.intercalate (x :: l) = x ++ (l.map (joiner ++ ·)).flatten := by
    intro x l
    induction l generalizing x with
    | nil => simp [List.intercalate]
    | cons y l ih =>
      have := ih y
      simp only [List.intercalate, List.intersperse_cons_cons, List.flatten_cons] at this ⊢
      rw [this]; simp
  cases s with
  | nil =>
    obtain ⟨d, e, v, w, _⟩ := new_spec junk owner []
    exact ⟨some d, by simp only [join, e]; rfl, v, w⟩
  | cons x l =>
    unfold join
    obtain ⟨t1, e1, v1, w1⟩ := appendChars_spec junk
      (some (withCapacity junk owner (joiner.length * (x :: l).length + ((x :: l).map List.length).sum))) x (Nat.zero_le _)
    obtain ⟨t, e, v, w⟩ := loop l t1 v1
    simp only [e1]
    exact ⟨t, e, v, by rw [w, w1, inter]; rfl⟩

/-- Behind the string for C there is a zero. -/
theorem C179_zstr (junk : Byte) (d : Data) (h : Valid (some d)) :
    ∃ d', zstrView junk (some d) = some (some d') ∧ Valid (some d') ∧ view (some d') = view (some d) ∧
      d'.buf[(view (some d)).length]? = some 0 := by
  have hd : d.len ≤ d.buf.length := h
  have key : ∀ d1 : Data, d1.len = d.len → d1.len + 1 ≤ d1.buf.length → d1.buf.take d1.len = view (some d) →
      ∃ b, put d1.buf d1.len [0] = some b ∧ Valid (some { d1 with buf := b }) ∧
        view (some { d1 with buf := b }) = view (some d) ∧ b[(view (some d)).length]? = some 0 := by
    intro d1 h1 h2 h3
    have e := put_some d1.buf d1.len [0] h2
    have hl : (d1.buf.take d1.len).length = d1.len := by simp only [List.length_take]; omega
    refine ⟨_, e, ?_, ?_, ?_⟩
    · show d1.len ≤ List.length _
      rw [put_length _ _ _ _ e]; omega
    · rw [← h3]; exact List.take_left' hl
    · rw [← h3, List.getElem?_append_right (Nat.le_refl _), Nat.sub_self]; rfl
  unfold zstrView
  simp only
  by_cases hc : d.buf.length = d.len
  · rw [if_pos hc]
    obtain ⟨r1, r2, r3⟩ := reserve_spec junk (some d) 1 h
    obtain ⟨b, e, k1, k2, k3⟩ := key (reserve junk (some d) 1) r1 (by rw [r1]; exact r2) (by rw [r1]; exact r3)
    rw [e]
    exact ⟨_, rfl, k1, k2, k3⟩
  · rw [if_neg hc]
    obtain ⟨b, e, k1, k2, k3⟩ := key d rfl (by omega) rfl
    rw [e]
    exact ⟨_, rfl, k1, k2, k3⟩

example : Valid (str ['a', 'b', 'c']) ∧
    (insertChars 7 (str ['a', 'd']) 1 (txt ['b', 'c'])).map view = some (txt ['a', 'b', 'c', 'd']) ∧
    (delete (str ['a', 'b', 'c', 'd']) 1 2).map view = some (txt ['a', 'd']) ∧
    (appendRepeat 7 (str ['a']) 66 40).map len = some 41 ∧
    (join 7 0 [txt ['a'], txt ['b']] (txt [',', ' '])).map view = some (txt ['a', ',', ' ', 'b']) := by decide +kernel

/-! ## C180: a part of the string is inserted into it -/

/-- **C180.** The full statement. -/
def C180_full : Prop := ∀ (d : Data) (index p n : Nat), Valid (some d) → p + n ≤ d.len → index ≤ d.len →
  ∃ t, insertSelf (some d) index p n = some t ∧ Valid t ∧
    view t = (view (some d)).take index ++ (((view (some d)).drop p).take n ++ (view (some d)).drop index)

/-- **C180.** It holds if there is room and the part is not one the string begins with. Missing: the other cases. -/
theorem C180_insert_partial (d : Data) (index p n : Nat) (hp : 0 < p) (hn : p + n ≤ d.len) (hi : index ≤ d.len)
    (hroom : d.len + n ≤ d.buf.length) :
    ∃ t, insertSelf (some d) index p n = some t ∧ Valid t ∧
      view t = (view (some d)).take index ++ (((view (some d)).drop p).take n ++ (view (some d)).drop index) :=
  insertSelf_spec d index p n hp hn hi hroom

/-- **C180.** A part the string begins with is not inserted. -/
theorem C180_prefix (d : Data) (index n : Nat) (hroom : d.len + n ≤ d.buf.length) :
    insertSelf (some d) index 0 n = some (some d) := by
  unfold insertSelf
  by_cases hz : n = 0
  · rw [if_pos hz]
  · rw [if_neg hz]
    simp only
    rw [if_neg (by omega)]
    exact if_pos trivial

/-- **C180.** If there is no room, memory is read that has been given back. -/
theorem C180_grow (d : Data) (index p n : Nat) (hn : 0 < n) (hroom : d.buf.length < d.len + n) :
    insertSelf (some d) index p n = none := by
  unfold insertSelf
  rw [if_neg (by omega)]
  exact if_pos hroom

theorem C180_fails : ¬ C180_full := by
  intro h
  obtain ⟨t, e, _, w⟩ := h ⟨1, 1, [65, 0]⟩ 0 0 1 (by decide) (by decide) (by decide)
  rw [C180_prefix _ _ _ (by decide)] at e
  cases e
  exact absurd w (by decide)

example : (insertSelf (str ['a', 'b', 'c', 'd']) 2 1 3).map view = some (txt ['a', 'b', 'b', 'c', 'd', 'c', 'd']) ∧
    (insertSelf (str ['a', 'b', 'c', 'd']) 2 0 2).map view = some (txt ['a', 'b', 'c', 'd']) := by decide +kernel

/-! ## C181: replacing -/

/-- **C181.** The full statement: all occurrences are replaced. -/
def C181_full : Prop := ∀ (junk : Byte) (s : Str) (needle repl : List Byte), Valid s → needle ≠ [] →
  ∃ t, replace junk s needle repl = some t ∧ Valid t ∧ AllReplaced needle repl (view s) (view t)

/-- **C181.** Occurrences are replaced and nothing else, perhaps not all. -/
theorem C181_sound (junk : Byte) (s : Str) (needle repl : List Byte) (h : Valid s) (hn : needle ≠ []) :
    ∃ t, replace junk s needle repl = some t ∧ Valid t ∧ Replaced needle repl (view s) (view t) := by
  cases s with
  | none => exact ⟨none, rfl, trivial, .nil⟩
  | some d =>
    unfold replace
    simp only
    by_cases hl : d.len < needle.length
    · rw [if_pos hl]
      exact ⟨_, rfl, h, Replaced.same _ _ _⟩
    · rw [if_neg hl]
      split
      · obtain ⟨t, e, v, w⟩ := replaceChar_spec d _ _ h
        exact ⟨t, e, v, by rw [w]; exact AllReplaced.sound (map_all _ _ _)⟩
      · obtain ⟨c1, c2⟩ := clear_valid (some d)
        obtain ⟨t, out, e, v, w, r⟩ := replaceLoop_sound junk needle repl (view (some d)) [] 0 (clear (some d))
          (List.length_pos_iff.2 hn) c1
        refine ⟨t, by simpa using e, v, ?_⟩
        rw [w, c2]
        simpa using r

/-- **C181.** All are, if the first character of what is looked for is in the string only where an occurrence begins. Missing:
other strings. -/
theorem C181_all_partial (junk : Byte) (s : Str) (first : Byte) (more repl : List Byte) (h : Valid s)
    (ha : Apart first more (view s)) :
    ∃ t, replace junk s (first :: more) repl = some t ∧ Valid t ∧ AllReplaced (first :: more) repl (view s) (view t) := by
  cases s with
  | none => exact ⟨none, rfl, trivial, .nil⟩
  | some d =>
    unfold replace
    simp only
    by_cases hl : d.len < (first :: more).length
    · rw [if_pos hl]
      refine ⟨_, rfl, h, AllReplaced.short _ _ _ ?_⟩
      rw [view_length _ h]; exact hl
    · rw [if_neg hl]
      split
      · rename_i hm
        cases hm
        obtain ⟨t, e, v, w⟩ := replaceChar_spec d _ _ h
        exact ⟨t, e, v, by rw [w]; exact map_all _ _ _⟩
      · obtain ⟨c1, c2⟩ := clear_valid (some d)
        obtain ⟨t, out, e, v, w, r⟩ := replaceLoop_apart junk (view (some d)) _ first more _ ha 0 (clear (some d)) c1
        refine ⟨t, e, v, ?_⟩
        rw [w, c2]
        exact r

/-- **C181.** All occurrences of a single character are replaced. -/
theorem C181_char (junk : Byte) (s : Str) (c : Byte) (repl : List Byte) (h : Valid s) :
    ∃ t, replace junk s [c] repl = some t ∧ Valid t ∧ AllReplaced [c] repl (view s) (view t) :=
  C181_all_partial junk s c [] repl h (apart_single c _)

/-- **C181.** Looking for the empty string is an index out of bounds. -/
theorem C181_empty (junk : Byte) (d : Data) (repl : List Byte) (hd : view (some d) ≠ []) :
    replace junk (some d) [] repl = none := by
  unfold replace
  simp only [List.length_nil, Nat.not_lt_zero, if_false]
  cases hv : view (some d) with
  | nil => exact absurd hv hd
  | cons c l => rfl

/-- **C181.** `ab` is not found in `aab`. -/
theorem C181_fails : ¬ C181_full := by
  intro h
  obtain ⟨t, e, _, w⟩ := h 0 (some ⟨1, 3, [97, 97, 98]⟩) [97, 98] [120] (by decide) (by decide)
  have hr : (replace 0 (some ⟨1, 3, [97, 97, 98]⟩) [97, 98] [120]).map view = some [97, 97, 98] := by decide +kernel
  rw [e] at hr
  rw [Option.some.inj hr] at w
  have key : ∀ s t : List Byte, AllReplaced [97, 98] [120] s t → s = [97, 97, 98] → t = [97, 97, 98] → False := by
    intro s t h hs ht
    cases h with
    | nil => cases hs
    | keep c h1 h2 =>
      cases hs
      cases ht
      have key2 : ∀ s t : List Byte, AllReplaced [97, 98] [120] s t → s = [97, 98] → t = [97, 98] → False := by
        intro s t h hs ht
        cases h with
        | nil => cases hs
        | keep c h1 h2 => rw [hs] at h1; exact h1 (List.prefix_refl _)
        | hit h1 => exact absurd (List.cons.inj ht).1 (by decide)
      exact key2 _ _ h2 rfl rfl
    | hit h1 => exact absurd (List.cons.inj ht).1 (by decide)
  exact key _ _ w rfl rfl

example : Valid (str ['x', 'a', 'b', 'y', 'a', 'b']) ∧ Apart 97 [98] (view (str ['x', 'a', 'b', 'y', 'a', 'b'])) ∧
    (replace 0 (str ['x', 'a', 'b', 'y', 'a', 'b']) (txt ['a', 'b']) (txt ['c', 'd', 'e'])).map view =
      some (txt ['x', 'c', 'd', 'e', 'y', 'c', 'd', 'e']) := by
  refine ⟨by decide, ?_, by decide +kernel⟩
  exact .keep 120 (by decide) (.hit (s := [121, 97, 98]) (.keep 121 (by decide) (.hit .nil)))

/-! ## C182: comparing -/

/-- **C182.** Two strings are equal if they hold the same. -/
theorem C182_equals (a b : Str) (ha : Valid a) (hb : Valid b) : ∃ r, equals a b = some r ∧ (r = true ↔ view a = view b) :=
  equals_spec a b ha hb

/-- **C182.** The full statement: `less` is an order in which strings that differ are comparable. -/
def C182_full : Prop := ∀ a b : Str, Valid a → Valid b →
  (less a b = some true → less b a = some false) ∧ (view a ≠ view b → less a b = some true ∨ less b a = some true)

/-- **C182.** It is asymmetric for strings that hold something. Missing: empty strings, and that strings of the same length
are comparable. -/
theorem C182_asymm_partial (a b : Str) (ha : Valid a) (hb : Valid b) (h0 : view a ≠ []) (h1 : view b ≠ [])
    (h : less a b = some true) : less b a = some false := by
  cases a with
  | none => exact absurd rfl h0
  | some a =>
    cases b with
    | none => exact absurd rfl h1
    | some b =>
      have hA : a.len ≤ a.buf.length := ha
      have hB : b.len ≤ b.buf.length := hb
      have hpos : 0 < a.len := by
        have := List.length_pos_iff.2 h0
        rwa [view_length _ ha] at this
      unfold less at h ⊢
      by_cases hl : a.len = b.len
      · simp only [ne_eq, hl, not_true_eq_false, if_false] at h ⊢
        obtain ⟨r, e, hr⟩ := allPairs_spec (fun x y => decide (x < y)) a.buf b.buf b.len 0 (by omega) (by omega)
        obtain ⟨r', e', hr'⟩ := allPairs_spec (fun x y => decide (x < y)) b.buf a.buf b.len 0 (by omega) (by omega)
        rw [h] at e
        cases e
        rw [e']
        cases r' with
        | false => rfl
        | true =>
          have x1 := hr.1 rfl 0 _ _ (Nat.le_refl _) (by omega) (List.getElem?_eq_getElem (by omega))
            (List.getElem?_eq_getElem (by omega))
          have x2 := hr'.1 rfl 0 _ _ (Nat.le_refl _) (by omega) (List.getElem?_eq_getElem (by omega))
            (List.getElem?_eq_getElem (by omega))
          have x1 := of_decide_eq_true x1
          have x2 := of_decide_eq_true x2
          rw [BitVec.lt_def] at x1 x2
          omega
      · have hl' : ¬ b.len = a.len := fun x => hl x.symm
        simp only [ne_eq, hl, hl', not_false_eq_true, if_true, Option.some.injEq, decide_eq_true_eq, decide_eq_false_iff_not]
          at h ⊢
        omega

/-- **C182.** The shorter string is less. -/
theorem C182_length (a b : Data) (h : a.len ≠ b.len) : less (some a) (some b) = some (decide (a.len < b.len)) := if_pos h

/-- **C182.** Two empty strings are each less than the other. -/
theorem C182_empty (a b : Data) (ha : a.len = 0) (hb : b.len = 0) : less (some a) (some b) = some true := by
  unfold less
  simp only [ha, hb]
  rfl

/-- **C182.** Strings of the same length with the same first character are not comparable. -/
theorem C182_same_first (c : Byte) (k m n : Nat) (x y : List Byte) :
    less (some ⟨m, k + 1, c :: x⟩) (some ⟨n, k + 1, c :: y⟩) = some false := by
  unfold less
  simp only [ne_eq, not_true_eq_false, if_false]
  rw [allPairs]
  simp

theorem C182_fails : ¬ C182_full := by
  intro h
  have := (h (some ⟨1, 2, [97, 98]⟩) (some ⟨1, 2, [97, 99]⟩) (by decide) (by decide)).2 (by decide)
  rw [C182_same_first, C182_same_first] at this
  exact absurd this (by decide)

example : less (str ['a', 'b']) (str ['b', 'c']) = some true ∧ less (str ['a', 'b']) (str ['a', 'c']) = some false ∧
    less (str ['a', 'c']) (str ['a', 'b']) = some false ∧ equals (str ['a', 'c']) (str ['a', 'c']) = some true := by
  decide +kernel

/-! ## C183: copies -/

/-- **C183.** The full statement: a copy holds the same, and belongs to the allocator it was asked of. -/
def C183_full : Prop := ∀ (junk : Byte) (s : Str) (owner : Nat), Valid s →
  ∃ d, copy junk s owner = some d ∧ Valid (some d) ∧ view (some d) = view s ∧ d.owner = owner

theorem copy_spec (junk : Byte) (d : Data) (owner : Nat) (h : Valid (some d)) :
    ∃ d', copy junk (some d) owner = some d' ∧ Valid (some d') ∧ view (some d') = view (some d) ∧ d'.owner = d.owner := by
  have hd : d.len ≤ d.buf.length := h
  have hl : ((d.buf.drop 0).take d.len).length = d.len := by simp only [List.length_take, List.length_drop]; omega
  have hcap : d.len ≤ (withCapacity junk owner d.buf.length).buf.length := by
    simp only [withCapacity, List.length_replicate]; split <;> omega
  have e1 := slice_some d.buf 0 d.len (by omega)
  have e2 := put_some (withCapacity junk owner d.buf.length).buf 0 ((d.buf.drop 0).take d.len) (by rw [hl]; omega)
  unfold copy
  simp only [e1, e2]
  refine ⟨_, rfl, ?_, ?_, rfl⟩
  · show d.len ≤ List.length _
    rw [put_length _ _ _ _ e2]; exact hcap
  · simp only [view, List.take_zero, List.nil_append, List.drop_zero]
    exact List.take_left' (by simpa using hl)

/-- **C183.** It holds the same. Missing: the allocator. -/
theorem C183_content_partial (junk : Byte) (s : Str) (owner : Nat) (h : Valid s) :
    ∃ d, copy junk s owner = some d ∧ Valid (some d) ∧ view (some d) = view s := by
  cases s with
  | none =>
    obtain ⟨d, e, v, w, _⟩ := new_spec junk owner []
    exact ⟨d, e, v, w⟩
  | some d =>
    obtain ⟨d', e, v, w, _⟩ := copy_spec junk d owner h
    exact ⟨d', e, v, w⟩

/-- **C183.** The copy of a string has the allocator of the string, whatever allocator its memory is from. -/
theorem C183_owner (junk : Byte) (d d' : Data) (owner : Nat) (h : Valid (some d)) (hc : copy junk (some d) owner = some d') :
    d'.owner = d.owner := by
  obtain ⟨x, e, _, _, o⟩ := copy_spec junk d owner h
  rw [hc] at e
  cases e
  exact o

theorem C183_fails : ¬ C183_full := by
  intro h
  obtain ⟨d, e, _, _, o⟩ := h 0 (some ⟨1, 0, []⟩) 2 (by decide)
  rw [C183_owner 0 ⟨1, 0, []⟩ d 2 (by decide) e] at o
  exact absurd o (by decide)

example : (copy 0 (str ['a', 'b']) 5).map (fun d => (view (some d), d.owner)) = some (txt ['a', 'b'], 1) := by decide +kernel

/-! ## C184: reading from a stream -/

/-- A reader that gives as much as it is asked for. -/
def source (l : List Byte) (n : Nat) : Option (List Byte × List Byte) := some (l.drop n, l.take n)

/-- A reader that gives one byte at a time, and nothing at the end. -/
def slow (l : List Byte) (_ : Nat) : Option (List Byte × List Byte) := some (l.drop 1, l.take 1)

/-- **C184.** The full statement, for readers of a list that give at least one byte if there is one: all is read, and the
number of bytes is returned. -/
def C184_full : Prop := ∀ (junk : Byte) (read : List Byte → Nat → Option (List Byte × List Byte)) (src : List Byte) (s : Str)
  (fuel : Nat), Valid s → src.length < fuel →
  (∀ l n, 0 < n → ∃ k, k ≤ n ∧ (l ≠ [] → 0 < k) ∧ read l n = some (l.drop k, l.take k)) →
  ∃ t, readLoop junk read fuel src s 0 = some ([], t, src.length) ∧ Valid t ∧ view t = view s ++ src

/-- **C184.** If the reader gives as much as it is asked for, all is read. Missing: the number that is returned, readers that give
less. -/
theorem C184_source_partial (junk : Byte) (fuel : Nat) : ∀ (src : List Byte) (s : Str), Valid s → src.length < fuel →
    ∃ t r, readLoop junk source fuel src s 0 = some ([], t, r) ∧ Valid t ∧ view t = view s ++ src := by
  induction fuel with
  | zero => intro src s _ h; omega
  | succ fuel ih =>
    intro src s hv hf
    obtain ⟨r1, r2, r3⟩ := reserve_spec junk s 16 hv
    have hl : (src.take ((reserve junk s 16).buf.length - (reserve junk s 16).len)).length =
        min ((reserve junk s 16).buf.length - (reserve junk s 16).len) src.length := List.length_take
    obtain ⟨b, e, v, w⟩ := append_core (reserve junk s 16)
      (src.take ((reserve junk s 16).buf.length - (reserve junk s 16).len)) (by rw [hl]; omega)
    have w := w.trans (by rw [show (reserve junk s 16).buf.take (reserve junk s 16).len = view s by rw [r1, r3]])
    rw [readLoop]
    simp only [source, e]
    by_cases hs : (src.take ((reserve junk s 16).buf.length - (reserve junk s 16).len)).length < 16
    · rw [if_pos hs]
      have hle : src.length ≤ (reserve junk s 16).buf.length - (reserve junk s 16).len := by omega
      refine ⟨_, 0, by rw [List.drop_eq_nil_of_le hle], v, ?_⟩
      rw [w, List.take_of_length_le hle]
    · rw [if_neg hs]
      obtain ⟨t, r, e', v', w'⟩ := ih (src.drop ((reserve junk s 16).buf.length - (reserve junk s 16).len)) _ v
        (by simp only [List.length_drop]; omega)
      refine ⟨t, r, e', v', ?_⟩
      rw [w', w, List.append_assoc, List.take_append_drop]

/-- **C184.** Zero is returned, whatever was read. -/
theorem C184_returns_zero {σ : Type} (junk : Byte) (read : σ → Nat → Option (σ × List Byte)) (fuel : Nat) :
    ∀ (st st' : σ) (s t : Str) (r : Nat), readLoop junk read fuel st s 0 = some (st', t, r) → r = 0 := by
  induction fuel with
  | zero => intro st st' s t r h; cases h
  | succ fuel ih =>
    intro st st' s t r h
    rw [readLoop] at h
    simp only at h
    split at h
    · cases h
    · split at h
      · cases h
      · split at h
        · cases h; rfl
        · exact ih _ _ _ _ _ h

theorem C184_fails : ¬ C184_full := by
  intro h
  obtain ⟨t, e, _⟩ := h 0 source [65] none 2 trivial (by decide) (fun l n hn => ⟨n, Nat.le_refl _, fun _ => hn, rfl⟩)
  exact absurd (C184_returns_zero 0 source 2 _ _ _ _ _ e) (by decide)

/-- **C184.** Reading ends with the first read of less than 16 bytes, though there is more. -/
theorem C184_short (junk : Byte) (a c : Byte) (src : List Byte) (fuel : Nat) (s : Str) (hv : Valid s) :
    ∃ t, readLoop junk slow (fuel + 1) (a :: c :: src) s 0 = some (c :: src, t, 0) ∧ view t = view s ++ [a] := by
  obtain ⟨r1, r2, r3⟩ := reserve_spec junk s 16 hv
  obtain ⟨b, e, _, w⟩ := append_core (reserve junk s 16) [a] (by rw [r1]; simp only [List.length_cons, List.length_nil]; omega)
  rw [readLoop]
  have hs : slow (a :: c :: src) ((reserve junk s 16).buf.length - (reserve junk s 16).len) = some (c :: src, [a]) := rfl
  simp only [hs, e]
  refine ⟨_, if_pos (show 1 < 16 by omega), ?_⟩
  exact w.trans (by rw [r1, r3])

example : (readLoop 0 source 40 (List.replicate 39 65) (str ['a']) 0).map (fun x => (len x.2.1, x.2.2)) = some (40, 0) ∧
    (readLoop 0 slow 40 (List.replicate 39 65) (str ['a']) 0).map (fun x => (len x.2.1, x.2.2)) = some (2, 0) := by
  decide +kernel

end C3.DString
