import Verif.DString.Lemmas

set_option autoImplicit false

namespace C3.DString
open Spec

theorem Replaced.append_left {needle repl : List Byte} (l : List Byte) {s t : List Byte} (h : Replaced needle repl s t) :
    Replaced needle repl (l ++ s) (l ++ t) := by
  induction l with
  | nil => exact h
  | cons c l ih => exact .keep c ih

theorem Replaced.same (needle repl l : List Byte) : Replaced needle repl l l := by
  have := Replaced.append_left (needle := needle) (repl := repl) l .nil
  rwa [List.append_nil] at this

theorem clear_valid (s : Str) : Valid (clear s) ∧ view (clear s) = [] := by
  cases s with
  | none => exact ⟨trivial, rfl⟩
  | some d => exact ⟨Nat.zero_le _, rfl⟩

/-- What `slice` of the part that has matched gives. -/
theorem slice_match (pre mid rest : List Byte) : slice (pre ++ (mid ++ rest)) pre.length mid.length = some mid := by
  rw [slice_some _ _ _ (by simp only [List.length_append]; omega), List.drop_left, List.take_left]

theorem flush_spec (junk : Byte) (pre mid rest : List Byte) (s : Str) (h : Valid s) :
    ∃ t, flush junk (pre ++ (mid ++ rest)) pre.length mid.length s = some t ∧ Valid t ∧ view t = view s ++ mid := by
  unfold flush
  by_cases h0 : mid.length > 0
  · rw [if_pos h0, slice_match]
    exact appendChars_spec junk s mid h
  · have hm : mid = [] := List.eq_nil_of_length_eq_zero (by omega)
    rw [if_neg h0, hm]
    exact ⟨s, rfl, h, (List.append_nil _).symm⟩

/-- Whatever the text, some occurrences are replaced and nothing else. -/
theorem replaceLoop_sound (junk : Byte) (needle repl : List Byte) (rest : List Byte) :
    ∀ (pre : List Byte) (k : Nat) (s : Str), k < needle.length → Valid s →
    ∃ t out, replaceLoop junk (pre ++ (needle.take k ++ rest)) needle repl rest (pre.length + k) k s = some t ∧ Valid t ∧
      view t = view s ++ out ∧ Replaced needle repl (needle.take k ++ rest) out := by
  induction rest with
  | nil =>
    intro pre k s hk hv
    have hm : (needle.take k).length = k := by simp only [List.length_take]; omega
    rw [replaceLoop]
    have hi : (pre ++ (needle.take k ++ [])).length - k = pre.length := by
      simp only [List.length_append, hm, List.length_nil]; omega
    obtain ⟨t, e, h1, h2⟩ := flush_spec junk pre (needle.take k) [] s hv
    rw [hm] at e
    refine ⟨t, needle.take k, by rw [hi]; exact e, h1, h2, ?_⟩
    rw [List.append_nil]
    exact Replaced.same _ _ _
  | cons c rest ih =>
    intro pre k s hk hv
    have hm : (needle.take k).length = k := by simp only [List.length_take]; omega
    have step : needle.take (k + 1) = needle.take k ++ [needle[k]] := List.take_succ_eq_append_getElem hk
    rw [replaceLoop, List.getElem?_eq_getElem hk]
    simp only
    by_cases hc : c = needle[k]
    · rw [if_pos hc]
      have hcat : needle.take k ++ c :: rest = needle.take (k + 1) ++ rest := by
        rw [step, hc, List.append_assoc]; rfl
      by_cases hfull : k + 1 = needle.length
      · rw [if_pos hfull]
        have hall : needle.take (k + 1) = needle := by rw [hfull, List.take_length]
        obtain ⟨t1, e1, v1, w1⟩ := appendChars_spec junk s repl hv
        obtain ⟨t, out, e, v, w, r⟩ := ih (pre ++ needle) 0 t1 (by omega) v1
        simp only [e1]
        refine ⟨t, repl ++ out, ?_, v, ?_, ?_⟩
        · rw [hcat, hall]
          simpa [hfull, Nat.add_assoc] using e
        · rw [w, w1, List.append_assoc]
        · rw [hcat, hall]
          exact .hit (by simpa using r)
      · rw [if_neg hfull]
        obtain ⟨t, out, e, v, w, r⟩ := ih pre (k + 1) s (by omega) hv
        refine ⟨t, out, ?_, v, w, ?_⟩
        · rw [hcat]; exact e
        · rw [hcat]; exact r
    · rw [if_neg hc]
      obtain ⟨s1, e1, v1, w1⟩ := flush_spec junk pre (needle.take k) (c :: rest) s hv
      rw [hm] at e1
      rw [Nat.add_sub_cancel]
      obtain ⟨s2, e2, v2, w2⟩ := appendChar_spec junk s1 c v1
      obtain ⟨t, out, e, v, w, r⟩ := ih (pre ++ (needle.take k ++ [c])) 0 s2 (by omega) v2
      simp only [e1, e2]
      refine ⟨t, needle.take k ++ c :: out, ?_, v, ?_, ?_⟩
      · have hl : (pre ++ (needle.take k ++ [c])).length + 0 = pre.length + k + 1 := by
          simp only [List.length_append, hm, List.length_cons, List.length_nil]; omega
        rw [hl] at e
        simpa using e
      · rw [w, w2, w1]; simp
      · exact Replaced.append_left _ (.keep c (by simpa using r))

/-- An occurrence that begins where the loop looks for its first character is found. -/
theorem replaceLoop_run (junk : Byte) (str needle repl rest : List Byte) (m : Nat) : ∀ (k i : Nat) (s : Str),
    k < needle.length → needle.length - k = m →
    replaceLoop junk str needle repl (needle.drop k ++ rest) i k s =
      match appendChars junk s repl with
      | none => none
      | some s => replaceLoop junk str needle repl rest (i + m) 0 s := by
  induction m with
  | zero => intro k i s h1 h2; omega
  | succ m ih =>
    intro k i s h1 h2
    rw [List.drop_eq_getElem_cons h1, List.cons_append, replaceLoop, List.getElem?_eq_getElem h1]
    simp only [if_true]
    by_cases hf : k + 1 = needle.length
    · rw [if_pos hf, hf, List.drop_length, show m = 0 by omega]
      rfl
    · rw [if_neg hf, ih (k + 1) (i + 1) s (by omega) (by omega), Nat.add_assoc, Nat.add_comm 1 m]

theorem replaceLoop_apart (junk : Byte) (str repl : List Byte) (first : Byte) (more rest : List Byte)
    (h : Apart first more rest) : ∀ (i : Nat) (s : Str), Valid s →
    ∃ t out, replaceLoop junk str (first :: more) repl rest i 0 s = some t ∧ Valid t ∧ view t = view s ++ out ∧
      AllReplaced (first :: more) repl rest out := by
  induction h with
  | nil => intro i s hv; exact ⟨s, [], rfl, hv, (List.append_nil _).symm, .nil⟩
  | keep c hc _ ih =>
    intro i s hv
    obtain ⟨s2, e2, v2, w2⟩ := appendChar_spec junk s c hv
    obtain ⟨t, out, e, v, w, r⟩ := ih (i + 1) s2 v2
    refine ⟨t, c :: out, ?_, v, by rw [w, w2]; simp, .keep c ?_ r⟩
    · rw [replaceLoop]
      simp only [List.getElem?_cons_zero, if_neg hc, flush, Nat.lt_irrefl, gt_iff_lt, if_false, e2]
      exact e
    · intro hp
      exact hc (List.cons_prefix_cons.1 hp).1.symm
  | @hit rest _ ih =>
    intro i s hv
    obtain ⟨s1, e1, v1, w1⟩ := appendChars_spec junk s repl hv
    obtain ⟨t, out, e, v, w, r⟩ := ih (i + (first :: more).length) s1 v1
    refine ⟨t, repl ++ out, ?_, v, by rw [w, w1]; simp, .hit r⟩
    have := replaceLoop_run junk str (first :: more) repl rest (first :: more).length 0 i s (by simp) (by simp)
    rw [List.drop_zero, e1] at this
    exact this.trans e

theorem apart_single (a : Byte) (l : List Byte) : Apart a [] l := by
  induction l with
  | nil => exact .nil
  | cons c l ih =>
    by_cases h : c = a
    · rw [h]; exact .hit ih
    · exact .keep c h ih

theorem map_all (a b : Byte) (l : List Byte) : AllReplaced [a] [b] l (l.map fun c => if c = a then b else c) := by
  induction l with
  | nil => exact .nil
  | cons c l ih =>
    by_cases h : c = a
    · rw [List.map_cons, if_pos h, h]
      exact AllReplaced.hit (needle := [a]) (repl := [b]) ih
    · rw [List.map_cons, if_neg h]
      exact .keep c (fun hp => h (List.cons_prefix_cons.1 hp).1.symm) ih

theorem AllReplaced.sound {needle repl s t : List Byte} (h : AllReplaced needle repl s t) : Replaced needle repl s t := by
  induction h with
  | nil => exact .nil
  | keep c _ _ ih => exact .keep c ih
  | hit _ ih => exact .hit ih

theorem AllReplaced.short (needle repl l : List Byte) (h : l.length < needle.length) : AllReplaced needle repl l l := by
  induction l with
  | nil => exact .nil
  | cons c l ih =>
    refine .keep c (fun hp => ?_) (ih (by simp only [List.length_cons] at h; omega))
    have := hp.length_le
    omega

theorem replaceChar_spec (d : Data) (a b : Byte) (h : Valid (some d)) : ∃ t, replaceChar (some d) a b = some t ∧ Valid t ∧
    view t = (view (some d)).map fun c => if c = a then b else c := by
  have hd : d.len ≤ d.buf.length := h
  refine ⟨_, rfl, ?_, ?_⟩
  · simp only [Valid, List.length_append, List.length_map, List.length_take, List.length_drop]; omega
  · simp only [view]
    exact List.take_left' (by simp only [List.length_map, List.length_take]; omega)

end C3.DString
