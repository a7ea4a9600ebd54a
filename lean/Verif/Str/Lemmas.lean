import Verif.Str.Model
import Verif.Str.Spec

/-! # Helper lemmas for strings -/

set_option autoImplicit false
set_option linter.unusedSectionVars false

namespace C3.Str
open Spec

variable {α : Type} [DecidableEq α]

theorem at_iff (s sub : List α) (i : Nat) : At s sub i ↔ i ≤ s.length ∧ sub <+: s.drop i := by
  constructor
  · rintro ⟨a, b, rfl, rfl⟩
    exact ⟨by simp, b, by simp⟩
  · rintro ⟨h, b, hb⟩
    refine ⟨s.take i, b, ?_, by simp; omega⟩
    rw [hb, List.take_append_drop]

theorem at_le {s sub : List α} {i : Nat} (h : At s sub i) : i + sub.length ≤ s.length := by
  obtain ⟨a, b, rfl, rfl⟩ := h
  simp

theorem sliceLen_eq {s : List α} {a n : Nat} (h : a + n ≤ s.length) : sliceLen s a n = some ((s.drop a).take n) := by
  rw [sliceLen, if_neg (by omega), if_neg (by omega)]

theorem sliceFrom_eq {s : List α} {a : Nat} (h : a ≤ s.length) : sliceFrom s a = some (s.drop a) := by
  rw [sliceFrom, if_neg (by omega)]

theorem char_in_set_iff (c : α) (set : List α) : char_in_set c set = true ↔ c ∈ set := by
  induction set with
  | nil => simp [char_in_set]
  | cons x set ih =>
    rw [char_in_set]
    by_cases h : x = c
    · simp [h]
    · rw [if_neg h, ih]; simp [Ne.symm h]

/-! ## Single characters -/

theorem index_of_char_spec (s : List α) (c : α) :
    match index_of_char s c with
    | some i => s[i]? = some c ∧ ∀ j < i, s[j]? ≠ some c
    | none => c ∉ s := by
  induction s with
  | nil => simp [index_of_char]
  | cons x s ih =>
    rw [index_of_char]
    by_cases h : x = c
    · simp [h]
    · rw [if_neg h]
      cases hi : index_of_char s c with
      | none => rw [hi] at ih; simp_all [Ne.symm h]
      | some i =>
        rw [hi] at ih
        refine ⟨by simpa using ih.1, fun j hj => ?_⟩
        have hj : j < i + 1 := hj
        cases j with
        | zero => simpa using h
        | succ j => simpa using ih.2 j (by omega)

theorem index_of_chars_spec (s cs : List α) :
    match index_of_chars s cs with
    | some i => (∃ c ∈ cs, s[i]? = some c) ∧ ∀ j < i, ∀ c ∈ cs, s[j]? ≠ some c
    | none => ∀ c ∈ cs, c ∉ s := by
  induction s with
  | nil => simp [index_of_chars]
  | cons x s ih =>
    rw [index_of_chars]
    by_cases h : x ∈ cs
    · rw [if_pos ((char_in_set_iff x cs).2 h)]
      exact ⟨⟨x, h, rfl⟩, by simp⟩
    · rw [if_neg (by rw [char_in_set_iff]; exact h)]
      cases hi : index_of_chars s cs with
      | none =>
        rw [hi] at ih
        intro c hc
        simp only [List.mem_cons, not_or]
        exact ⟨fun e => h (e ▸ hc), ih c hc⟩
      | some i =>
        rw [hi] at ih
        refine ⟨by simpa using ih.1, fun j hj c hc => ?_⟩
        have hj : j < i + 1 := hj
        cases j with
        | zero => simp; rintro rfl; exact h hc
        | succ j => simpa using ih.2 j (by omega) c hc

theorem indexFromLoop_spec (s : List α) (c : α) : ∀ (k i : Nat), s.length - i ≤ k →
    match indexFromLoop s c i with
    | some j => i ≤ j ∧ s[j]? = some c ∧ ∀ l, i ≤ l → l < j → s[l]? ≠ some c
    | none => ∀ l, i ≤ l → s[l]? ≠ some c := by
  intro k
  induction k with
  | zero =>
    intro i hk
    rw [indexFromLoop, dif_neg (by omega)]
    intro l hl
    rw [List.getElem?_eq_none (by omega)]; simp
  | succ k ih =>
    intro i hk
    rw [indexFromLoop]
    by_cases h : i < s.length
    · rw [dif_pos h]
      by_cases hc : s[i] = c
      · rw [if_pos hc]
        exact ⟨Nat.le_refl _, by rw [List.getElem?_eq_getElem h, hc], fun l h1 h2 => by omega⟩
      · rw [if_neg hc]
        have := ih (i + 1) (by omega)
        have h0 : s[i]? ≠ some c := by rw [List.getElem?_eq_getElem h]; simpa using hc
        cases hi : indexFromLoop s c (i + 1) with
        | none =>
          rw [hi] at this
          intro l hl
          by_cases e : l = i
          · rw [e]; exact h0
          · exact this l (by omega)
        | some j =>
          rw [hi] at this
          refine ⟨by omega, this.2.1, fun l h1 h2 => ?_⟩
          by_cases e : l = i
          · rw [e]; exact h0
          · exact this.2.2 l (by omega) h2
    · rw [dif_neg h]
      intro l hl
      rw [List.getElem?_eq_none (by omega)]; simp

theorem rindexLoop_spec (s : List α) (c : α) (n : Nat) :
    match rindexLoop s c n with
    | some j => j < n ∧ s[j]? = some c ∧ ∀ l, j < l → l < n → s[l]? ≠ some c
    | none => ∀ l < n, s[l]? ≠ some c := by
  induction n with
  | zero => simp [rindexLoop]
  | succ n ih =>
    rw [rindexLoop]
    by_cases h : s[n]? = some c
    · rw [if_pos h]
      exact ⟨by omega, h, fun l h1 h2 => by omega⟩
    · rw [if_neg h]
      cases hi : rindexLoop s c n with
      | none =>
        rw [hi] at ih
        intro l hl
        by_cases e : l = n
        · rw [e]; exact h
        · exact ih l (by omega)
      | some j =>
        rw [hi] at ih
        refine ⟨by omega, ih.2.1, fun l h1 h2 => ?_⟩
        by_cases e : l = n
        · rw [e]; exact h
        · exact ih.2.2 l h1 (by omega)

/-! ## Substrings -/

theorem found_eq {s sub : List α} {first c : α} {rest : List α} (hs : sub = first :: rest) {i : Nat}
    (hi : i + sub.length ≤ s.length) (hc : s[i]? = some c) :
    ∃ b, found s sub first i c = some b ∧ (b = true ↔ At s sub i) := by
  have hd : s.drop i = c :: s.drop (i + 1) := by
    obtain ⟨h, e⟩ := List.getElem?_eq_some_iff.1 hc
    rw [List.drop_eq_getElem_cons h, e]
  rw [at_iff]
  have hle : i ≤ s.length := by omega
  rw [found]
  by_cases h : c = first
  · rw [if_pos h, sliceLen_eq hi]
    refine ⟨_, rfl, ?_⟩
    rw [beq_iff_eq, List.prefix_iff_eq_take]
    exact ⟨fun h => ⟨hle, h.symm⟩, fun h => h.2.symm⟩
  · rw [if_neg h]
    refine ⟨false, rfl, ?_⟩
    simp only [Bool.false_eq_true, false_iff, not_and]
    rintro - ⟨b, hb⟩
    rw [hd, hs] at hb
    simp only [List.cons_append, List.cons.injEq] at hb
    exact h hb.1.symm

theorem sliceBack_eq {s : List α} {n : Nat} (h0 : 0 < n) (h : n ≤ s.length) :
    sliceBack s n = some (s.take (s.length - n + 1)) := by
  rw [sliceBack, if_neg (by omega), sliceTo, if_neg (by omega), if_neg (by omega), if_neg (by omega)]
  simp

theorem indexOfLoop_spec {s sub : List α} {first : α} {rest : List α} (hs : sub = first :: rest) (hlen : sub.length ≤ s.length) :
    ∀ (view : List α) (i : Nat), s.take (s.length - sub.length + 1) = s.take i ++ view → i ≤ s.length - sub.length + 1 →
    ∃ r, indexOfLoop s sub first i view = some r ∧
      match r with
      | some j => At s sub j ∧ ∀ l, i ≤ l → l < j → ¬ At s sub l
      | none => ∀ l, i ≤ l → ¬ At s sub l := by
  have hpos : 0 < sub.length := by rw [hs]; simp
  intro view
  induction view with
  | nil =>
    intro i hv hi
    refine ⟨none, rfl, fun l hl h => ?_⟩
    have := at_le h
    have e := congrArg List.length hv
    simp at e
    omega
  | cons c view ih =>
    intro i hv hi
    have e := congrArg List.length hv
    simp only [List.length_take, List.length_append, List.length_cons] at e
    have hil : i < s.length := by omega
    have hc : s[i]? = some c := by
      have h1 : (s.take (s.length - sub.length + 1))[i]? = s[i]? := by
        rw [List.getElem?_take, if_pos (by omega)]
      rw [← h1, hv, List.getElem?_append_right (by rw [List.length_take]; omega)]
      simp [Nat.min_eq_left (Nat.le_of_lt hil)]
    obtain ⟨b, hb, hbi⟩ := found_eq hs (i := i) (by omega) hc
    rw [indexOfLoop, hb]
    cases b with
    | true =>
      exact ⟨some i, rfl, hbi.1 rfl, fun l h1 h2 => by omega⟩
    | false =>
      have hn : ¬ At s sub i := fun h => by simpa using hbi.2 h
      obtain ⟨r, hr, hr2⟩ := ih (i + 1) (by
        have : s.take (i + 1) = s.take i ++ [c] := by rw [List.take_add_one, hc]; rfl
        rw [hv, this]; simp) (by omega)
      refine ⟨r, hr, ?_⟩
      cases r with
      | none =>
        intro l hl
        by_cases e : l = i
        · rw [e]; exact hn
        · exact hr2 l (by omega)
      | some j =>
        refine ⟨hr2.1, fun l h1 h2 => ?_⟩
        by_cases e : l = i
        · rw [e]; exact hn
        · exact hr2.2 l (by omega) h2

theorem index_of_spec (s : List α) {sub : List α} (h : sub ≠ []) :
    ∃ r, index_of s sub = some r ∧
      match r with
      | some j => At s sub j ∧ ∀ l < j, ¬ At s sub l
      | none => ∀ l, ¬ At s sub l := by
  cases hs : sub with
  | nil => exact absurd hs h
  | cons first rest =>
    rw [index_of, ← hs]
    have hpos : 0 < sub.length := by rw [hs]; simp
    by_cases hl : s.length ≥ sub.length
    · rw [if_pos hl, sliceBack_eq hpos hl]
      simp only
      obtain ⟨r, h1, h2⟩ := indexOfLoop_spec hs hl (s.take (s.length - sub.length + 1)) 0 (by simp) (by omega)
      refine ⟨r, h1, ?_⟩
      cases r with
      | none => exact fun l => h2 l (Nat.zero_le _)
      | some j => exact ⟨h2.1, fun l hl => h2.2 l (Nat.zero_le _) hl⟩
    · rw [if_neg hl]
      exact ⟨none, rfl, fun l h => by have := at_le h; omega⟩

theorem rindexOfLoop_spec {s sub : List α} {first : α} {rest : List α} (hs : sub = first :: rest) (hlen : sub.length ≤ s.length) :
    ∀ n ≤ s.length - sub.length + 1,
    ∃ r, rindexOfLoop s sub first (s.take (s.length - sub.length + 1)) n = some r ∧
      match r with
      | some j => At s sub j ∧ ∀ l, j < l → l < n → ¬ At s sub l
      | none => ∀ l < n, ¬ At s sub l := by
  have hpos : 0 < sub.length := by rw [hs]; simp
  intro n
  induction n with
  | zero => intro _; exact ⟨none, rfl, by simp⟩
  | succ n ih =>
    intro hn
    have hnl : n < s.length := by omega
    have hc : (s.take (s.length - sub.length + 1))[n]? = some s[n] := by
      rw [List.getElem?_take, if_pos (by omega), List.getElem?_eq_getElem hnl]
    obtain ⟨b, hb, hbi⟩ := found_eq hs (i := n) (by omega) (List.getElem?_eq_getElem hnl)
    rw [rindexOfLoop, hc]
    simp only
    rw [hb]
    cases b with
    | true => exact ⟨some n, rfl, hbi.1 rfl, fun l h1 h2 => by omega⟩
    | false =>
      have hno : ¬ At s sub n := fun h => by simpa using hbi.2 h
      obtain ⟨r, hr, hr2⟩ := ih (by omega)
      refine ⟨r, hr, ?_⟩
      cases r with
      | none =>
        intro l hl
        by_cases e : l = n
        · rw [e]; exact hno
        · exact hr2 l (by omega)
      | some j =>
        refine ⟨hr2.1, fun l h1 h2 => ?_⟩
        by_cases e : l = n
        · rw [e]; exact hno
        · exact hr2.2 l h1 (by omega)

theorem rindex_of_spec (s : List α) {sub : List α} (h : sub ≠ []) :
    ∃ r, rindex_of s sub = some r ∧
      match r with
      | some j => At s sub j ∧ ∀ l, j < l → ¬ At s sub l
      | none => ∀ l, ¬ At s sub l := by
  cases hs : sub with
  | nil => exact absurd hs h
  | cons first rest =>
    rw [rindex_of, ← hs]
    have hpos : 0 < sub.length := by rw [hs]; simp
    by_cases hl : s.length ≥ sub.length
    · rw [if_pos hl, sliceBack_eq hpos hl]
      simp only
      have e : (s.take (s.length - sub.length + 1)).length = s.length - sub.length + 1 := by simp; omega
      rw [e]
      obtain ⟨r, h1, h2⟩ := rindexOfLoop_spec hs hl _ (Nat.le_refl _)
      refine ⟨r, h1, ?_⟩
      cases r with
      | none => exact fun l ha => h2 l (by have := at_le ha; omega) ha
      | some j => exact ⟨h2.1, fun l hl ha => h2.2 l hl (by have := at_le ha; omega) ha⟩
    · rw [if_neg hl]
      exact ⟨none, rfl, fun l h => by have := at_le h; omega⟩

/-! ## Trimming -/

theorem trimLeftLoop_spec (s set : List α) : ∀ (k i : Nat), s.length - i ≤ k → i ≤ s.length → (∀ c ∈ s.take i, c ∈ set) →
    trimLeftLoop s set i ≤ s.length ∧ (∀ c ∈ s.take (trimLeftLoop s set i), c ∈ set) ∧
      ∀ c ∈ (s.drop (trimLeftLoop s set i)).head?, c ∉ set := by
  intro k
  induction k with
  | zero =>
    intro i hk hi hc
    rw [trimLeftLoop, dif_neg (by omega)]
    refine ⟨hi, hc, ?_⟩
    rw [List.drop_eq_nil_of_le (by omega)]; simp
  | succ k ih =>
    intro i hk hi hc
    rw [trimLeftLoop]
    by_cases h : i < s.length
    · rw [dif_pos h]
      by_cases hm : s[i] ∈ set
      · rw [if_pos ((char_in_set_iff _ _).2 hm)]
        refine ih (i + 1) (by omega) (by omega) ?_
        intro c hcm
        rw [List.take_add_one, List.getElem?_eq_getElem h] at hcm
        rcases List.mem_append.1 hcm with hcm | hcm
        · exact hc c hcm
        · simp at hcm; exact hcm ▸ hm
      · rw [if_neg (by rw [char_in_set_iff]; exact hm)]
        refine ⟨hi, hc, ?_⟩
        rw [List.drop_eq_getElem_cons h]
        intro c hc
        rw [List.head?_cons, Option.mem_some_iff] at hc
        exact hc ▸ hm
    · rw [dif_neg h]
      refine ⟨hi, hc, ?_⟩
      rw [List.drop_eq_nil_of_le (by omega)]; simp

theorem trim_left_spec (s set : List α) :
    ∃ a r, s = a ++ r ∧ trim_left s set = some r ∧ (∀ c ∈ a, c ∈ set) ∧ ∀ c ∈ r.head?, c ∉ set := by
  obtain ⟨h1, h2, h3⟩ := trimLeftLoop_spec s set s.length 0 (by omega) (by omega) (by simp)
  refine ⟨s.take (trimLeftLoop s set 0), s.drop (trimLeftLoop s set 0), (List.take_append_drop _ _).symm, ?_, h2, h3⟩
  rw [trim_left]
  split
  · rename_i h
    rw [h, sliceLen_eq (by omega)]
    simp
  · rw [sliceFrom_eq h1]

theorem trimRightLoop_spec (s set : List α) : ∀ n ≤ s.length, (∀ c ∈ s.drop n, c ∈ set) →
    ∃ m ≤ s.length, trimRightLoop s set n = some m ∧ (∀ c ∈ s.drop m, c ∈ set) ∧ ∀ c ∈ (s.take m).getLast?, c ∉ set := by
  intro n
  induction n with
  | zero => intro _ h; exact ⟨0, by omega, rfl, h, by simp⟩
  | succ n ih =>
    intro hn h
    have hl : n < s.length := by omega
    rw [trimRightLoop, List.getElem?_eq_getElem hl]
    simp only
    by_cases hm : s[n] ∈ set
    · rw [if_pos ((char_in_set_iff _ _).2 hm)]
      refine ih (by omega) ?_
      intro c hc
      rw [List.drop_eq_getElem_cons hl] at hc
      rcases List.mem_cons.1 hc with rfl | hc
      · exact hm
      · exact h c hc
    · rw [if_neg (by rw [char_in_set_iff]; exact hm)]
      refine ⟨n + 1, hn, rfl, h, ?_⟩
      rw [List.take_add_one, List.getElem?_eq_getElem hl]
      intro c hc
      rw [Option.toList_some, List.getLast?_concat, Option.mem_some_iff] at hc
      exact hc ▸ hm

theorem trim_right_spec (s set : List α) :
    ∃ r b, s = r ++ b ∧ trim_right s set = some r ∧ (∀ c ∈ b, c ∈ set) ∧ ∀ c ∈ r.getLast?, c ∉ set := by
  obtain ⟨m, h0, h1, h2, h3⟩ := trimRightLoop_spec s set s.length (Nat.le_refl _) (by simp)
  refine ⟨s.take m, s.drop m, (List.take_append_drop _ _).symm, ?_, h2, h3⟩
  rw [trim_right, h1, Option.bind_some, sliceLen_eq (by omega)]
  simp

theorem trim_spec (s set : List α) :
    ∃ a r b, s = a ++ (r ++ b) ∧ trim s set = some r ∧ (∀ c ∈ a ++ b, c ∈ set) ∧
      (∀ c ∈ r.head?, c ∉ set) ∧ ∀ c ∈ r.getLast?, c ∉ set := by
  obtain ⟨a, t, e1, h1, ha, hh⟩ := trim_left_spec s set
  obtain ⟨r, b, e2, h2, hb, hl⟩ := trim_right_spec t set
  refine ⟨a, r, b, by rw [e1, e2], by rw [trim, h1, Option.bind_some, h2], ?_, ?_, hl⟩
  · intro c hc
    rcases List.mem_append.1 hc with hc | hc
    · exact ha c hc
    · exact hb c hc
  · intro c hc
    cases r with
    | nil => simp at hc
    | cons x r => subst e2; exact hh c (by simpa using hc)

/-! ## Prefixes and suffixes -/

theorem starts_with_spec (s p : List α) : ∃ b, starts_with s p = some b ∧ (b = true ↔ p <+: s) := by
  rw [starts_with]
  by_cases h : p.length > s.length
  · rw [if_pos h]
    refine ⟨false, rfl, ?_⟩
    simp only [Bool.false_eq_true, false_iff]
    intro hp
    have := hp.length_le
    omega
  · rw [if_neg h]
    by_cases h0 : p.length = 0
    · rw [if_pos h0]
      have : p = [] := List.eq_nil_of_length_eq_zero h0
      exact ⟨true, rfl, by simp [this]⟩
    · rw [if_neg h0, sliceLen_eq (by omega)]
      refine ⟨_, rfl, ?_⟩
      rw [beq_iff_eq, List.prefix_iff_eq_take]
      simp only [List.drop_zero]
      exact eq_comm

theorem ends_with_spec (s p : List α) : ∃ b, ends_with s p = some b ∧ (b = true ↔ p <:+ s) := by
  rw [ends_with]
  by_cases h : p.length > s.length
  · rw [if_pos h]
    refine ⟨false, rfl, ?_⟩
    simp only [Bool.false_eq_true, false_iff]
    intro hp
    have := hp.length_le
    omega
  · rw [if_neg h]
    by_cases h0 : p.length = 0
    · rw [if_pos h0]
      have : p = [] := List.eq_nil_of_length_eq_zero h0
      exact ⟨true, rfl, by simp [this]⟩
    · rw [if_neg h0, sliceLast, if_neg h, sliceFrom_eq (by omega)]
      refine ⟨_, rfl, ?_⟩
      rw [beq_iff_eq, List.suffix_iff_eq_drop]
      exact eq_comm

/-! ## Splitting -/

theorem usz_pred {max : Nat} (h : 0 < max) (h2 : max < 2 ^ 64) : usz ((max : Int) - 1) = max - 1 := by
  rw [usz, Int.emod_eq_of_lt (by omega) (by omega)]
  omega

theorem usz_neg : usz (((0 : Nat) : Int) - 1) = 2 ^ 64 - 1 := by decide

/-- One cut at the first delimiter. -/
theorem cut_step {s d : List α} {i : Nat} (h : At s d i) (hm : ∀ l < i, ¬ At s d l) :
    ∃ p t, s = p ++ (d ++ t) ∧ p.length = i ∧ (∀ l < p.length, ¬ At (p ++ (d ++ t)) d l) ∧
      sliceLen s 0 i = some p ∧ sliceFrom s (i + d.length) = some t := by
  obtain ⟨p, t, rfl, rfl⟩ := h
  refine ⟨p, t, rfl, rfl, hm, ?_, ?_⟩
  · rw [sliceLen_eq (by simp)]; simp
  · rw [sliceFrom_eq (by simp), ← List.drop_drop, List.drop_left, List.drop_left]

/-- What is kept of the pieces. -/
def keep (skip : Bool) (ps : List (List α)) : List (List α) := if skip then ps.filter (fun p => !p.isEmpty) else ps

theorem keep_cons_skip (p : List α) (ps : List (List α)) (skip : Bool) (h : (decide (p.length = 0) && skip) = true) :
    keep skip (p :: ps) = keep skip ps := by
  simp only [Bool.and_eq_true, decide_eq_true_eq, List.length_eq_zero_iff] at h
  simp [keep, h]

theorem keep_cons_take (p : List α) (ps : List (List α)) (skip : Bool) (h : ¬ (decide (p.length = 0) && skip) = true) :
    keep skip (p :: ps) = p :: keep skip ps := by
  simp only [Bool.and_eq_true, decide_eq_true_eq, List.length_eq_zero_iff] at h
  cases skip
  · simp [keep]
  · have : p ≠ [] := fun e => h ⟨e, rfl⟩
    simp [keep, this]

/-- No limit on the number of pieces. -/
theorem splitLoop_spec {d : List α} (hd : d ≠ []) (skip : Bool) : ∀ (k : Nat) (s : List α) (cap : Nat) (holder : List (List α)),
    s.length ≤ k → holder.length ≤ cap → 0 < cap → holder.length + s.length < 2 ^ 64 - 1 →
    ∃ ps, Pieces d s ps ∧ splitLoop d 0 skip s cap holder = some (holder ++ keep skip ps) := by
  have hdl : 0 < d.length := by cases d with | nil => exact absurd rfl hd | cons => simp
  intro k
  induction k with
  | zero =>
    intro s cap holder hk hcap hc0 hb
    have : s = [] := List.eq_nil_of_length_eq_zero (by omega)
    subst this
    have hno : ∀ i, ¬ At ([] : List α) d i := fun i h => by have h' := at_le h; have : ([] : List α).length = 0 := rfl; omega
    refine ⟨[[]], .last _ hno, ?_⟩
    obtain ⟨r, hr, hr2⟩ := index_of_spec [] hd
    rw [splitLoop, if_neg (by rw [usz_neg]; have : ([] : List α).length = 0 := rfl; omega), hr]
    cases r with
    | some j => exact absurd hr2.1 (hno j)
    | none =>
      simp only
      split
      · rename_i h
        rw [keep_cons_skip _ _ _ h]; simp [keep]
      · rename_i h
        rw [keep_cons_take _ _ _ h]
        have hroom : holder.length < (if holder.length = cap then cap * 2 else cap) := by split <;> omega
        rw [if_pos hroom]
        simp [keep]
  | succ k ih =>
    intro s cap holder hk hcap hc0 hb
    obtain ⟨r, hr, hr2⟩ := index_of_spec s hd
    cases r with
    | none =>
      refine ⟨[s], .last _ hr2, ?_⟩
      rw [splitLoop, if_neg (by rw [usz_neg]; omega), hr]
      simp only
      split
      · rename_i h
        rw [keep_cons_skip _ _ _ h]; simp [keep]
      · rename_i h
        rw [keep_cons_take _ _ _ h]
        have hroom : holder.length < (if holder.length = cap then cap * 2 else cap) := by split <;> omega
        rw [if_pos hroom]
        simp [keep]
    | some i =>
      obtain ⟨p, t, hs, hp, hno, e1, e2⟩ := cut_step hr2.1 hr2.2
      have hlen : s.length = p.length + (d.length + t.length) := by rw [hs]; simp
      rw [splitLoop, if_neg (by rw [usz_neg]; omega), hr]
      simp only
      rw [e1, e2]
      simp only
      by_cases h : (decide (p.length = 0) && skip) = true
      · rw [if_pos h]
        obtain ⟨ps, hps, he⟩ := ih t cap holder (by omega) hcap hc0 (by omega)
        refine ⟨p :: ps, ?_, ?_⟩
        · rw [hs]; exact .cut p t ps hno hps
        · rw [he, keep_cons_skip _ _ _ h]
      · rw [if_neg h]
        have hroom : holder.length < (if holder.length = cap then cap * 2 else cap) := by split <;> omega
        rw [if_pos hroom]
        obtain ⟨ps, hps, he⟩ := ih t (if holder.length = cap then cap * 2 else cap) (holder ++ [p]) (by omega)
          (by simp; omega) (by omega) (by simp; omega)
        refine ⟨p :: ps, ?_, ?_⟩
        · rw [hs]; exact .cut p t ps hno hps
        · rw [he, keep_cons_take _ _ _ h]; simp

/-- With a limit, and empty pieces kept. -/
theorem splitLoop_max {d : List α} (hd : d ≠ []) (max : Nat) (hmax : max < 2 ^ 64) : ∀ (n : Nat) (s : List α) (cap : Nat) (holder : List (List α)),
    holder.length + (n + 1) = max → holder.length ≤ cap → 0 < cap →
    ∃ ps, PiecesMax d (n + 1) s ps ∧ splitLoop d max false s cap holder = some (holder ++ ps) := by
  intro n
  induction n with
  | zero =>
    intro s cap holder hn hcap hc0
    refine ⟨[s], .rest s, ?_⟩
    have hroom : holder.length < (if holder.length = cap then cap * 2 else cap) := by split <;> omega
    rw [splitLoop, if_pos (by rw [usz_pred (by omega) hmax]; omega)]
    simp only [Bool.and_false, Bool.false_eq_true, if_false]
    rw [if_pos hroom]
  | succ n ih =>
    intro s cap holder hn hcap hc0
    have hroom : holder.length < (if holder.length = cap then cap * 2 else cap) := by split <;> omega
    obtain ⟨r, hr, hr2⟩ := index_of_spec s hd
    rw [splitLoop, if_neg (by rw [usz_pred (by omega) hmax]; omega), hr]
    cases r with
    | none =>
      refine ⟨[s], .last n s hr2, ?_⟩
      simp only [Bool.and_false, Bool.false_eq_true, if_false]
      rw [if_pos hroom]
    | some i =>
      obtain ⟨p, t, hs, hp, hno, e1, e2⟩ := cut_step hr2.1 hr2.2
      simp only
      rw [e1, e2]
      simp only [Bool.and_false, Bool.false_eq_true, if_false]
      rw [if_pos hroom]
      obtain ⟨ps, hps, he⟩ := ih t (if holder.length = cap then cap * 2 else cap) (holder ++ [p]) (by simp; omega)
        (by simp; omega) (by omega)
      refine ⟨p :: ps, ?_, ?_⟩
      · rw [hs]; exact .cut n p t ps hno hps
      · rw [he]; simp

theorem foldl_join (d : List α) (ps : List (List α)) : ∀ p : List α,
    ps.foldl (fun res str => res ++ d ++ str) p = interleave d (p :: ps) := by
  induction ps with
  | nil => intro p; rfl
  | cons q ps ih =>
    intro p
    rw [List.foldl_cons, ih]
    cases ps with
    | nil => simp [interleave]
    | cons r ps => simp [interleave]

theorem join_eq (ps : List (List α)) (d : List α) : join ps d = interleave d ps := by
  cases ps with
  | nil => rfl
  | cons p ps => exact foldl_join d ps p

theorem pieces_ne {d s : List α} {ps : List (List α)} (h : Pieces d s ps) : ps ≠ [] := by cases h <;> simp

theorem pieces_join {d s : List α} {ps : List (List α)} (h : Pieces d s ps) : interleave d ps = s := by
  induction h with
  | last s _ => rfl
  | cut p t ps _ h ih =>
    cases ps with
    | nil => exact absurd rfl (pieces_ne h)
    | cons q ps => rw [interleave, ih]

theorem piecesMax_ne {d s : List α} {n : Nat} {ps : List (List α)} (h : PiecesMax d n s ps) : ps ≠ [] := by cases h <;> simp

theorem piecesMax_join {d s : List α} {n : Nat} {ps : List (List α)} (h : PiecesMax d n s ps) :
    interleave d ps = s ∧ ps.length ≤ n := by
  induction h with
  | rest s => exact ⟨rfl, by simp⟩
  | last n s _ => exact ⟨rfl, by simp⟩
  | cut n p t ps _ h ih =>
    cases ps with
    | nil => exact absurd rfl (piecesMax_ne h)
    | cons q ps =>
      refine ⟨by rw [interleave, ih.1], ?_⟩
      have := ih.2
      simp at this ⊢; omega

/-- The pieces are determined. -/
theorem pieces_unique {d s : List α} {ps qs : List (List α)} (h : Pieces d s ps) (h' : Pieces d s qs) :
    ps = qs := by
  induction h generalizing qs with
  | last s hno =>
    generalize he : s = x at h'
    cases h' with
    | last => rfl
    | cut p t ps _ _ => exact absurd ⟨p, t, he, rfl⟩ (hno _)
  | cut p t ps hno h ih =>
    generalize he : p ++ (d ++ t) = x at h'
    cases h' with
    | last _ hno' => exact absurd ⟨p, t, he.symm, rfl⟩ (hno' _)
    | cut p' t' ps' hno' h' =>
      have h1 : ¬ p.length < p'.length := fun hl => hno' _ hl ⟨p, t, he.symm, rfl⟩
      have h2 : ¬ p'.length < p.length := fun hl => hno _ hl ⟨p', t', he, rfl⟩
      obtain ⟨rfl, e⟩ := List.append_inj he (by omega)
      have := List.append_cancel_left e
      subst this
      rw [ih h']

/-! ## The splitter -/

/-- All that a splitter returns from `current` on. -/
def given (tokenize : Bool) (ps : List (List α)) : List (List α) :=
  if tokenize then keep true ps else if ps.getLast? = some [] then ps.dropLast else ps

theorem given_nil (tokenize : Bool) : given tokenize ([[]] : List (List α)) = [] := by
  cases tokenize <;> simp [given, keep]

theorem given_cons {tokenize : Bool} {p : List α} {ps : List (List α)} (hps : ps ≠ []) (h : ¬ (p.length = 0 ∧ tokenize = true)) :
    given tokenize (p :: ps) = p :: given tokenize ps := by
  cases tokenize with
  | true =>
    have : p ≠ [] := fun e => h ⟨by simp [e], rfl⟩
    simp [given, keep, this]
  | false =>
    obtain ⟨q, qs, rfl⟩ := List.exists_cons_of_ne_nil hps
    simp only [given, Bool.false_eq_true, if_false, List.getLast?_cons_cons]
    split <;> simp

theorem collect_spec {d : List α} (hd : d ≠ []) (tokenize : Bool) (s : List α) : ∀ (k : Nat) (a t : List α), t.length ≤ k → s = a ++ t →
    ∃ ps, Pieces d t ps ∧
      (∀ q qs, given tokenize ps = q :: qs → ∃ c, next s d tokenize a.length = some (c, some q) ∧
        collect s d tokenize c = some qs) ∧
      (given tokenize ps = [] → ∃ c, next s d tokenize a.length = some (c, none)) := by
  have hdl : 0 < d.length := by cases d with | nil => exact absurd rfl hd | cons => simp
  intro k
  induction k with
  | zero =>
    intro a t hk hs
    have : t = [] := List.eq_nil_of_length_eq_zero (by omega)
    subst this
    refine ⟨[[]], .last _ (fun i h => by have h' := at_le h; have : ([] : List α).length = 0 := rfl; omega), ?_, ?_⟩
    · intro q qs h; rw [given_nil] at h; cases h
    · intro _; exact ⟨_, by rw [next, if_pos (by simp [hs])]⟩
  | succ k ih =>
    intro a t hk hs
    by_cases ht : t = []
    · subst ht
      refine ⟨[[]], .last _ (fun i h => by have h' := at_le h; have : ([] : List α).length = 0 := rfl; omega), ?_, ?_⟩
      · intro q qs h; rw [given_nil] at h; cases h
      · intro _; exact ⟨_, by rw [next, if_pos (by simp [hs])]⟩
    · have htl : 0 < t.length := List.length_pos_iff.2 ht
      have hsl : s.length = a.length + t.length := by rw [hs]; simp
      have hsf : sliceFrom s a.length = some t := by rw [sliceFrom_eq (by omega), hs]; simp
      have hnext : next s d tokenize a.length =
          match index_of t d with
          | none => none
          | some (some n) =>
            if n = 0 && tokenize then next s d tokenize (a.length + n + d.length)
            else
              match sliceLen t 0 n with
              | none => none
              | some r => some (a.length + n + d.length, some r)
          | some none => some (s.length, some t) := by
        rw [next, if_neg (by omega), hsf]
        rfl
      obtain ⟨r, hr, hr2⟩ := index_of_spec t hd
      cases r with
      | none =>
        refine ⟨[t], .last t hr2, ?_, ?_⟩
        · intro q qs h
          have hg : given tokenize [t] = [t] := by
            cases tokenize <;> simp [given, keep, ht]
          rw [hg] at h
          simp only [List.cons.injEq] at h
          obtain ⟨rfl, rfl⟩ := h
          refine ⟨s.length, by rw [hnext, hr], ?_⟩
          rw [collect, next, if_pos (Nat.le_refl _)]
        · intro h
          have hg : given tokenize [t] = [t] := by
            cases tokenize <;> simp [given, keep, ht]
          rw [hg] at h; cases h
      | some i =>
        obtain ⟨p, u, hp1, hp2, hno, e1, e2⟩ := cut_step hr2.1 hr2.2
        have hul : t.length = p.length + (d.length + u.length) := by rw [hp1]; simp
        obtain ⟨ps, hps, h1, h2⟩ := ih (a ++ p ++ d) u (by omega) (by rw [hs, hp1]; simp)
        have hal : (a ++ p ++ d).length = a.length + i + d.length := by simp; omega
        rw [hal] at h1 h2
        have hcol : collect s d tokenize (a.length + i + d.length) = some (given tokenize ps) := by
          rw [collect]
          cases hg : given tokenize ps with
          | nil => obtain ⟨c, hc⟩ := h2 hg; rw [hc]
          | cons q qs => obtain ⟨c, hc, hc2⟩ := h1 q qs hg; simp [hc, hc2]
        refine ⟨p :: ps, by rw [hp1]; exact .cut p u ps hno hps, ?_⟩
        by_cases hsk : p.length = 0 ∧ tokenize = true
        · have hg : given tokenize (p :: ps) = given tokenize ps := by
            rw [hsk.2]
            have : p = [] := List.eq_nil_of_length_eq_zero hsk.1
            simp [given, keep, this]
          have hn : next s d tokenize a.length = next s d tokenize (a.length + i + d.length) := by
            rw [hnext, hr]
            simp only
            rw [if_pos (by simp [hsk.2]; omega)]
          rw [hg, hn]
          exact ⟨h1, h2⟩
        · have hg : given tokenize (p :: ps) = p :: given tokenize ps := given_cons (pieces_ne hps) hsk
          have hn : next s d tokenize a.length = some (a.length + i + d.length, some p) := by
            rw [hnext, hr]
            simp only
            rw [if_neg (by simp only [Bool.and_eq_true, decide_eq_true_eq]; rw [← hp2]; exact hsk), e1]
          rw [hg]
          refine ⟨fun q qs h => ?_, fun h => by cases h⟩
          simp only [List.cons.injEq] at h
          obtain ⟨rfl, rfl⟩ := h
          exact ⟨_, hn, hcol⟩

theorem collect_eq {d : List α} (hd : d ≠ []) (tokenize : Bool) (s : List α) :
    ∃ ps, Pieces d s ps ∧ collect s d tokenize 0 = some (given tokenize ps) := by
  obtain ⟨ps, hps, h1, h2⟩ := collect_spec hd tokenize s s.length [] s (Nat.le_refl _) rfl
  refine ⟨ps, hps, ?_⟩
  simp only [List.length_nil] at h1 h2
  rw [collect]
  cases hg : given tokenize ps with
  | nil => obtain ⟨c, hc⟩ := h2 hg; rw [hc]
  | cons q qs => obtain ⟨c, hc, hc2⟩ := h1 q qs hg; simp [hc, hc2]

end C3.Str
