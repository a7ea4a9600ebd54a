import Verif.Fmt.LemmasText

set_option autoImplicit false

namespace C3.Fmt
open Std

/-! ## The number returned -/

theorem ntoaFormat_len (f : Fmt) (buf : List Byte) (neg : Bool) (base : Nat) (r : Res)
    (h : ntoaFormat f buf neg base = .ok r) : r.len ≤ r.out.length := by
  unfold ntoaFormat at h
  simp only [bind, Except.bind] at h
  split at h
  · cases h
  split at h
  · cases h
  split at h
  · cases h
  cases h
  dsimp only
  split
  · simp only [outReverse, List.length_append, List.length_reverse]; omega
  · rename_i h0; simp only [ne_eq, Decidable.not_not] at h0; omega

theorem ntoa_len (f : Fmt) (v : BitVec 128) (neg : Bool) (base : Nat) (r : Res)
    (h : ntoa f v neg base = .ok r) : r.len ≤ r.out.length := by
  unfold ntoa at h
  simp only [bind, Except.bind] at h
  generalize (if v = 0 then { f with flags := { f.flags with hash := false } } else f) = g at h
  split at h
  · split at h
    · cases h
    · exact ntoaFormat_len _ _ _ _ r h
  · exact ntoaFormat_len _ _ _ _ r h

theorem convInt_len (f : Fmt) (base : Nat) (a : Arg) (r : Res) (h : convInt f base a = .ok r) :
    r.len ≤ r.out.length := by
  unfold convInt at h
  simp only at h
  split at h
  · cases h
  · exact ntoa_len _ _ _ _ r h

theorem outInt_len (f : Fmt) (a : Arg) : (outInt f a).len ≤ (outInt f a).out.length := by
  unfold outInt
  simp only
  split
  · rename_i r h
    simp only [bind, Except.bind] at h
    split at h
    · cases h
    · exact ntoa_len _ _ _ _ r h
  · simp [sub]

theorem outElements_len (f : Fmt) (s : List Byte) : (outElements f s).len ≤ (outElements f s).out.length := by
  induction s with
  | nil => simp [outElements]
  | cons c l ih =>
    have := outInt_len f (.int false 8 c)
    cases l with
    | nil => rw [outElements]; exact this
    | cons d l =>
      rw [outElements.eq_def]
      simp only [List.length_append, txt, List.length_map, List.length_cons, List.length_nil]
      omega

theorem outStr_len (f : Fmt) (a : Arg) : (outStr f a).len ≤ (outStr f a).out.length := by
  cases a with
  | int s w x => exact outInt_len f _
  | str s => simp [outStr, sub]
  | bytes s =>
    have := outElements_len f s
    simp only [outStr, List.length_append, List.length_cons, List.length_nil]
    omega

theorem charBytes_len (c : BitVec 32) : 1 ≤ (charBytes c).length := by
  unfold charBytes
  split
  · simp
  · split
    · simp
    · split <;> simp

theorem convert_len (f : Fmt) (c : Byte) (a : Arg) (r : Res) (h : convert f c a = .ok r) : r.len ≤ r.out.length := by
  unfold convert at h
  split at h
  · simp only at h
    split at h
    · rename_i hr; cases h; exact convInt_len _ _ _ _ hr
    · cases h
  · split at h
    · split at h
      · rename_i hr; cases h; exact convInt_len _ _ _ _ hr
      · cases h
    · split at h
      · cases h
        unfold outChar
        split
        · rename_i s w x
          simp only [List.length_append]
          have := charBytes_len (if 0 ≤ value (.int s w x) ∧ value (.int s w x) < 2 ^ 32
            then BitVec.ofInt 32 (value (.int s w x)) else 0xFFFD)
          omega
        · simp [sub]
      · split at h
        · cases h
          unfold convHex
          split
          · simp only
            split
            · simp
            · simp
          · simp [sub]
        · split at h
          · cases h
            unfold convHex
            split
            · simp only
              split
              · simp
              · simp
            · simp [sub]
          · split at h
            · cases h
              have := outStr_len f a
              unfold convStr
              simp only
              split
              · simp only [List.length_append]; omega
              · simp only [List.length_append]; omega
            · split at h
              · cases h
              · cases h; simp [sub]

theorem vloop_len (n : Nat) : ∀ first l args o k f, vloop n first l args = .ok (o, k, f) → k ≤ o.length := by
  have aft : ∀ (out : List Byte) (len : Nat) r (o : List Byte) (k : Nat) (f : Option Fault), len ≤ out.length →
      (∀ o k f, r = .ok (o, k, f) → k ≤ o.length) → after out len r = .ok (o, k, f) → k ≤ o.length := by
    intro out len r o k f h1 h2 h3
    unfold after at h3
    split at h3
    · cases h3
      have := h2 _ _ _ rfl
      simp only [List.length_append]; omega
    · cases h3
  induction n with
  | zero =>
    intro first l args o k f h
    cases l with
    | nil => rw [vloop] at h; cases h; exact Nat.le_refl _
    | cons c l => rw [vloop] at h; cases h
  | succ n ih =>
    intro first l args o k f h
    cases l with
    | nil => rw [vloop] at h; cases h; exact Nat.le_refl _
    | cons c tl =>
      rw [vloop.eq_def] at h
      simp only at h
      split at h
      · exact aft _ _ _ _ _ _ (by simp) (ih _ _ _) h
      · split at h
        · cases h
        · split at h
          · exact aft _ _ _ _ _ _ (by simp) (ih _ _ _) h
          · split at h
            · cases h
            · split at h
              · exact aft _ _ _ _ _ _ (by simp [sub]) (ih _ _ _) h
              · split at h
                · cases h
                · cases h
                · rename_i hr
                  exact aft _ _ _ _ _ _ (convert_len _ _ _ _ hr) (ih _ _ _) h

/-! ## Faults stay -/

theorem vloop_first (n : Nat) : ∀ e l args o k f, vloop n (some e) l args = .ok (o, k, f) → f = some e := by
  have aft : ∀ (e : Fault) (out : List Byte) (len : Nat) r (o : List Byte) (k : Nat) (f : Option Fault),
      (∀ o k f, r = .ok (o, k, f) → f = some e) → after out len r = .ok (o, k, f) → f = some e := by
    intro e out len r o k f h2 h3
    unfold after at h3
    split at h3
    · cases h3
      exact h2 _ _ _ rfl
    · cases h3
  induction n with
  | zero =>
    intro e l args o k f h
    cases l with
    | nil => rw [vloop] at h; cases h; rfl
    | cons c l => rw [vloop] at h; cases h
  | succ n ih =>
    intro e l args o k f h
    cases l with
    | nil => rw [vloop] at h; cases h; rfl
    | cons c tl =>
      rw [vloop.eq_def] at h
      simp only [firstErr] at h
      split at h
      · exact aft _ _ _ _ _ _ _ (ih _ _ _) h
      · split at h
        · cases h
        · split at h
          · exact aft _ _ _ _ _ _ _ (ih _ _ _) h
          · split at h
            · cases h
            · split at h
              · exact aft _ _ _ _ _ _ _ (ih _ _ _) h
              · split at h
                · cases h
                · cases h
                · exact aft _ _ _ _ _ _ _ (ih _ _ _) h

/-! ## Panics -/

/-- The list ends in a digit. -/
def EndsInDigit (l : List Byte) : Prop := ∃ p c, l = p ++ [c] ∧ isDigit c = true

theorem EndsInDigit.cons {l : List Byte} (c : Byte) (h : EndsInDigit l) : EndsInDigit (c :: l) := by
  obtain ⟨p, d, h1, h2⟩ := h
  exact ⟨c :: p, d, by rw [h1]; rfl, h2⟩

theorem simpleAtoi_end (l : List Byte) : ∀ i, l ≠ [] → (simpleAtoi i l).2 = [] → EndsInDigit l := by
  induction l with
  | nil => intro i h; exact absurd rfl h
  | cons c l ih =>
    intro i _ h
    rw [simpleAtoi] at h
    by_cases hc : isDigit c = true
    · rw [if_pos hc] at h
      cases l with
      | nil => exact ⟨[], c, rfl, hc⟩
      | cons d l => exact (ih _ (by simp) h).cons c
    · rw [if_neg hc] at h; cases h

/-- What `simple_atoi` leaves is the end of the text. -/
theorem simpleAtoi_suffix (l : List Byte) : ∀ i, ∃ p, l = p ++ (simpleAtoi i l).2 := by
  induction l with
  | nil => intro i; exact ⟨[], rfl⟩
  | cons c l ih =>
    intro i
    rw [simpleAtoi]
    by_cases hc : isDigit c = true
    · rw [if_pos hc]
      obtain ⟨p, hp⟩ := ih (i * 10 + c.zeroExtend 32 - 48)
      exact ⟨c :: p, by rw [List.cons_append, ← hp]⟩
    · rw [if_neg hc]; exact ⟨[], rfl⟩

theorem EndsInDigit.append {l : List Byte} (p : List Byte) (h : EndsInDigit l) : EndsInDigit (p ++ l) := by
  obtain ⟨q, d, h1, h2⟩ := h
  exact ⟨p ++ q, d, by rw [h1, List.append_assoc], h2⟩

theorem parseFlags_ok (l : List Byte) : ∀ fl fl' r, parseFlags fl l = .ok (fl', r) → r ≠ [] ∧ ∃ p, l = p ++ r := by
  induction l with
  | nil => intro fl fl' r h; rw [parseFlags] at h; cases h
  | cons c l ih =>
    intro fl fl' r h
    rw [parseFlags] at h
    split at h
    · obtain ⟨h1, p, h2⟩ := ih _ _ _ h
      exact ⟨h1, c :: p, by rw [h2]; rfl⟩
    · cases h; exact ⟨by simp, [], rfl⟩

theorem parseFlags_err (l : List Byte) : ∀ fl e, parseFlags fl l = .error e → e = .fault .invalidFormat := by
  induction l with
  | nil => intro fl e h; rw [parseFlags] at h; cases h; rfl
  | cons c l ih =>
    intro fl e h
    rw [parseFlags] at h
    split at h
    · exact ih _ _ h
    · cases h

theorem parseField_ok (l : List Byte) (args : List Arg) (v : Int) (r : List Byte) (args' : List Arg)
    (h : parseField l args = .ok (v, r, args')) : (∃ p, l = p ++ r) ∧ (r = [] → EndsInDigit l) := by
  rw [parseField.eq_def] at h
  cases l with
  | nil => cases h
  | cons c tl =>
    simp only at h
    by_cases hc : isDigit c = true
    · rw [if_pos hc] at h
      cases h
      exact ⟨simpleAtoi_suffix _ _, fun hr => simpleAtoi_end _ 0 (by simp) hr⟩
    · rw [if_neg hc] at h
      split at h
      · cases h; exact ⟨⟨[], rfl⟩, fun h => by cases h⟩
      · split at h
        · cases h
        · rename_i htl
          split at h
          · split at h
            · cases h; exact ⟨⟨[c], rfl⟩, fun g => absurd g htl⟩
            · cases h
          · cases h

theorem parseField_err (l : List Byte) (hl : l ≠ []) (args : List Arg) (e : Stop) (h : parseField l args = .error e) :
    e = .fault .invalidFormat := by
  rw [parseField.eq_def] at h
  cases l with
  | nil => exact absurd rfl hl
  | cons c tl =>
    simp only at h
    split at h
    · cases h
    · split at h
      · cases h
      · split at h
        · cases h; rfl
        · split at h
          · split at h
            · cases h
            · cases h; rfl
          · cases h; rfl

theorem parseSpec_shape (l : List Byte) (args : List Arg) :
    (∀ e, parseSpec l args = .error e → e = .fault .invalidFormat ∨ (e = .panic ∧ EndsInDigit l)) ∧
    (∀ f c tl args', parseSpec l args = .ok (f, c, tl, args') → ∃ p, l = p ++ tl ∧ p ≠ []) := by
  rw [parseSpec]
  simp only [bind, Except.bind]
  cases h1 : parseFlags {} l with
  | error e => exact ⟨fun e' h => by cases h; exact .inl (parseFlags_err _ _ _ h1), fun _ _ _ _ h => by cases h⟩
  | ok v =>
    obtain ⟨fl, l1⟩ := v
    obtain ⟨n1, p1, e1⟩ := parseFlags_ok _ _ _ _ h1
    simp only
    cases h2 : parseField l1 args with
    | error e => exact ⟨fun e' h => by cases h; exact .inl (parseField_err _ n1 _ _ h2), fun _ _ _ _ h => by cases h⟩
    | ok v =>
      obtain ⟨w, l2, args2⟩ := v
      obtain ⟨⟨p2, e2⟩, d2⟩ := parseField_ok _ _ _ _ _ h2
      simp only
      cases l2 with
      | nil =>
        refine ⟨fun e' h => ?_, fun _ _ _ _ h => by cases h⟩
        cases h
        refine .inr ⟨rfl, ?_⟩
        rw [e1]; exact (d2 rfl).append p1
      | cons c tl =>
        simp only
        unfold parsePrec
        by_cases hc : c = ch '.'
        · rw [if_pos hc]
          by_cases ht : tl = []
          · rw [if_pos ht]
            exact ⟨fun e' h => by cases h; exact .inl rfl, fun _ _ _ _ h => by cases h⟩
          · rw [if_neg ht]
            simp only [bind, Except.bind]
            cases h3 : parseField tl args2 with
            | error e => exact ⟨fun e' h => by cases h; exact .inl (parseField_err _ ht _ _ h3), fun _ _ _ _ h => by cases h⟩
            | ok v =>
              obtain ⟨q, l3, args3⟩ := v
              obtain ⟨⟨p3, e3⟩, d3⟩ := parseField_ok _ _ _ _ _ h3
              simp only
              cases l3 with
              | nil =>
                refine ⟨fun e' h => ?_, fun _ _ _ _ h => by cases h⟩
                cases h
                refine .inr ⟨rfl, ?_⟩
                rw [e1, e2]; exact (((d3 rfl).cons c).append p2).append p1
              | cons c3 tl3 =>
                refine ⟨fun e' h => (by cases h), fun _ _ _ _ h => ?_⟩
                cases h
                refine ⟨p1 ++ p2 ++ c :: p3 ++ [c3], ?_, by simp⟩
                rw [e1, e2, e3]; simp
        · rw [if_neg hc]
          refine ⟨fun e' h => (by cases h), fun _ _ _ _ h => ?_⟩
          cases h
          refine ⟨p1 ++ p2 ++ [c], ?_, by simp⟩
          rw [e1, e2]; simp

theorem convert_err (f : Fmt) (c : Byte) (a : Arg) (e : Stop) (h : convert f c a = .error e) :
    e ≠ .panic ∧ e ≠ .rounds := by
  unfold convert at h
  split at h
  · simp only at h
    split at h
    · cases h
    · cases h; exact ⟨by simp, by simp⟩
  · split at h
    · split at h
      · cases h
      · cases h; exact ⟨by simp, by simp⟩
    · split at h
      · cases h
      · split at h
        · cases h
        · split at h
          · cases h
          · split at h
            · cases h
            · split at h
              · cases h; exact ⟨by simp, by simp⟩
              · cases h

theorem after_err (out : List Byte) (len : Nat) (r : Except Stop (List Byte × Nat × Option Fault)) (e : Stop)
    (h : after out len r = .error e) : r = .error e := by
  unfold after at h
  split at h
  · cases h
  · exact h

theorem vloop_err (n : Nat) : ∀ first l args e, l.length ≤ n → vloop n first l args = .error e →
    e ≠ .rounds ∧ (e = .panic → EndsInDigit l) := by
  induction n with
  | zero =>
    intro first l args e hn h
    cases l with
    | nil => rw [vloop] at h; cases h
    | cons c l => simp at hn
  | succ n ih =>
    intro first l args e hn h
    cases l with
    | nil => rw [vloop] at h; cases h
    | cons c tl =>
      simp only [List.length_cons] at hn
      rw [vloop.eq_def] at h
      simp only at h
      split at h
      · obtain ⟨a, b⟩ := ih _ _ _ _ (by omega) (after_err _ _ _ _ h)
        exact ⟨a, fun g => (b g).cons c⟩
      · split at h
        · cases h; exact ⟨by simp, by simp⟩
        · rename_i d tl'
          simp only [List.length_cons] at hn
          split at h
          · obtain ⟨a, b⟩ := ih _ _ _ _ (by omega) (after_err _ _ _ _ h)
            exact ⟨a, fun g => ((b g).cons d).cons c⟩
          · obtain ⟨s1, s2⟩ := parseSpec_shape (d :: tl') args
            split at h
            · rename_i e' he
              cases h
              rcases s1 _ he with r | ⟨r, g⟩
              · rw [r]; exact ⟨by simp, by simp⟩
              · rw [r]; exact ⟨by simp, fun _ => g.cons c⟩
            · rename_i f' c' tl2 args2 he
              obtain ⟨p, e1, e2⟩ := s2 _ _ _ _ he
              have hl : tl2.length ≤ n := by
                have := congrArg List.length e1
                have := List.length_pos_iff.2 e2
                simp only [List.length_cons, List.length_append] at *
                omega
              rw [e1]
              split at h
              · obtain ⟨a, b⟩ := ih _ _ _ _ hl (after_err _ _ _ _ h)
                exact ⟨a, fun g => ((b g).append p).cons c⟩
              · split at h
                · cases h; exact ⟨by simp, by simp⟩
                · rename_i he2
                  cases h
                  obtain ⟨a, b⟩ := convert_err _ _ _ _ he2
                  exact ⟨b, fun g => absurd g a⟩
                · obtain ⟨a, b⟩ := ih _ _ _ _ hl (after_err _ _ _ _ h)
                  exact ⟨a, fun g => ((b g).append p).cons c⟩

end C3.Fmt
