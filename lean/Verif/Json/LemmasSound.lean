import Verif.Json.SpecSound
import Verif.Json.LemmasParse
import Verif.Json.LemmasSafe

/-! # What the reader accepts -/

set_option autoImplicit false

namespace C3.Json

open Spec (Gap OpenComment Chars upToZero Number Loose Trail Item decimal hexValue IsHex escapes)

theorem Gap.append {a b : List Nat} (ha : Gap a) (hb : Gap b) : Gap (a ++ b) := by
  induction ha with
  | nil => exact hb
  | space c s hc _ ih => exact .space c _ hc ih
  | line b' s h _ ih =>
    have := Gap.line b' _ h ih
    simpa using this
  | block b' s h _ ih =>
    have := Gap.block b' _ h ih
    simpa using this

theorem skipLine_split (s : List Nat) : (10 ∉ s ∧ skipLine s = []) ∨
    ∃ b r, 10 ∉ b ∧ s = b ++ 10 :: r ∧ skipLine s = 10 :: r := by
  induction s with
  | nil => exact .inl ⟨by simp, rfl⟩
  | cons c s ih =>
    by_cases hc : c = 10
    · subst hc
      exact .inr ⟨[], s, by simp, rfl, by simp [skipLine, ch]⟩
    · have e : skipLine (c :: s) = skipLine s := by
        rw [skipLine, if_neg (by simpa [ch] using hc)]
      rw [e]
      rcases ih with ⟨h1, h2⟩ | ⟨b, r, h1, h2, h3⟩
      · exact .inl ⟨by simp [h1, Ne.symm hc], h2⟩
      · exact .inr ⟨c :: b, r, by simp [h1, Ne.symm hc], by rw [h2]; rfl, h3⟩

theorem infix_two {x y c d : Nat} {s : List Nat} :
    [x, y] <:+: c :: d :: s ↔ (c = x ∧ d = y) ∨ [x, y] <:+: d :: s := by
  constructor
  · rintro ⟨a, b, h⟩
    cases a with
    | nil => simp at h; exact .inl ⟨h.1.symm, h.2.1.symm⟩
    | cons z a =>
      simp at h
      exact .inr ⟨a, b, by simpa using h.2⟩
  · rintro (⟨rfl, rfl⟩ | ⟨a, b, h⟩)
    · exact ⟨[], s, rfl⟩
    · exact ⟨c :: a, b, by simp at h ⊢; exact h⟩

theorem str_close : Spec.str "*/" = [42, 47] := by decide

theorem not_infix_short {x y : Nat} {s : List Nat} (h : s.length < 2) : ¬ [x, y] <:+: s := by
  intro hi
  have := hi.length_le
  simp at this
  omega

theorem skipBlock_split (s : List Nat) : (¬ Spec.str "*/" <:+: s ∧ skipBlock s = []) ∨
    ∃ b r, ¬ Spec.str "*/" <:+: b ++ [42] ∧ s = b ++ (Spec.str "*/" ++ r) ∧ skipBlock s = r := by
  rw [str_close]
  fun_induction skipBlock s with
  | case1 => exact .inl ⟨not_infix_short (by simp), rfl⟩
  | case2 c => exact .inl ⟨not_infix_short (by simp), rfl⟩
  | case3 c d s h =>
    simp only [Bool.and_eq_true, decide_eq_true_eq] at h
    obtain ⟨rfl, rfl⟩ := h
    exact .inr ⟨[], s, not_infix_short (by simp), rfl, rfl⟩
  | case4 c d s h ih =>
    simp only [Bool.and_eq_true, decide_eq_true_eq] at h
    rcases ih with ⟨h1, h2⟩ | ⟨b, r, h1, h2, h3⟩
    · left
      refine ⟨?_, h2⟩
      rw [infix_two]
      rintro (h' | h')
      · exact h h'
      · exact h1 h'
    · right
      refine ⟨c :: b, r, ?_, by rw [h2]; rfl, h3⟩
      cases b with
      | nil =>
        simp at h2
        simp only [List.cons_append, List.nil_append]
        rw [infix_two]
        rintro (h' | h')
        · omega
        · exact not_infix_short (by simp) h'
      | cons z b =>
        simp at h2
        simp only [List.cons_append]
        rw [infix_two]
        rintro (h' | h')
        · exact h ⟨h'.1, by rw [h2.1]; exact h'.2⟩
        · exact h1 h'

theorem skipSpace_line (s : List Nat) : skipSpace (47 :: 47 :: s) = skipSpace (skipLine s) := by
  rw [skipSpace.eq_def]
  simp only
  rw [if_pos (by decide), if_pos (by decide)]

theorem skipSpace_block (s : List Nat) : skipSpace (47 :: 42 :: s) = skipSpace (skipBlock s) := by
  rw [skipSpace.eq_def]
  simp only
  rw [if_pos (by decide), if_neg (by decide), if_pos (by decide)]

theorem skipSpace_space {c : Nat} (h : c ∈ [32, 9, 10, 11, 13]) (s : List Nat) :
    skipSpace (c :: s) = skipSpace s := by
  rw [skipSpace.eq_def]
  simp only
  simp at h
  rw [if_neg (by simp [ch]; omega), if_pos (by rw [isSpace_iff]; omega)]

theorem skipSpace_other {c : Nat} (h : c ∉ [32, 9, 10, 11, 13]) (s : List Nat)
    (hc : c = 47 → ∀ d s', s = d :: s' → d ≠ 47 ∧ d ≠ 42) : skipSpace (c :: s) = c :: s := by
  simp at h
  by_cases h47 : c = 47
  · subst h47
    rw [skipSpace.eq_def]
    simp only
    rw [if_pos (by decide)]
    cases s with
    | nil => rfl
    | cons d s =>
      have := hc rfl d s rfl
      simp only
      rw [if_neg (by simpa [ch] using this.1), if_neg (by simpa [ch] using this.2)]
  · exact skipSpace_stop c s (by omega)

/-- What is skipped, and where skipping stops. -/
theorem skipSpace_split : ∀ (n : Nat) (s : List Nat), s.length ≤ n → ∃ w r, Gap w ∧ s = w ++ r ∧
    (skipSpace s = r ∨ (skipSpace s = [] ∧ OpenComment r)) := by
  intro n
  induction n with
  | zero =>
    intro s hs
    cases s with
    | nil => exact ⟨[], [], .nil, rfl, .inl (by simp [skipSpace])⟩
    | cons c s => simp at hs
  | succ n ih =>
    intro s hs
    rcases s with _ | ⟨c, s⟩
    · exact ⟨[], [], .nil, rfl, .inl (by simp [skipSpace])⟩
    simp at hs
    by_cases hsp : c ∈ [32, 9, 10, 11, 13]
    · rw [skipSpace_space hsp]
      obtain ⟨w, q, hw, he, hq⟩ := ih s hs
      exact ⟨c :: w, q, .space c w hsp hw, by rw [he]; rfl, hq⟩
    by_cases hst : c = 47 → ∀ d s', s = d :: s' → d ≠ 47 ∧ d ≠ 42
    · rw [skipSpace_other hsp s hst]
      exact ⟨[], _, .nil, rfl, .inl rfl⟩
    · simp only [not_forall, not_and_or, not_not, exists_prop] at hst
      obtain ⟨rfl, d, s', rfl, hd⟩ := hst
      simp at hs
      rcases hd with rfl | rfl
      · rw [skipSpace_line]
        rcases skipLine_split s' with ⟨h1, h2⟩ | ⟨b, r, h1, h2, h3⟩
        · refine ⟨[], _, .nil, rfl, .inr ⟨?_, .inl ⟨s', h1, rfl⟩⟩⟩
          rw [h2]; simp [skipSpace]
        · rw [h3, skipSpace_space (by simp)]
          have hl : r.length ≤ n := by
            have := congrArg List.length h2
            simp at this
            omega
          obtain ⟨w, q, hw, he, hq⟩ := ih r hl
          exact ⟨_, q, .line b w h1 hw, by rw [h2, he]; simp [Spec.str], hq⟩
      · rw [skipSpace_block]
        rcases skipBlock_split s' with ⟨h1, h2⟩ | ⟨b, r, h1, h2, h3⟩
        · refine ⟨[], _, .nil, rfl, .inr ⟨?_, .inr ⟨s', h1, rfl⟩⟩⟩
          rw [h2]; simp [skipSpace]
        · rw [h3]
          have hl : r.length ≤ n := by
            have := congrArg List.length h2
            simp at this
            omega
          obtain ⟨w, q, hw, he, hq⟩ := ih r hl
          exact ⟨_, q, .block b w h1 hw, by rw [h2, he]; simp [Spec.str], hq⟩

/-- The text of a token. -/
inductive TokText : Tok → List Nat → Prop where
  | lbrace : TokText .lbrace [123]
  | rbrace : TokText .rbrace [125]
  | lbracket : TokText .lbracket [91]
  | rbracket : TokText .rbracket [93]
  | colon : TokText .colon [58]
  | comma : TokText .comma [44]
  | str (s t : List Nat) : Chars s t → TokText (.str (upToZero t)) (34 :: (s ++ [34]))
  | num (q : Rat) (s : List Nat) : Number q s → TokText (.num q) s
  | true : TokText .true (Spec.str "true")
  | false : TokText .false (Spec.str "false")
  | null : TokText .null (Spec.str "null")
  | eof : TokText .eof []
  | eofOpen (s : List Nat) : OpenComment s → TokText .eof s

theorem escape_mem {e v : Nat} (h : escape e = some v) : (e, v) ∈ escapes := by
  unfold escape at h
  by_cases h1 : e = 92 ∨ e = 34 ∨ e = 47
  · rw [if_pos (by simp only [Bool.or_eq_true, decide_eq_true_eq]; show (e = 92 ∨ e = 34) ∨ e = 47; omega)] at h
    cases h
    rcases h1 with rfl | rfl | rfl <;> decide
  rw [if_neg (by simp only [Bool.or_eq_true, decide_eq_true_eq]; show ¬ ((e = 92 ∨ e = 34) ∨ e = 47); omega)] at h
  by_cases h2 : e = 98
  · subst h2; rw [if_pos (by decide)] at h; cases h; decide
  rw [if_neg (by simpa [ch] using h2)] at h
  by_cases h3 : e = 110
  · subst h3; rw [if_pos (by decide)] at h; cases h; decide
  rw [if_neg (by simpa [ch] using h3)] at h
  by_cases h4 : e = 102
  · subst h4; rw [if_pos (by decide)] at h; cases h; decide
  rw [if_neg (by simpa [ch] using h4)] at h
  by_cases h5 : e = 114
  · subst h5; rw [if_pos (by decide)] at h; cases h; decide
  rw [if_neg (by simpa [ch] using h5)] at h
  by_cases h6 : e = 116
  · subst h6; rw [if_pos (by decide)] at h; cases h; decide
  rw [if_neg (by simpa [ch] using h6)] at h
  cases h

theorem push_some {room : Nat} {out out' : List Nat} {c : Nat} (h : push room out c = some out') :
    out' = out ++ [c] := by
  unfold push at h
  split at h
  · cases h; rfl
  · cases h

theorem string_sound : ∀ (n room : Nat) (out s : List Nat) (p : P), s.length ≤ n →
    string room out s = some p → p.err = false →
    ∃ k t, s = k ++ 34 :: p.cur ∧ Chars k t ∧ p.tok = .str (cstr (out ++ t)) := by
  intro n
  induction n with
  | zero =>
    intro room out s p hn h he
    cases s with
    | nil => rw [string.eq_def] at h; cases h; simp [fail] at he
    | cons c s => simp at hn
  | succ n ih =>
    intro room out s p hn h he
    cases s with
    | nil => rw [string.eq_def] at h; cases h; simp [fail] at he
    | cons c s =>
      rw [string.eq_def] at h
      simp only at h
      simp at hn
      split at h
      · next hc =>
        simp only [Option.bind_eq_bind, Option.bind_eq_some_iff] at h
        obtain ⟨o, ho, h⟩ := h
        cases h
        rw [push_some ho]
        refine ⟨[], [], by rw [hc]; rfl, .nil, ?_⟩
        simp only [List.append_nil]
        rw [cstr_zero]
      · next hc =>
        split at h
        · next hb =>
          simp only [Option.bind_eq_bind, Option.bind_eq_some_iff] at h
          obtain ⟨o, ho, h⟩ := h
          obtain ⟨k, t, h1, h2, h3⟩ := ih room o s p hn h he
          refine ⟨c :: k, c :: t, by rw [h1]; rfl, .plain c k t (by simp [ch] at hc hb ⊢; exact ⟨hc, hb⟩) h2, ?_⟩
          rw [h3, push_some ho]
          simp
        · next hb =>
          have hb : c = 92 := by simpa [ch] using hb
          subst hb
          split at h
          · cases h; simp [fail] at he
          · next e s =>
            simp at hn
            split at h
            · next hu =>
              have hu : e = 117 := by simpa [ch] using hu
              subst hu
              split at h
              · next u1 u2 u3 u4 s' =>
                split at h
                · next hh =>
                  simp only [Bool.and_eq_true, isHex_iff] at hh
                  simp only [Option.bind_eq_bind, Option.bind_eq_some_iff] at h
                  obtain ⟨o, ho, h⟩ := h
                  simp at hn
                  obtain ⟨k, t, h1, h2, h3⟩ := ih room o s' p (by omega) h he
                  refine ⟨92 :: 117 :: ([u1, u2, u3, u4] ++ k), hexValue [u1, u2, u3, u4] % 256 :: t,
                    by rw [h1]; rfl, .u [u1, u2, u3, u4] k t rfl ?_ h2, ?_⟩
                  · simp; exact ⟨hh.1.1.1, hh.1.1.2, hh.1.2, hh.2⟩
                  · rw [h3, push_some ho]
                    rw [nibble_spec hh.1.1.1, nibble_spec hh.1.1.2, nibble_spec hh.1.2, nibble_spec hh.2]
                    simp only [hexValue, List.foldl_cons, List.foldl_nil, List.append_assoc, List.cons_append,
                      List.nil_append]
                    congr 5
                    omega
                · cases h; simp [fail] at he
              · cases h; simp [fail] at he
              · cases h
            · next hu =>
              split at h
              · next v hv =>
                simp only [Option.bind_eq_bind, Option.bind_eq_some_iff] at h
                obtain ⟨o, ho, h⟩ := h
                obtain ⟨k, t, h1, h2, h3⟩ := ih room o s p (by omega) h he
                refine ⟨92 :: e :: k, v :: t, by rw [h1]; rfl, .escape e v k t (escape_mem hv) h2, ?_⟩
                rw [h3, push_some ho]
                simp
              · cases h; simp [fail] at he

theorem digits_split (s : List Nat) : ∃ d r, (∀ c ∈ d, 48 ≤ c ∧ c ≤ 57) ∧ s = d ++ r ∧
    (∀ c ∈ r.head?, isDigit c = false) := by
  induction s with
  | nil => exact ⟨[], [], by simp, rfl, by simp⟩
  | cons c s ih =>
    by_cases hc : isDigit c = true
    · obtain ⟨d, r, h1, h2, h3⟩ := ih
      refine ⟨c :: d, r, ?_, by rw [h2]; rfl, h3⟩
      intro x hx
      simp at hx
      rcases hx with rfl | hx
      · exact (isDigit_iff _).1 hc
      · exact h1 x hx
    · exact ⟨[], c :: s, by simp, rfl, by simpa using hc⟩

theorem numberTail_sound {sign d r : List Nat} (hs : sign ∈ [[], [45]]) (hne : sign ++ d ≠ [])
    (hd : ∀ c ∈ d, 48 ≤ c ∧ c ≤ 57) :
    ∃ q t, (numberTail (decimal d) r).tok = .num q ∧ sign ++ d ++ r = t ++ (numberTail (decimal d) r).cur ∧
      Number q t := by
  unfold numberTail
  split
  · next c s' =>
    split
    · next hc =>
      have hc : c = 46 := by simpa [ch] using hc
      subst hc
      obtain ⟨e, r', h1, h2, h3⟩ := digits_split s'
      have h4 := decimals_eq e 0 0 r' h1 h3
      simp only [zero_add, pow_one] at h4
      rw [h2, h4]
      exact ⟨_, _, rfl, by simp, .frac sign d e hs hne hd h1⟩
    · exact ⟨_, _, rfl, rfl, .int sign d hs hne hd⟩
  · exact ⟨_, _, rfl, rfl, .int sign d hs hne hd⟩

theorem number_sound {c : Nat} (h : c = 45 ∨ isDigit c = true) (s : List Nat) :
    ∃ q t, (number (c :: s)).tok = .num q ∧ c :: s = t ++ (number (c :: s)).cur ∧ Number q t := by
  by_cases hc : c = 45
  · subst hc
    obtain ⟨d, r, h1, h2, h3⟩ := digits_split s
    have h4 := digits_eq d 0 r h1 h3
    rw [number_minus, h2, h4]
    simp only [zero_mul, zero_add]
    obtain ⟨q, t, e1, e2, e3⟩ := numberTail_sound (sign := [45]) (r := r) (by simp) (by simp) h1
    exact ⟨q, t, e1, by simpa using e2, e3⟩
  · have hdg := h.resolve_left hc
    obtain ⟨d, r, h1, h2, h3⟩ := digits_split (c :: s)
    have h4 := digits_eq d 0 r h1 h3
    rw [number_plus hc, h2, h4]
    simp only [zero_mul, zero_add]
    obtain ⟨q, t, e1, e2, e3⟩ := numberTail_sound (sign := []) (r := r) (by simp) (d := d) (by
      intro hn
      simp at hn
      subst hn
      simp at h2
      rw [← h2] at h3
      simp [hdg] at h3) h1
    exact ⟨q, t, e1, by simpa using e2, e3⟩

theorem matchWord_sound {s : List Nat} {word : String} (h : matchWord s word = true) :
    s = Spec.str word ++ s.drop word.length := by
  unfold matchWord at h
  rw [List.isPrefixOf_iff_prefix] at h
  obtain ⟨t, ht⟩ := h
  have e : Spec.str word = word.toList.map ch := rfl
  have hl : (word.toList.map ch).length = word.length := by rw [List.length_map, String.length_toList]
  rw [e, ← hl]
  conv_lhs => rw [← ht]
  rw [← ht]
  simp

theorem lex_sound {s : List Nat} {p : P} (h : lex s = some p) (he : p.err = false) :
    ∃ w t, Gap w ∧ s = w ++ (t ++ p.cur) ∧ TokText p.tok t := by
  obtain ⟨w, r, hw, hs, hr⟩ := skipSpace_split _ s (Nat.le_refl _)
  unfold lex at h
  rcases hr with hr | ⟨hr, ho⟩
  swap
  · rw [hr] at h
    cases h
    exact ⟨w, r, hw, by simpa using hs, .eofOpen r ho⟩
  rw [hr] at h
  subst hs
  split at h
  · cases h
    exact ⟨w, [], hw, rfl, .eof⟩
  · next c s =>
    have sym : ∀ t x : Nat, c = x → ∀ k, TokText k [x] → p = ⟨k, s, false⟩ →
        ∃ w' t, Gap w' ∧ w ++ c :: s = w' ++ (t ++ p.cur) ∧ TokText p.tok t := by
      rintro _ x rfl k hk rfl
      exact ⟨w, [c], hw, rfl, hk⟩
    by_cases hc : c = ch '{'
    · rw [if_pos hc] at h; cases h; exact sym 0 123 hc .lbrace .lbrace rfl
    rw [if_neg hc] at h; clear hc
    by_cases hc : c = ch '}'
    · rw [if_pos hc] at h; cases h; exact sym 0 125 hc .rbrace .rbrace rfl
    rw [if_neg hc] at h; clear hc
    by_cases hc : c = ch '['
    · rw [if_pos hc] at h; cases h; exact sym 0 91 hc .lbracket .lbracket rfl
    rw [if_neg hc] at h; clear hc
    by_cases hc : c = ch ']'
    · rw [if_pos hc] at h; cases h; exact sym 0 93 hc .rbracket .rbracket rfl
    rw [if_neg hc] at h; clear hc
    by_cases hc : c = ch ':'
    · rw [if_pos hc] at h; cases h; exact sym 0 58 hc .colon .colon rfl
    rw [if_neg hc] at h; clear hc
    by_cases hc : c = ch ','
    · rw [if_pos hc] at h; cases h; exact sym 0 44 hc .comma .comma rfl
    rw [if_neg hc] at h; clear hc
    by_cases hc : c = ch '"'
    · rw [if_pos hc] at h
      obtain ⟨k, t, h1, h2, h3⟩ := string_sound _ _ _ _ _ (Nat.le_refl _) h he
      refine ⟨w, 34 :: (k ++ [34]), hw, ?_, ?_⟩
      · rw [h1, hc]; simp [ch]
      · rw [h3, List.nil_append]; exact .str k t h2
    rw [if_neg hc] at h; clear hc
    by_cases hc : c = 45 ∨ isDigit c = true
    · rw [if_pos (by rcases hc with rfl | hc; · decide
                     · simp [hc])] at h
      cases h
      obtain ⟨q, t, h1, h2, h3⟩ := number_sound hc s
      refine ⟨w, t, hw, by rw [← h2], ?_⟩
      rw [h1]; exact .num q t h3
    rw [if_neg (by simp only [Bool.or_eq_true, decide_eq_true_eq]; exact hc)] at h; clear hc
    by_cases hc : c = ch 't'
    · rw [if_pos hc] at h
      by_cases hm : matchWord (c :: s) "true" = true
      · rw [if_pos hm] at h
        cases h
        exact ⟨w, Spec.str "true", hw, congrArg (w ++ ·) (matchWord_sound hm), .true⟩
      · rw [if_neg hm] at h
        cases h; simp [fail] at he
    rw [if_neg hc] at h; clear hc
    by_cases hc : c = ch 'f'
    · rw [if_pos hc] at h
      by_cases hm : matchWord (c :: s) "false" = true
      · rw [if_pos hm] at h
        cases h
        exact ⟨w, Spec.str "false", hw, congrArg (w ++ ·) (matchWord_sound hm), .false⟩
      · rw [if_neg hm] at h
        cases h; simp [fail] at he
    rw [if_neg hc] at h; clear hc
    by_cases hc : c = ch 'n'
    · rw [if_pos hc] at h
      by_cases hm : matchWord (c :: s) "null" = true
      · rw [if_pos hm] at h
        cases h
        exact ⟨w, Spec.str "null", hw, congrArg (w ++ ·) (matchWord_sound hm), .null⟩
      · rw [if_neg hm] at h
        cases h; simp [fail] at he
    rw [if_neg hc] at h; clear hc
    cases h; simp [fail] at he

theorem tokText_of {t : Tok} {s : List Nat} (h : TokText t s) :
    (t = .lbrace → s = [123]) ∧ (t = .rbrace → s = [125]) ∧ (t = .lbracket → s = [91]) ∧
    (t = .rbracket → s = [93]) ∧ (t = .colon → s = [58]) ∧ (t = .comma → s = [44]) := by
  cases h <;> simp

theorem string_fail : ∀ (n room : Nat) (out s : List Nat) (p : P), s.length ≤ n →
    string room out s = some p → p = fail ∨ p.err = false := by
  intro n
  induction n with
  | zero =>
    intro room out s p hn h
    cases s with
    | nil => rw [string.eq_def] at h; cases h; exact .inl rfl
    | cons c s => simp at hn
  | succ n ih =>
    intro room out s p hn h
    cases s with
    | nil => rw [string.eq_def] at h; cases h; exact .inl rfl
    | cons c s =>
      rw [string.eq_def] at h
      simp only at h
      simp at hn
      split at h
      · simp only [Option.bind_eq_bind, Option.bind_eq_some_iff] at h
        obtain ⟨o, ho, h⟩ := h
        cases h
        exact .inr rfl
      · split at h
        · simp only [Option.bind_eq_bind, Option.bind_eq_some_iff] at h
          obtain ⟨o, ho, h⟩ := h
          exact ih room o s p hn h
        · split at h
          · cases h; exact .inl rfl
          · next e s =>
            simp at hn
            split at h
            · split at h
              · next u1 u2 u3 u4 s' =>
                split at h
                · simp only [Option.bind_eq_bind, Option.bind_eq_some_iff] at h
                  obtain ⟨o, ho, h⟩ := h
                  simp at hn
                  exact ih room o s' p (by omega) h
                · cases h; exact .inl rfl
              · cases h; exact .inl rfl
              · cases h
            · split at h
              · next v hv =>
                simp only [Option.bind_eq_bind, Option.bind_eq_some_iff] at h
                obtain ⟨o, ho, h⟩ := h
                exact ih room o s p (by omega) h
              · cases h; exact .inl rfl

theorem number_err (s : List Nat) : (number s).err = false := by
  unfold number
  cases s with
  | nil => rfl
  | cons c s =>
    simp only
    split <;> (split <;> (try split)) <;> rfl

theorem dite' {c : Prop} [Decidable c] {p : P} {x y : Option P} {Q : Prop} (hx : c → x = some p → Q)
    (hy : y = some p → Q) : (if c then x else y) = some p → Q := by
  intro hh
  by_cases hc : c
  · rw [if_pos hc] at hh; exact hx hc hh
  · rw [if_neg hc] at hh; exact hy hh

/-- An erroneous parser has no token. -/
theorem lex_err {s : List Nat} {p : P} (h : lex s = some p) : p.tok ≠ .error → p.err = false := by
  have key : p = fail ∨ p.err = false := by
    have hite : ∀ {c : Prop} [Decidable c] {x y : Option P},
        (x = some p → p = fail ∨ p.err = false) → (y = some p → p = fail ∨ p.err = false) →
        (if c then x else y) = some p → p = fail ∨ p.err = false := by
      intro c _ x y hx hy hh
      by_cases hc : c
      · rw [if_pos hc] at hh; exact hx hh
      · rw [if_neg hc] at hh; exact hy hh
    have good : ∀ t c, some (⟨t, c, false⟩ : P) = some p → p = fail ∨ p.err = false := by
      intro t c hh; cases hh; exact .inr rfl
    have bad : some fail = some p → p = fail ∨ p.err = false := by
      intro hh; cases hh; exact .inl rfl
    unfold lex at h
    revert h
    cases skipSpace s with
    | nil => exact good _ _
    | cons c s =>
      refine hite (good _ _) (hite (good _ _) (hite (good _ _) (hite (good _ _) (hite (good _ _) (hite (good _ _)
        (hite (string_fail _ _ _ _ _ (Nat.le_refl _)) (hite ?_ (hite (hite (good _ _) bad) (hite (hite (good _ _) bad)
          (hite (hite (good _ _) bad) bad))))))))))
      intro hh
      cases hh
      exact .inr (number_err _)
  intro ht
  rcases key with rfl | h
  · exact absurd rfl ht
  · exact h

theorem lex_eof {s : List Nat} {p : P} (h : lex s = some p) : p.tok = .eof → p.cur = [] := by
  have hite : ∀ {c : Prop} [Decidable c] {x y : Option P},
      (x = some p → p.tok = .eof → p.cur = []) → (y = some p → p.tok = .eof → p.cur = []) →
      (if c then x else y) = some p → p.tok = .eof → p.cur = [] := by
    intro c _ x y hx hy hh
    by_cases hc : c
    · rw [if_pos hc] at hh; exact hx hh
    · rw [if_neg hc] at hh; exact hy hh
  have good : ∀ t c, t ≠ .eof → some (⟨t, c, false⟩ : P) = some p → p.tok = .eof → p.cur = [] := by
    intro t c ht hh; cases hh; exact fun h => absurd h ht
  have bad : some fail = some p → p.tok = .eof → p.cur = [] := by
    intro hh; cases hh; exact fun h => by cases h
  unfold lex at h
  revert h
  cases skipSpace s with
  | nil => intro h; cases h; exact fun _ => rfl
  | cons c s =>
    refine hite (good _ _ (by simp)) (hite (good _ _ (by simp)) (hite (good _ _ (by simp)) (hite (good _ _ (by simp))
      (hite (good _ _ (by simp)) (hite (good _ _ (by simp))
      (hite ?_ (dite' ?_ (hite (hite (good _ _ (by simp)) bad) (hite (hite (good _ _ (by simp)) bad)
          (hite (hite (good _ _ (by simp)) bad) bad))))))))))
    · intro hh ht
      rcases string_fail _ _ _ _ _ (Nat.le_refl _) hh with rfl | he
      · cases ht
      · obtain ⟨k, t, _, _, h3⟩ := string_sound _ _ _ _ _ (Nat.le_refl _) hh he
        rw [h3] at ht; cases ht
    · intro hc hh ht
      cases hh
      obtain ⟨q, t, h1, _⟩ := number_sound (c := c) (by simp only [Bool.or_eq_true, decide_eq_true_eq] at hc; exact hc) s
      rw [h1] at ht; cases ht

/-- The text ahead of the parser: blanks, the current token, and what is left. -/
def Ahead (s : List Nat) (p : P) : Prop := (p.tok = .eof → p.cur = []) ∧
  ∃ w t, Gap w ∧ s = w ++ (t ++ p.cur) ∧ TokText p.tok t

theorem lex_ahead {s : List Nat} {p : P} (h : lex s = some p) (he : p.err = false) : Ahead s p :=
  ⟨lex_eof h, lex_sound h he⟩

theorem consume_sound {p q : P} {k : Tok} {b : Bool} (h : consume p k = some (q, b)) :
    (b = true ∧ p.tok = k ∧ lex p.cur = some q) ∨ (b = false ∧ q = p) := by
  unfold consume at h
  split at h
  · next hk =>
    simp only [Option.bind_eq_bind, Option.bind_eq_some_iff] at h
    obtain ⟨x, hx, h⟩ := h
    cases h
    exact .inl ⟨rfl, hk, hx⟩
  · cases h
    exact .inr ⟨rfl, rfl⟩

def ParseOk (p : P) (r : Obj × P) : Prop := r.2.err = false → p.err = false ∧ (
  (p.tok = .eof ∧ r.2 = p) ∨ (p.tok ≠ .eof ∧
    ∀ t, TokText p.tok t → ∃ s r', t ++ p.cur = s ++ r' ∧ Loose (.val r.1) s ∧ Ahead r' r.2))

def ArrayOk (p : P) (r : Obj × P) : Prop := p.tok = .lbracket → p.err = false → ParseOk p r
def ObjectOk (p : P) (r : Obj × P) : Prop := p.tok = .lbrace → p.err = false → ParseOk p r

def ElemsOk (els : List Obj) (p : P) (r : Obj × P) : Prop := r.2.err = false → p.err = false ∧
  ∃ vs, r.1 = .arr (els ++ vs) ∧ ∀ a, Ahead a p → ∃ s r', a = s ++ 93 :: r' ∧ Loose (.elems vs) s ∧ Ahead r' r.2

def MembersOk (ms : List (List Nat × Obj)) (p : P) (r : Obj × P) : Prop := r.2.err = false →
  p.tok ≠ .error ∧ ∃ vs, r.1 = .obj (ms ++ vs) ∧ ∀ a, Ahead a p → ∃ s r', a = s ++ 125 :: r' ∧ Loose (.members vs) s ∧ Ahead r' r.2

theorem gap_ahead {w a : List Nat} {p : P} (hw : Gap w) (h : Ahead a p) : Ahead (w ++ a) p := by
  obtain ⟨h0, w', t, h1, h2, h3⟩ := h
  exact ⟨h0, w ++ w', t, Gap.append hw h1, by rw [h2]; simp, h3⟩

theorem loose_elems_gap {w s : List Nat} {vs : List Obj} (hw : Gap w) (h : Loose (.elems vs) s) :
    Loose (.elems vs) (w ++ s) := by
  cases h with
  | noElem w' h => exact .noElem _ (Gap.append hw h)
  | elem w1 w2 s v h1 h2 h3 =>
    have := Loose.elem (w ++ w1) w2 s v (Gap.append hw h1) h2 h3
    simpa using this
  | elems w1 w2 s t v vs h1 h2 h3 h4 =>
    have := Loose.elems (w ++ w1) w2 s t v vs (Gap.append hw h1) h2 h3 h4
    simpa using this

theorem loose_members_gap {w s : List Nat} {vs : List (List Nat × Obj)} (hw : Gap w) (h : Loose (.members vs) s) :
    Loose (.members vs) (w ++ s) := by
  cases h with
  | noMember w' h => exact .noMember _ (Gap.append hw h)
  | member w1 w2 w3 w4 k key s v h1 h2 h3 h4 h5 h6 =>
    have := Loose.member (w ++ w1) w2 w3 w4 k key s v (Gap.append hw h1) h2 h3 h4 h5 h6
    simpa using this
  | members w1 w2 w3 w4 k key s t v ms h1 h2 h3 h4 h5 h6 h7 =>
    have := Loose.members (w ++ w1) w2 w3 w4 k key s t v ms (Gap.append hw h1) h2 h3 h4 h5 h6 h7
    simpa using this

/-- A symbol is next: it follows some blanks. -/
theorem ahead_sym {a : List Nat} {p : P} {k : Tok} {x : Nat} (h : Ahead a p) (hk : p.tok = k)
    (hx : ∀ t, TokText k t → t = [x]) : ∃ w, Gap w ∧ a = w ++ x :: p.cur := by
  obtain ⟨_, w, t, h1, h2, h3⟩ := h
  rw [hk] at h3
  rw [hx t h3] at h2
  exact ⟨w, h1, h2⟩

theorem parse_sound :
    (∀ p r, parse p = some r → ParseOk p r) ∧ (∀ p r, parseArray p = some r → ArrayOk p r) ∧
    (∀ els p r, arrayLoop els p = some r → ElemsOk els p r) ∧
    (∀ p r, parseObject p = some r → ObjectOk p r) ∧
    (∀ ms p r, objectLoop ms p = some r → MembersOk ms p r) := by
  apply parse.mutual_partial_correctness ParseOk ArrayOk ElemsOk ObjectOk MembersOk
  · intro pa po hpa hpo p r h he
    split at h
    · next hp => cases h; rw [he] at hp; cases hp
    · next hp =>
      have hp : p.err = false := by simpa using hp
      have one : ∀ v : Obj, (lex p.cur).bind (fun q => some (v, q)) = some r →
          (∀ t, TokText p.tok t → Loose (.val v) t) →
          (∀ t, TokText p.tok t → ∃ s r', t ++ p.cur = s ++ r' ∧ Loose (.val r.1) s ∧ Ahead r' r.2) := by
        intro v hv hl t ht
        rw [Option.bind_eq_some_iff] at hv
        obtain ⟨q, hq, hv⟩ := hv
        cases hv
        exact ⟨t, p.cur, rfl, hl t ht, lex_ahead hq he⟩
      split at h
      · next hk => cases h; exact ⟨hp, .inl ⟨hk, rfl⟩⟩
      · cases h
      · next hk => exact hpo p r h hk hp he
      · next hk => exact hpa p r h hk hp he
      · cases h; simp [fail] at he
      · cases h; simp [fail] at he
      · cases h; simp [fail] at he
      · cases h; simp [fail] at he
      · next s hk =>
        refine ⟨hp, .inr ⟨by rw [hk]; simp, one _ h fun t ht => ?_⟩⟩
        rw [hk] at ht
        cases ht with
        | str s t hc => exact .str s t hc
      · next q hk =>
        refine ⟨hp, .inr ⟨by rw [hk]; simp, one _ h fun t ht => ?_⟩⟩
        rw [hk] at ht
        cases ht with
        | num q s h => exact .num q _ h
      · next hk =>
        refine ⟨hp, .inr ⟨by rw [hk]; simp, one _ h fun t ht => ?_⟩⟩
        rw [hk] at ht
        cases ht; exact .true
      · next hk =>
        refine ⟨hp, .inr ⟨by rw [hk]; simp, one _ h fun t ht => ?_⟩⟩
        rw [hk] at ht
        cases ht; exact .false
      · next hk =>
        refine ⟨hp, .inr ⟨by rw [hk]; simp, one _ h fun t ht => ?_⟩⟩
        rw [hk] at ht
        cases ht; exact .null
  · intro al hal p r h hk hp he
    refine ⟨hp, .inr ⟨by rw [hk]; simp, fun t ht => ?_⟩⟩
    have h91 := (tokText_of ht).2.2.1 hk
    subst h91
    simp only [Option.bind_eq_bind, Option.bind_eq_some_iff] at h
    obtain ⟨⟨p1, b1⟩, h1, h⟩ := h
    rcases consume_sound h1 with ⟨rfl, _, hl1⟩ | ⟨rfl, rfl⟩
    swap
    · simp at h; rw [← h] at he; simp [fail] at he
    simp only [Bool.not_true, Bool.false_eq_true, if_false, Option.bind_eq_some_iff] at h
    obtain ⟨⟨p2, b2⟩, h2, h⟩ := h
    rcases consume_sound h2 with ⟨rfl, hk2, hl2⟩ | ⟨rfl, hpp⟩
    · simp only [if_true] at h
      cases h
      have hp1 : p1.err = false := lex_err hl1 (by rw [hk2]; simp)
      obtain ⟨w, hw, ha⟩ := ahead_sym (x := 93) (lex_ahead hl1 hp1) hk2 (fun t ht => (tokText_of ht).2.2.2.1 rfl)
      exact ⟨91 :: (w ++ [93]), p1.cur, by simp [ha], .arr [] w (.noElem w hw), lex_ahead hl2 he⟩
    · simp only [Bool.false_eq_true, if_false] at h
      rw [hpp] at h
      obtain ⟨hp1, vs, hv, hs⟩ := hal [] p1 r h he
      obtain ⟨s, r', e1, e2, e3⟩ := hs _ (lex_ahead hl1 hp1)
      rw [hv, List.nil_append]
      exact ⟨91 :: (s ++ [93]), r', by simp [e1], .arr vs s e2, e3⟩
  · intro pr al hpr hal els p r h he
    simp only [Option.bind_eq_bind, Option.bind_eq_some_iff] at h
    obtain ⟨⟨v, p1⟩, h1, h⟩ := h
    simp only at h
    by_cases hp1 : p1.err = true
    · rw [if_pos hp1] at h; cases h; rw [hp1] at he; cases he
    rw [if_neg hp1] at h
    have hp1 : p1.err = false := by simpa using hp1
    obtain ⟨hp, h1⟩ := hpr p _ h1 hp1
    simp only at h1
    simp only [Option.bind_eq_some_iff] at h
    obtain ⟨⟨p2, b2⟩, h2, h⟩ := h
    have key : p1.tok ≠ .eof → ∀ a, Ahead a p → ∃ w s r', Gap w ∧ a = w ++ (s ++ r') ∧ Loose (.val v) s ∧ Ahead r' p1 := by
      intro hne a ha
      obtain ⟨_, w, t, hw, hae, ht⟩ := ha
      rcases h1 with ⟨h1, h1'⟩ | ⟨_, h1⟩
      · rw [h1'] at hne; exact absurd h1 hne
      · obtain ⟨s, r', e1, e2, e3⟩ := h1 t ht
        exact ⟨w, s, r', hw, by rw [hae, e1], e2, e3⟩
    refine ⟨hp, ?_⟩
    rcases consume_sound h2 with ⟨rfl, hk2, hl2⟩ | ⟨rfl, hpp⟩
    · simp only [if_true] at h
      cases h
      refine ⟨[v], rfl, fun a ha => ?_⟩
      obtain ⟨w, s, r', hw, ha', hv, har⟩ := key (by rw [hk2]; simp) a ha
      obtain ⟨w2, hw2, hr⟩ := ahead_sym (x := 93) har hk2 (fun t ht => (tokText_of ht).2.2.2.1 rfl)
      exact ⟨w ++ (s ++ w2), p1.cur, by rw [ha', hr]; simp, .elem w w2 s v hw hv hw2, lex_ahead hl2 he⟩
    · simp only [Bool.false_eq_true, if_false] at h
      subst hpp
      simp only [Option.bind_eq_some_iff] at h
      obtain ⟨⟨p3, b3⟩, h3, h⟩ := h
      rcases consume_sound h3 with ⟨rfl, hk3, hl3⟩ | ⟨rfl, _⟩
      swap
      · simp at h; rw [← h] at he; simp [fail] at he
      simp only [Bool.not_true, Bool.false_eq_true, if_false, Option.bind_eq_some_iff] at h
      obtain ⟨⟨p4, b4⟩, h4, h⟩ := h
      rcases consume_sound h4 with ⟨rfl, hk4, hl4⟩ | ⟨rfl, hpp⟩
      · simp only [if_true] at h
        cases h
        refine ⟨[v], rfl, fun a ha => ?_⟩
        obtain ⟨w, s, r', hw, ha', hv, har⟩ := key (by rw [hk3]; simp) a ha
        obtain ⟨w2, hw2, hr⟩ := ahead_sym (x := 44) har hk3 (fun t ht => (tokText_of ht).2.2.2.2.2 rfl)
        obtain ⟨w3, hw3, hr3⟩ := ahead_sym (x := 93) (lex_ahead hl3 (lex_err hl3 (by rw [hk4]; simp))) hk4
          (fun t ht => (tokText_of ht).2.2.2.1 rfl)
        exact ⟨w ++ (s ++ (w2 ++ 44 :: w3)), p3.cur, by rw [ha', hr, hr3]; simp,
          .elems w w2 s w3 v [] hw hv hw2 (.noElem w3 hw3), lex_ahead hl4 he⟩
      · simp only [Bool.false_eq_true, if_false] at h
        subst hpp
        obtain ⟨hp3, vs, hvs, hs⟩ := hal _ _ r h he
        refine ⟨v :: vs, by rw [hvs]; simp, fun a ha => ?_⟩
        obtain ⟨w, s, r', hw, ha', hv, har⟩ := key (by rw [hk3]; simp) a ha
        obtain ⟨w2, hw2, hr⟩ := ahead_sym (x := 44) har hk3 (fun t ht => (tokText_of ht).2.2.2.2.2 rfl)
        obtain ⟨s', r'', e1, e2, e3⟩ := hs _ (lex_ahead hl3 hp3)
        exact ⟨w ++ (s ++ (w2 ++ 44 :: s')), r'', by rw [ha', hr, e1]; simp,
          .elems w w2 s s' v vs hw hv hw2 e2, e3⟩
  · intro ol hol p r h hk hp he
    refine ⟨hp, .inr ⟨by rw [hk]; simp, fun t ht => ?_⟩⟩
    have h123 := (tokText_of ht).1 hk
    subst h123
    simp only [Option.bind_eq_bind, Option.bind_eq_some_iff] at h
    obtain ⟨⟨p1, b1⟩, h1, h⟩ := h
    rcases consume_sound h1 with ⟨rfl, _, hl1⟩ | ⟨rfl, rfl⟩
    swap
    · simp at h; rw [← h] at he; simp [fail] at he
    simp only [Bool.not_true, Bool.false_eq_true, if_false, Option.bind_eq_some_iff] at h
    obtain ⟨⟨p2, b2⟩, h2, h⟩ := h
    rcases consume_sound h2 with ⟨rfl, hk2, hl2⟩ | ⟨rfl, hpp⟩
    · simp only [if_true] at h
      cases h
      have hp1 : p1.err = false := lex_err hl1 (by rw [hk2]; simp)
      obtain ⟨w, hw, ha⟩ := ahead_sym (x := 125) (lex_ahead hl1 hp1) hk2 (fun t ht => (tokText_of ht).2.1 rfl)
      exact ⟨123 :: (w ++ [125]), p1.cur, by simp [ha], .obj [] w (.noMember w hw), lex_ahead hl2 he⟩
    · simp only [Bool.false_eq_true, if_false] at h
      rw [hpp] at h
      obtain ⟨hp1, vs, hv, hs⟩ := hol [] p1 r h he
      obtain ⟨s, r', e1, e2, e3⟩ := hs _ (lex_ahead hl1 (lex_err hl1 hp1))
      rw [hv, List.nil_append]
      exact ⟨123 :: (s ++ [125]), r', by simp [e1], .obj vs s e2, e3⟩
  · intro pr ol hpr hol ms p r h he
    split at h
    swap
    · cases h; simp [fail] at he
    next key hkey =>
    simp only [Option.bind_eq_bind, Option.bind_eq_some_iff] at h
    obtain ⟨pa, hla, ⟨pb, bb⟩, hb, h⟩ := h
    rcases consume_sound hb with ⟨rfl, hkb, hlb⟩ | ⟨rfl, _⟩
    swap
    · simp at h; rw [← h] at he; simp [fail] at he
    simp only [Bool.not_true, Bool.false_eq_true, if_false, Option.bind_eq_some_iff] at h
    obtain ⟨⟨v, p1⟩, h1, h⟩ := h
    simp only at h
    by_cases hp1 : p1.err = true
    · rw [if_pos hp1] at h; cases h; rw [hp1] at he; cases he
    rw [if_neg hp1] at h
    have hp1 : p1.err = false := by simpa using hp1
    obtain ⟨hpb, h1⟩ := hpr pb _ h1 hp1
    simp only at h1
    simp only [Option.bind_eq_some_iff] at h
    obtain ⟨⟨p2, b2⟩, h2, h⟩ := h
    have hpa : pa.err = false := lex_err hla (by rw [hkb]; simp)
    have mem : p1.tok ≠ .eof → ∀ a, Ahead a p → ∃ w1 k kt w2 w3 s r', Gap w1 ∧ Chars k kt ∧ upToZero kt = key ∧
        Gap w2 ∧ Gap w3 ∧ a = w1 ++ 34 :: (k ++ 34 :: (w2 ++ 58 :: (w3 ++ (s ++ r')))) ∧ Loose (.val v) s ∧
        Ahead r' p1 := by
      intro hne a ha
      obtain ⟨_, w1, t, hw1, hae, ht⟩ := ha
      rw [hkey] at ht
      generalize hk' : Tok.str key = kk at ht
      cases ht <;> try (cases hk'; done)
      next k kt hc =>
      cases hk'
      obtain ⟨w2, hw2, hr2⟩ := ahead_sym (x := 58) (lex_ahead hla hpa) hkb (fun t ht => (tokText_of ht).2.2.2.2.1 rfl)
      obtain ⟨_, w3, t3, hw3, hr3, ht3⟩ := lex_ahead hlb hpb
      rcases h1 with ⟨h1, h1'⟩ | ⟨_, h1⟩
      · rw [h1'] at hne; exact absurd h1 hne
      · obtain ⟨s, r', e1, e2, e3⟩ := h1 t3 ht3
        exact ⟨w1, k, kt, w2, w3, s, r', hw1, hc, rfl, hw2, hw3, by rw [hae, hr2, hr3, e1]; simp, e2, e3⟩
    refine ⟨by rw [hkey]; simp, ?_⟩
    rcases consume_sound h2 with ⟨rfl, hk2, hl2⟩ | ⟨rfl, hpp⟩
    · simp only [if_true] at h
      cases h
      refine ⟨[(key, v)], rfl, fun a ha => ?_⟩
      obtain ⟨w1, k, kt, w2, w3, s, r', hw1, hc, rfl, hw2, hw3, ha', hv, har⟩ := mem (by rw [hk2]; simp) a ha
      obtain ⟨w4, hw4, hr⟩ := ahead_sym (x := 125) har hk2 (fun t ht => (tokText_of ht).2.1 rfl)
      exact ⟨_, p1.cur, by rw [ha', hr]; simp, .member w1 w2 w3 w4 k kt s v hw1 hc hw2 hw3 hv hw4, lex_ahead hl2 he⟩
    · simp only [Bool.false_eq_true, if_false] at h
      subst hpp
      simp only [Option.bind_eq_some_iff] at h
      obtain ⟨⟨p3, b3⟩, h3, h⟩ := h
      rcases consume_sound h3 with ⟨rfl, hk3, hl3⟩ | ⟨rfl, _⟩
      swap
      · simp at h; rw [← h] at he; simp [fail] at he
      simp only [Bool.not_true, Bool.false_eq_true, if_false, Option.bind_eq_some_iff] at h
      obtain ⟨⟨p4, b4⟩, h4, h⟩ := h
      rcases consume_sound h4 with ⟨rfl, hk4, hl4⟩ | ⟨rfl, hpp⟩
      · simp only [if_true] at h
        cases h
        refine ⟨[(key, v)], rfl, fun a ha => ?_⟩
        obtain ⟨w1, k, kt, w2, w3, s, r', hw1, hc, rfl, hw2, hw3, ha', hv, har⟩ := mem (by rw [hk3]; simp) a ha
        obtain ⟨w4, hw4, hr⟩ := ahead_sym (x := 44) har hk3 (fun t ht => (tokText_of ht).2.2.2.2.2 rfl)
        obtain ⟨w5, hw5, hr5⟩ := ahead_sym (x := 125) (lex_ahead hl3 (lex_err hl3 (by rw [hk4]; simp))) hk4
          (fun t ht => (tokText_of ht).2.1 rfl)
        exact ⟨_, p3.cur, by rw [ha', hr, hr5]; simp,
          .members w1 w2 w3 w4 k kt s w5 v [] hw1 hc hw2 hw3 hv hw4 (.noMember w5 hw5), lex_ahead hl4 he⟩
      · simp only [Bool.false_eq_true, if_false] at h
        subst hpp
        obtain ⟨hp3, vs, hvs, hs⟩ := hol _ _ r h he
        refine ⟨(key, v) :: vs, by rw [hvs]; simp, fun a ha => ?_⟩
        obtain ⟨w1, k, kt, w2, w3, s, r', hw1, hc, rfl, hw2, hw3, ha', hv, har⟩ := mem (by rw [hk3]; simp) a ha
        obtain ⟨w4, hw4, hr⟩ := ahead_sym (x := 44) har hk3 (fun t ht => (tokText_of ht).2.2.2.2.2 rfl)
        obtain ⟨s', r'', e1, e2, e3⟩ := hs _ (lex_ahead hl3 (lex_err hl3 hp3))
        exact ⟨_, r'', by rw [ha', hr, e1]; simp,
          .members w1 w2 w3 w4 k kt s s' v vs hw1 hc hw2 hw3 hv hw4 e2, e3⟩

theorem trail_of_ahead {r : List Nat} {p : P} (h : Ahead r p) : Trail r := by
  obtain ⟨he, w, t, hw, rfl, ht⟩ := h
  refine ⟨w, t ++ p.cur, hw, rfl, ?_⟩
  generalize p.tok = k at *
  cases ht with
  | eof => left; rw [he rfl]; rfl
  | eofOpen s ho => right; left; rw [he rfl, List.append_nil]; exact ho
  | num q s hn =>
    right; right
    have : ∀ (sign d : List Nat), sign ∈ [[], [45]] → sign ++ d ≠ [] → (∀ c ∈ d, 48 ≤ c ∧ c ≤ 57) →
        ∀ x, ∃ c g, sign ++ d ++ x = c :: g ∧ (c ∈ Spec.str "{}[]:,\"-tfn" ∨ (48 ≤ c ∧ c ≤ 57)) := by
      intro sign d hs hne hd x
      simp at hs
      rcases hs with rfl | rfl
      · cases d with
        | nil => simp at hne
        | cons c d => exact ⟨c, d ++ x, by simp, .inr (hd c (by simp))⟩
      · exact ⟨45, d ++ x, by simp, .inl (by decide)⟩
    cases hn with
    | int sign d hs hne hd => exact this sign d hs hne hd p.cur
    | frac sign d e hs hne hd _ =>
      have := this sign d hs hne hd (46 :: (e ++ p.cur))
      simpa using this
  | str s t _ => exact .inr (.inr ⟨34, _, rfl, .inl (by decide)⟩)
  | lbrace => exact .inr (.inr ⟨123, _, rfl, .inl (by decide)⟩)
  | rbrace => exact .inr (.inr ⟨125, _, rfl, .inl (by decide)⟩)
  | lbracket => exact .inr (.inr ⟨91, _, rfl, .inl (by decide)⟩)
  | rbracket => exact .inr (.inr ⟨93, _, rfl, .inl (by decide)⟩)
  | colon => exact .inr (.inr ⟨58, _, rfl, .inl (by decide)⟩)
  | comma => exact .inr (.inr ⟨44, _, rfl, .inl (by decide)⟩)
  | true => exact .inr (.inr ⟨116, _, rfl, .inl (by decide)⟩)
  | false => exact .inr (.inr ⟨102, _, rfl, .inl (by decide)⟩)
  | null => exact .inr (.inr ⟨110, _, rfl, .inl (by decide)⟩)

theorem load_sound {s : List Nat} {v : Obj} (h : load s = some (some v)) :
    (v = .null ∧ ∃ w t, Gap w ∧ s = w ++ t ∧ (t = [] ∨ OpenComment t)) ∨
    ∃ w b r, Gap w ∧ s = w ++ (b ++ r) ∧ Loose (.val v) b ∧ Trail r := by
  unfold load at h
  simp only [Option.bind_eq_bind, Option.bind_eq_some_iff] at h
  obtain ⟨p, hp, ⟨v', q⟩, hq, h⟩ := h
  simp only [Option.some.injEq] at h
  by_cases he : q.err = true
  · rw [if_pos he] at h; cases h
  rw [if_neg he] at h
  cases h
  have he : q.err = false := by simpa using he
  obtain ⟨hpe, h1⟩ := parse_sound.1 p _ hq he
  obtain ⟨h0, w, t, hw, hs, ht⟩ := lex_ahead hp hpe
  rcases h1 with ⟨hk, _⟩ | ⟨_, h1⟩
  · left
    rw [parse, hpe, if_neg (by decide)] at hq
    simp only [hk] at hq
    refine ⟨by cases hq; rfl, w, t, hw, by rw [hs, h0 hk, List.append_nil], ?_⟩
    rw [hk] at ht
    cases ht with
    | eof => exact .inl rfl
    | eofOpen s ho => exact .inr ho
  · right
    obtain ⟨b, r, e1, e2, e3⟩ := h1 t ht
    exact ⟨w, b, r, hw, by rw [hs, e1], e2, trail_of_ahead e3⟩

end C3.Json
