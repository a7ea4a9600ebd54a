import Verif.Json.Lemmas

/-! # Parsing a rendered value -/

set_option autoImplicit false

namespace C3.Json

open Spec (Blank Text Renders Digits decimal hexValue IsHex ascii escapes Item)

/-- What the parser does with a rendered item. -/
def Reads : Item → List Nat → Prop
  | .val v, s => ∀ r, Follow r → ∃ p, lex (s ++ r) = some p ∧ p.err = false ∧ p.tok ≠ .rbracket ∧ p.tok ≠ .rbrace ∧
      parse p = (lex r).bind fun q => some (v, q)
  | .elems vs, s => ∀ els r, ∃ p, lex (s ++ 93 :: r) = some p ∧ p.tok ≠ .rbracket ∧
      arrayLoop els p = (lex r).bind fun q => some (.arr (els ++ vs), q)
  | .members ms, s => ∀ mems r, ∃ p, lex (s ++ 125 :: r) = some p ∧ p.tok ≠ .rbrace ∧
      objectLoop mems p = (lex r).bind fun q => some (.obj (mems ++ ms), q)

theorem follow_cons {c : Nat} (h : ¬ (48 ≤ c ∧ c ≤ 57) ∧ c ≠ 46) (r : List Nat) : Follow (c :: r) := by
  intro x hx
  simp at hx
  subst hx
  exact ⟨by rw [← Bool.not_eq_true, isDigit_iff]; exact h.1, h.2⟩

theorem follow_blank {w r : List Nat} (h : Blank w) (hr : Follow r) : Follow (w ++ r) := by
  cases h with
  | nil => exact hr
  | space c w hc _ => simp at hc; exact follow_cons (by omega) _
  | line b w _ _ => exact follow_cons (c := 47) (by omega) _
  | block b w _ _ => exact follow_cons (c := 47) (by omega) _

theorem follow_nil : Follow [] := by intro c hc; cases hc

theorem consume_hit (t : Tok) (c : List Nat) (e : Bool) : consume ⟨t, c, e⟩ t = (lex c).bind fun q => some (q, true) := by
  simp [consume]

theorem consume_hit' {p : P} {t : Tok} (h : p.tok = t) : consume p t = (lex p.cur).bind fun q => some (q, true) := by
  simp [consume, h]

theorem consume_miss {p : P} {t : Tok} (h : p.tok ≠ t) : consume p t = some (p, false) := by
  simp [consume, h]

theorem bind_some_bind {α β : Type} (x : Option α) (f : α → β) : (x.bind fun a => some (f a)) = x.map f := by
  cases x <;> rfl

theorem reads {item : Item} {s : List Nat} (h : Renders ascii item s) : Reads item s := by
  induction h with
  | null =>
    intro r _
    refine ⟨⟨.null, r, false⟩, ?_, rfl, by simp, by simp, ?_⟩
    · have : Spec.str "null" ++ r = 110 :: 117 :: 108 :: 108 :: r := by simp [Spec.str]
      rw [this]
      simp [lex, skipSpace_stop, ch, isDigit, matchWord]
    · rw [parse]; simp
  | true =>
    intro r _
    refine ⟨⟨.true, r, false⟩, ?_, rfl, by simp, by simp, ?_⟩
    · have : Spec.str "true" ++ r = 116 :: 114 :: 117 :: 101 :: r := by simp [Spec.str]
      rw [this]
      simp [lex, skipSpace_stop, ch, isDigit, matchWord]
    · rw [parse]; simp
  | false =>
    intro r _
    refine ⟨⟨.false, r, false⟩, ?_, rfl, by simp, by simp, ?_⟩
    · have : Spec.str "false" ++ r = 102 :: 97 :: 108 :: 115 :: 101 :: r := by simp [Spec.str]
      rw [this]
      simp [lex, skipSpace_stop, ch, isDigit, matchWord]
    · rw [parse]; simp
  | str s t ht =>
    intro r _
    refine ⟨⟨.str t, r, false⟩, ?_, rfl, by simp, by simp, ?_⟩
    · rw [List.cons_append, List.append_assoc]
      exact lex_string ht r
    · rw [parse]; simp
  | int d hd =>
    intro r hr
    refine ⟨_, lex_int hd hr, rfl, by simp, by simp, ?_⟩
    rw [parse]; simp
  | frac d e hd he =>
    intro r hr
    refine ⟨_, by rw [List.append_assoc, List.cons_append]; exact lex_frac hd he hr, rfl, by simp, by simp, ?_⟩
    rw [parse]; simp
  | arr0 w hw =>
    intro r hr
    rw [List.cons_append, List.append_assoc]
    refine ⟨_, (lex_sym _).2.2.1, rfl, by simp, by simp, ?_⟩
    rw [parse]
    simp only [Bool.false_eq_true, if_false]
    rw [parseArray, consume_hit' rfl]
    simp only [List.cons_append, List.nil_append]
    rw [lex_blank hw, (lex_sym r).2.2.2.1]
    simp [consume_hit]
    cases lex r <;> rfl
  | arr vs s _ ih =>
    intro r hr
    rw [List.cons_append, List.append_assoc]
    refine ⟨_, (lex_sym _).2.2.1, rfl, by simp, by simp, ?_⟩
    rw [parse]
    simp only [Bool.false_eq_true, if_false]
    obtain ⟨p, h1, h2, h3⟩ := ih [] r
    rw [parseArray, consume_hit' rfl]
    simp only [List.cons_append, List.nil_append]
    rw [h1]
    simp only [Option.bind_eq_bind, Option.bind_some, consume_miss h2]
    simpa using h3
  | obj0 w hw =>
    intro r hr
    rw [List.cons_append, List.append_assoc]
    refine ⟨_, (lex_sym _).1, rfl, by simp, by simp, ?_⟩
    rw [parse]
    simp only [Bool.false_eq_true, if_false]
    rw [parseObject, consume_hit' rfl]
    simp only [List.cons_append, List.nil_append]
    rw [lex_blank hw, (lex_sym r).2.1]
    simp [consume_hit]
    cases lex r <;> rfl
  | obj ms s _ ih =>
    intro r hr
    rw [List.cons_append, List.append_assoc]
    refine ⟨_, (lex_sym _).1, rfl, by simp, by simp, ?_⟩
    rw [parse]
    simp only [Bool.false_eq_true, if_false]
    obtain ⟨p, h1, h2, h3⟩ := ih [] r
    rw [parseObject, consume_hit' rfl]
    simp only [List.cons_append, List.nil_append]
    rw [h1]
    simp only [Option.bind_eq_bind, Option.bind_some, consume_miss h2]
    simpa using h3
  | elem w1 w2 s v hw1 _ hw2 ih =>
    intro els r
    obtain ⟨p, h1, h2, h3, h4, h5⟩ := ih (w2 ++ 93 :: r) (follow_blank hw2 (follow_cons (by omega) _))
    refine ⟨p, ?_, h3, ?_⟩
    · rw [← h1, List.append_assoc, List.append_assoc, lex_blank hw1]
    · rw [arrayLoop, h5, lex_blank hw2, (lex_sym r).2.2.2.1]
      simp [consume_hit]
      cases lex r <;> rfl
  | elemComma w1 w2 w3 s v hw1 _ hw2 hw3 ih =>
    intro els r
    obtain ⟨p, h1, h2, h3, h4, h5⟩ := ih (w2 ++ 44 :: (w3 ++ 93 :: r)) (follow_blank hw2 (follow_cons (by omega) _))
    refine ⟨p, ?_, h3, ?_⟩
    · rw [← h1, List.append_assoc, lex_blank hw1]; simp
    · rw [arrayLoop, h5, lex_blank hw2, (lex_sym _).2.2.2.2.2]
      simp only [Option.bind_eq_bind, Option.bind_some, Bool.false_eq_true, if_false]
      rw [consume_miss (by simp)]
      simp only [Option.bind_some, Bool.false_eq_true, if_false]
      rw [consume_hit' rfl, lex_blank hw3, (lex_sym _).2.2.2.1]
      simp [consume_hit]
      cases lex r <;> rfl
  | elems w1 w2 s t v vs hw1 _ hw2 _ ih iht =>
    intro els r
    obtain ⟨p, h1, h2, h3, h4, h5⟩ := ih (w2 ++ 44 :: (t ++ 93 :: r)) (follow_blank hw2 (follow_cons (by omega) _))
    obtain ⟨q, g1, g2, g3⟩ := iht (els ++ [v]) r
    refine ⟨p, ?_, h3, ?_⟩
    · rw [← h1, List.append_assoc, lex_blank hw1]; simp
    · rw [arrayLoop, h5, lex_blank hw2, (lex_sym _).2.2.2.2.2]
      simp only [Option.bind_eq_bind, Option.bind_some, Bool.false_eq_true, if_false]
      rw [consume_miss (by simp)]
      simp only [Option.bind_some, Bool.false_eq_true, if_false]
      rw [consume_hit' rfl, g1]
      simp [consume_miss g2, g3]
  | member w1 w2 w3 w4 k key s v hw1 hk hw2 hw3 _ hw4 ih =>
    intro mems r
    refine ⟨_, by rw [List.append_assoc, lex_blank hw1, List.cons_append, List.append_assoc, List.cons_append]; exact lex_string hk _, by simp, ?_⟩
    obtain ⟨p, h1, h2, h3, h4, h5⟩ := ih (w4 ++ 125 :: r) (follow_blank hw4 (follow_cons (by omega) _))
    rw [objectLoop]
    simp only [List.append_assoc, List.cons_append]
    rw [lex_blank hw2, (lex_sym _).2.2.2.2.1]
    simp only [Option.bind_eq_bind, Option.bind_some]
    rw [consume_hit' rfl, lex_blank hw3, h1]
    simp only [Option.bind_some, Bool.not_true, Bool.false_eq_true, if_false]
    rw [h5, lex_blank hw4, (lex_sym _).2.1]
    simp [consume_hit]
    cases lex r <;> rfl
  | memberComma w1 w2 w3 w4 w5 k key s v hw1 hk hw2 hw3 _ hw4 hw5 ih =>
    intro mems r
    refine ⟨_, by rw [List.append_assoc, lex_blank hw1, List.cons_append, List.append_assoc, List.cons_append]; exact lex_string hk _, by simp, ?_⟩
    obtain ⟨p, h1, h2, h3, h4, h5⟩ := ih (w4 ++ 44 :: (w5 ++ 125 :: r)) (follow_blank hw4 (follow_cons (by omega) _))
    rw [objectLoop]
    simp only [List.append_assoc, List.cons_append]
    rw [lex_blank hw2, (lex_sym _).2.2.2.2.1]
    simp only [Option.bind_eq_bind, Option.bind_some]
    rw [consume_hit' rfl, lex_blank hw3, h1]
    simp only [Option.bind_some, Bool.not_true, Bool.false_eq_true, if_false]
    rw [h5, lex_blank hw4, (lex_sym _).2.2.2.2.2]
    simp only [Option.bind_some, Bool.false_eq_true, if_false]
    rw [consume_miss (by simp)]
    simp only [Option.bind_some, Bool.false_eq_true, if_false]
    rw [consume_hit' rfl, lex_blank hw5, (lex_sym _).2.1]
    simp [consume_hit]
    cases lex r <;> rfl
  | members w1 w2 w3 w4 k key s t v ms hw1 hk hw2 hw3 _ hw4 _ ih iht =>
    intro mems r
    refine ⟨_, by rw [List.append_assoc, lex_blank hw1, List.cons_append, List.append_assoc, List.cons_append]; exact lex_string hk _, by simp, ?_⟩
    obtain ⟨p, h1, h2, h3, h4, h5⟩ := ih (w4 ++ 44 :: (t ++ 125 :: r)) (follow_blank hw4 (follow_cons (by omega) _))
    obtain ⟨q, g1, g2, g3⟩ := iht (mems ++ [(key, v)]) r
    rw [objectLoop]
    simp only [List.append_assoc, List.cons_append]
    rw [lex_blank hw2, (lex_sym _).2.2.2.2.1]
    simp only [Option.bind_eq_bind, Option.bind_some]
    rw [consume_hit' rfl, lex_blank hw3, h1]
    simp only [Option.bind_some, Bool.not_true, Bool.false_eq_true, if_false]
    rw [h5, lex_blank hw4, (lex_sym _).2.2.2.2.2]
    simp only [Option.bind_some, Bool.false_eq_true, if_false]
    rw [consume_miss (by simp)]
    simp only [Option.bind_some, Bool.false_eq_true, if_false]
    rw [consume_hit' rfl, g1]
    simp [consume_miss g2, g3]

end C3.Json
