import Verif.Json.LemmasSound
import Verif.Json.Props

/-!
# C49: only texts of the grammar are read

`load` is the reader of `Model.lean`; `Loose`, `Gap`, `Number`, `Chars`, `Trail` are in `SpecSound.lean`.
-/

set_option autoImplicit false

namespace C3.Json

open Spec (Gap OpenComment Chars upToZero Number Loose Trail Item str decimal)

/-- **C49.**  Whatever is read as a value is, after white space and comments, a text for this value in the grammar, followed by
nothing or by something that begins like a token; or there is nothing but white space and comments, and the value is null.

Missing from the property: the grammar is larger than JSON (`C49_numbers`, `C49_nothing`, `C49_control`), and what follows the
value is not looked at (`C21_trailing`). -/
theorem C49_sound_partial {s : List Nat} {v : Obj} (h : load s = some (some v)) :
    (v = .null ∧ ∃ w t, Gap w ∧ s = w ++ t ∧ (t = [] ∨ OpenComment t)) ∨
    ∃ w b r, Gap w ∧ s = w ++ (b ++ r) ∧ Loose (.val v) b ∧ Trail r := load_sound h

example : load (str " [1.5, null,] ") = some (some (.arr [.num (decimal [49] + decimal [53] / 10 ^ [53].length), .null])) ∧
    ∃ w b r, Gap w ∧ str " [1.5, null,] " = w ++ (b ++ r) ∧
      Loose (.val (.arr [.num (decimal [49] + decimal [53] / 10 ^ [53].length), .null])) b ∧ Trail r := by
  have hb : Spec.Blank [32] := .space 32 [] (by simp) .nil
  have h0 : Spec.Blank [] := .nil
  have hn : Spec.Renders Spec.ascii (.val (.num (decimal [49] + decimal [53] / 10 ^ [53].length))) ([49] ++ 46 :: [53]) :=
    .frac [49] [53] ⟨by simp, by simp⟩ ⟨by simp, by simp⟩
  have ha := Spec.Renders.arr _ _ (Spec.Renders.elems [] [] _ _ _ _ h0 hn h0
    (Spec.Renders.elemComma [32] [] [] _ _ hb (Spec.Renders.null (char := Spec.ascii)) h0 h0))
  have hl : load (str " [1.5, null,] ") = some (some (.arr [.num (decimal [49] + decimal [53] / 10 ^ [53].length), .null])) := by
    have := C21_parse_partial hb ha hb
    exact this
  refine ⟨hl, ?_⟩
  rcases C49_sound_partial hl with ⟨h, _⟩ | h
  · cases h
  · exact h

/-- **C49.**  A text with no reading in the grammar is refused, unless it breaks off inside `\u`. -/
theorem C49_refused {s : List Nat} (hu : ∀ a t, s = a ++ (str "\\u" ++ t) → 3 ≤ t.length)
    (hn : ∀ v w b r, Gap w → s = w ++ (b ++ r) → ¬ Loose (.val v) b)
    (he : ∀ w t, Gap w → s = w ++ t → t ≠ [] ∧ ¬ OpenComment t) : load s = some none := by
  have ht := C21_total hu
  cases h : load s with
  | none => exact absurd h ht
  | some o =>
    cases o with
    | none => rfl
    | some v =>
      rcases C49_sound_partial h with ⟨_, w, t, hw, hs, h⟩ | ⟨w, b, r, hw, hs, hb, _⟩
      · rcases h with h | h
        · exact absurd h (he w t hw hs).1
        · exact absurd h (he w t hw hs).2
      · exact absurd hb (hn v w b r hw hs)

/-- The first byte of the text of a value. -/
theorem loose_head {v : Obj} {b : List Nat} (h : Loose (.val v) b) : ∃ c t, b = c :: t ∧ c ≠ 125 ∧ c ≠ 110 ∨ b = str "null" := by
  cases h with
  | null => exact ⟨0, [], .inr rfl⟩
  | true => exact ⟨116, _, .inl ⟨rfl, by decide, by decide⟩⟩
  | false => exact ⟨102, _, .inl ⟨rfl, by decide, by decide⟩⟩
  | str s t _ => exact ⟨34, _, .inl ⟨rfl, by decide, by decide⟩⟩
  | arr vs s _ => exact ⟨91, _, .inl ⟨rfl, by decide, by decide⟩⟩
  | obj ms s _ => exact ⟨123, _, .inl ⟨rfl, by decide, by decide⟩⟩
  | num q s hn =>
    have : ∀ (sign d : List Nat), sign ∈ [[], [45]] → sign ++ d ≠ [] → (∀ c ∈ d, 48 ≤ c ∧ c ≤ 57) →
        ∀ x, ∃ c t, sign ++ d ++ x = c :: t ∧ c ≠ 125 ∧ c ≠ 110 := by
      intro sign d hs hne hd x
      simp at hs
      rcases hs with rfl | rfl
      · cases d with
        | nil => simp at hne
        | cons c d =>
          have := hd c (by simp)
          exact ⟨c, d ++ x, by simp, by omega, by omega⟩
      · exact ⟨45, d ++ x, by simp, by decide, by decide⟩
    cases hn with
    | int sign d hs hne hd =>
      obtain ⟨c, t, h⟩ := this sign d hs hne hd []
      rw [List.append_nil] at h
      exact ⟨c, t, .inl h⟩
    | frac sign d e hs hne hd _ =>
      obtain ⟨c, t, h⟩ := this sign d hs hne hd (46 :: e)
      exact ⟨c, t, .inl h⟩

theorem gap_head {w s : List Nat} {c : Nat} (h : Gap w) (he : c :: s = w ++ [] ∨ ∃ t, c :: s = w ++ t)
    (hc : 64 ≤ c) : w = [] := by
  have he : ∃ t, c :: s = w ++ t := by
    rcases he with h | h
    · exact ⟨[], h⟩
    · exact h
  obtain ⟨t, he⟩ := he
  cases h with
  | nil => rfl
  | space x s hx _ => simp at he hx; omega
  | line b s _ _ => simp [str] at he; omega
  | block b s _ _ => simp [str] at he; omega

example : load (str "nul") = some none := by
  apply C49_refused
  · intro a t h
    have : 92 ∈ str "nul" := by rw [h]; simp [str]
    exact absurd this (by decide)
  · intro v w b r hw hs hb
    have := gap_head (c := 110) (s := [117, 108]) hw (.inr ⟨b ++ r, hs⟩) (by decide)
    subst this
    obtain ⟨c, t, ⟨rfl, _, h⟩ | rfl⟩ := loose_head hb
    · simp [str] at hs; omega
    · have := congrArg List.length hs
      simp [str] at this
  · intro w t hw hs
    have := gap_head (c := 110) (s := [117, 108]) hw (.inr ⟨t, hs⟩) (by decide)
    subst this
    simp only [List.nil_append] at hs
    subst hs
    refine ⟨by decide, ?_⟩
    rintro (⟨b, _, h⟩ | ⟨b, _, h⟩) <;> simp [str] at h

theorem skipSpace_gap {w : List Nat} (h : Gap w) (s : List Nat) : skipSpace (w ++ s) = skipSpace s := by
  induction h with
  | nil => rfl
  | space c w hc _ ih => rw [List.cons_append, skipSpace_space hc, ih]
  | line b w hb _ ih =>
    have e : str "//" ++ (b ++ 10 :: w) ++ s = 47 :: 47 :: (b ++ 10 :: (w ++ s)) := by simp [str]
    rw [e, skipSpace_line, skipLine_eq _ _ hb, skipSpace_space (by simp), ih]
  | block b w hb _ ih =>
    have e : str "/*" ++ (b ++ (str "*/" ++ w)) ++ s = 47 :: 42 :: (b ++ 42 :: 47 :: (w ++ s)) := by
      simp [str]
    rw [e, skipSpace_block, skipBlock_eq _ _ hb, ih]

/-- **C49, nothing.**  A file without a value is read, as null. -/
theorem C49_nothing {w : List Nat} (h : Gap w) : load w = some (some .null) := by
  have hs : skipSpace w = [] := by
    have := skipSpace_gap h []
    rw [List.append_nil] at this
    rw [this]; simp [skipSpace]
  have hl : lex w = some ⟨.eof, [], false⟩ := by unfold lex; rw [hs]
  rw [load, hl]
  simp [parse]

example : load (str " // nothing\n") = some (some .null) :=
  C49_nothing (.space 32 _ (by simp) (.line (str " nothing") [] (by decide) .nil))

/-- **C49, numbers.**  Numbers without digits are read, and with the wrong sign. -/
theorem C49_numbers {q : Rat} {s : List Nat} (h : Number q s) : load s = some (some (.num q)) := by
  have key : ∀ (sign d r : List Nat), sign ∈ [[], [45]] → sign ++ d ≠ [] → (∀ c ∈ d, 48 ≤ c ∧ c ≤ 57) →
      (∀ c ∈ r.head?, isDigit c = false) → lex (sign ++ d ++ r) = some (numberTail (decimal d) r) := by
    intro sign d r hs hne hd hr
    simp at hs
    have hdg := digits_eq d 0 r hd hr
    simp only [zero_mul, zero_add] at hdg
    rcases hs with rfl | rfl
    · cases d with
      | nil => simp at hne
      | cons c d =>
        rw [List.nil_append, List.cons_append, lex_number (digit_mem (hd c (by simp))), number_plus (by have := hd c (by simp); omega),
          ← List.cons_append, hdg]
    · have h1 : ∀ t, lex (45 :: t) = some (number (45 :: t)) := by
        intro t; simp [lex, skipSpace_stop, ch]
      rw [List.append_assoc, List.cons_append, List.nil_append, h1, number_minus, hdg]
  have fin : ∀ q, (lex s = some ⟨.num q, [], false⟩) → load s = some (some (.num q)) := by
    intro q hq
    rw [load, hq]
    simp [parse, lex, skipSpace]
  cases h with
  | int sign d hs hne hd =>
    have := key sign d [] hs hne hd (by simp)
    rw [List.append_nil] at this
    exact fin _ (by rw [this]; rfl)
  | frac sign d e hs hne hd he =>
    apply fin
    rw [key sign d (46 :: e) hs hne hd (by simp; decide)]
    have := decimals_eq e 0 0 [] he (by simp)
    simp only [zero_add, pow_one, List.append_nil] at this
    simp [numberTail, ch, this]

example : load (str "-") = some (some (.num (decimal []))) ∧ load (str "-.") = some (some (.num (decimal [] + decimal [] / 10 ^ ([] : List Nat).length))) :=
  ⟨C49_numbers (.int [45] [] (by simp) (by simp) (by simp)), C49_numbers (.frac [45] [] [] (by simp) (by simp) (by simp) (by simp))⟩

theorem string_raw (s : List Nat) (h : ∀ c ∈ s, c ∉ [0, 34, 92]) : ∀ (room : Nat) (out r : List Nat),
    (∀ c ∈ out, c ≠ 0) → out.length + measure (s ++ 34 :: r) < room →
    string room out (s ++ 34 :: r) = some ⟨.str (out ++ s), r, false⟩ := by
  induction s with
  | nil =>
    intro room out r ho hm
    have := measure_pos ([] ++ 34 :: r)
    have hc : cstr out = out := by
      rw [cstr, ← List.append_nil out, List.takeWhile_append_of_pos (by simpa using ho)]
      simp
    rw [List.nil_append, string.eq_def]
    simp [ch, push_eq (show out.length < room by omega), cstr_zero, hc]
  | cons c s ih =>
    intro room out r ho hm
    have hc := h c (by simp)
    simp at hc
    have hm' : measure (c :: s ++ 34 :: r) = 1 + measure (s ++ 34 :: r) := measure_plain (by omega) (by omega) _
    have hp := measure_pos (s ++ 34 :: r)
    rw [List.cons_append, string.eq_def]
    simp only
    rw [if_neg (show ¬ c = ch '"' from hc.2.1), if_pos (show c ≠ ch '\\' from hc.2.2), push_eq (by omega)]
    have := ih (fun x hx => h x (by simp [hx])) room (out ++ [c]) r (by
      intro x hx
      rcases List.mem_append.1 hx with hx | hx
      · exact ho x hx
      · simp at hx; omega) (by simp; omega)
    simpa using this

/-- **C49, strings.**  Line breaks and other control characters inside a string are read as they are. -/
theorem C49_control {s : List Nat} (h : ∀ c ∈ s, c ∉ [0, 34, 92]) :
    load (34 :: (s ++ [34])) = some (some (.str s)) := by
  have hl : lex (34 :: (s ++ [34])) = some ⟨.str s, [], false⟩ := by
    have : lex (34 :: (s ++ [34])) = string (measure (s ++ 34 :: []) + 1) [] (s ++ 34 :: []) := by
      simp [lex, skipSpace_stop, ch]
    rw [this, string_raw s h _ _ _ (by simp) (by simp)]
    simp
  rw [load, hl]
  simp [parse, lex, skipSpace]

example : load (34 :: ([7, 10, 65] ++ [34])) = some (some (.str [7, 10, 65])) := C49_control (by decide)

end C3.Json
