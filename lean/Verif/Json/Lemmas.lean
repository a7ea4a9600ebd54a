import Verif.Json.Spec
import Mathlib.Tactic.Ring
import Mathlib.Tactic.FieldSimp

/-! # Reading a rendered value -/

set_option autoImplicit false

namespace C3.Json

open Spec (Blank Text Renders Digits decimal hexValue IsHex ascii escapes Item)

theorem isDigit_iff (c : Nat) : isDigit c = true ↔ 48 ≤ c ∧ c ≤ 57 := by
  unfold isDigit
  rw [Bool.and_eq_true, decide_eq_true_eq, decide_eq_true_eq]
  exact Iff.rfl

theorem isHex_iff (c : Nat) : isHex c = true ↔ IsHex c := by
  unfold isHex IsHex
  rw [Bool.or_eq_true, Bool.or_eq_true, isDigit_iff, Bool.and_eq_true, decide_eq_true_eq, decide_eq_true_eq, Bool.and_eq_true,
    decide_eq_true_eq, decide_eq_true_eq, show ch 'a' = 97 from rfl, show ch 'f' = 102 from rfl, show ch 'A' = 65 from rfl,
    show ch 'F' = 70 from rfl]
  omega

theorem isSpace_iff (c : Nat) : (decide (c = ch '\n') || decide (c = ch '\r') || decide (c = ch ' ') || decide (c = 11) ||
    decide (c = ch '\t')) = true ↔ (c = 10 ∨ c = 13 ∨ c = 32 ∨ c = 11 ∨ c = 9) := by
  simp only [Bool.or_eq_true, decide_eq_true_eq, or_assoc]
  exact Iff.rfl

theorem skipLine_eq (b s : List Nat) (h : 10 ∉ b) : skipLine (b ++ 10 :: s) = 10 :: s := by
  induction b with
  | nil => simp [skipLine, ch]
  | cons c b ih =>
    simp at h
    rw [List.cons_append, skipLine, if_neg (by simp [ch]; omega), ih h.2]

theorem skipBlock_eq (b s : List Nat) (h : ¬ Spec.str "*/" <:+: b ++ [42]) : skipBlock (b ++ 42 :: 47 :: s) = s := by
  induction b with
  | nil => simp [skipBlock, ch]
  | cons c b ih =>
    have h' : ¬ Spec.str "*/" <:+: b ++ [42] := fun h' => h (h'.trans (List.suffix_cons _ _).isInfix)
    have step : ∃ d t, b ++ 42 :: 47 :: s = d :: t ∧ ¬ (c = 42 ∧ d = 47) := by
      cases b with
      | nil => exact ⟨42, 47 :: s, rfl, by omega⟩
      | cons d b =>
        refine ⟨d, b ++ 42 :: 47 :: s, rfl, ?_⟩
        rintro ⟨rfl, rfl⟩
        exact h ⟨[], b ++ [42], by simp [Spec.str]⟩
    obtain ⟨d, t, e, hn⟩ := step
    rw [List.cons_append, e, skipBlock, if_neg (by simp only [Bool.and_eq_true, decide_eq_true_eq]; exact hn), ← e, ih h']

theorem skipSpace_blank {w : List Nat} (h : Blank w) (s : List Nat) : skipSpace (w ++ s) = skipSpace s := by
  induction h with
  | nil => rfl
  | space c w hc _ ih =>
    simp at hc
    rw [List.cons_append, skipSpace.eq_def]
    simp only
    rw [if_neg (by simp [ch]; omega), if_pos ((isSpace_iff c).2 (by omega)), ih]
  | line b w hb _ ih =>
    have e : Spec.str "//" ++ (b ++ 10 :: w) ++ s = 47 :: 47 :: (b ++ 10 :: (w ++ s)) := by simp [Spec.str]
    rw [e, skipSpace.eq_def]
    simp only
    rw [if_pos (by decide), if_pos (by decide), skipLine_eq _ _ hb, skipSpace.eq_def]
    simp only
    rw [if_neg (by decide), if_pos (by decide), ih]
  | block b w hb _ ih =>
    have e : Spec.str "/*" ++ (b ++ (Spec.str "*/" ++ w)) ++ s = 47 :: 42 :: (b ++ 42 :: 47 :: (w ++ s)) := by
      simp [Spec.str]
    rw [e, skipSpace.eq_def]
    simp only
    rw [if_pos (by decide), if_neg (by decide), if_pos (by decide), skipBlock_eq _ _ hb, ih]

theorem lex_blank {w : List Nat} (h : Blank w) (s : List Nat) : lex (w ++ s) = lex s := by
  unfold lex; rw [skipSpace_blank h]

theorem skipSpace_stop (c : Nat) (s : List Nat) (h : c ≠ 47 ∧ c ≠ 10 ∧ c ≠ 13 ∧ c ≠ 32 ∧ c ≠ 11 ∧ c ≠ 9) :
    skipSpace (c :: s) = c :: s := by
  rw [skipSpace.eq_def]
  simp [ch, h]

theorem lex_sym (r : List Nat) : lex (123 :: r) = some ⟨.lbrace, r, false⟩ ∧ lex (125 :: r) = some ⟨.rbrace, r, false⟩ ∧
    lex (91 :: r) = some ⟨.lbracket, r, false⟩ ∧ lex (93 :: r) = some ⟨.rbracket, r, false⟩ ∧
    lex (58 :: r) = some ⟨.colon, r, false⟩ ∧ lex (44 :: r) = some ⟨.comma, r, false⟩ := by
  refine ⟨?_, ?_, ?_, ?_, ?_, ?_⟩ <;> simp [lex, skipSpace_stop, ch]

theorem isHex_spec {c : Nat} (h : IsHex c) : isHex c = true := (isHex_iff c).2 h

theorem nibble_spec {c : Nat} (h : IsHex c) : nibble c = Spec.hexDigit c := by
  unfold IsHex at h
  unfold nibble Spec.hexDigit
  simp only [isDigit_iff, show ch 'F' = 70 from rfl]
  split <;> split <;> (try split) <;> (try split) <;> omega

theorem escape_spec {e v : Nat} (h : (e, v) ∈ escapes) : e ≠ ch 'u' ∧ escape e = some v ∧ v ≠ 0 := by
  have : ∀ p ∈ escapes, p.1 ≠ ch 'u' ∧ escape p.1 = some p.2 ∧ p.2 ≠ 0 := by decide
  exact this _ h

theorem push_eq {room : Nat} {out : List Nat} (h : out.length < room) (c : Nat) : push room out c = some (out ++ [c]) := by
  simp [push, h]

theorem measure_pos (s : List Nat) : 0 < measure s := by
  rw [measure.eq_def]
  split
  · simp
  · split
    · simp
    · split
      · split <;> simp <;> omega
      · omega

theorem measure_plain {c : Nat} (h1 : c ≠ 34) (h2 : c ≠ 92) (s : List Nat) : measure (c :: s) = 1 + measure s := by
  rw [measure.eq_def]
  simp [ch, h1, h2]

theorem measure_escape (e : Nat) (s : List Nat) : measure (92 :: e :: s) = 2 + measure s := by
  rw [measure.eq_def]
  simp [ch]

theorem isHex_ne {c : Nat} (h : isHex c = true) : c ≠ 34 ∧ c ≠ 92 := by
  rw [isHex_iff, IsHex] at h
  omega

theorem measure_hex {a b c d : Nat} (ha : isHex a = true) (hb : isHex b = true) (hc : isHex c = true) (hd : isHex d = true)
    (s : List Nat) : measure (92 :: 117 :: a :: b :: c :: d :: s) = 6 + measure s := by
  rw [measure_escape, measure_plain (isHex_ne ha).1 (isHex_ne ha).2, measure_plain (isHex_ne hb).1 (isHex_ne hb).2,
    measure_plain (isHex_ne hc).1 (isHex_ne hc).2, measure_plain (isHex_ne hd).1 (isHex_ne hd).2]
  omega

theorem cstr_zero (s : List Nat) : cstr (s ++ [0]) = cstr s := by
  induction s with
  | nil => rfl
  | cons c s ih =>
    unfold cstr at ih ⊢
    rw [List.cons_append, List.takeWhile_cons, List.takeWhile_cons, ih]

theorem string_text {char : Nat → Option (List Nat)} (hchar : ∀ v b, char v = some b → b = [v % 256]) {s t : List Nat}
    (h : Text char s t) : ∀ (room : Nat) (out r : List Nat), out.length + measure (s ++ 34 :: r) < room →
      string room out (s ++ 34 :: r) = some ⟨.str (cstr (out ++ t)), r, false⟩ := by
  induction h with
  | nil =>
    intro room out r hm
    rw [List.nil_append, string.eq_def]
    simp only
    rw [if_pos (by decide), push_eq (by omega)]
    simp [cstr_zero]
  | plain c s t hc _ _ ih =>
    intro room out r hm
    simp at hc
    rw [List.cons_append, measure_plain hc.1 hc.2] at hm
    rw [List.cons_append, string.eq_def]
    simp only
    rw [if_neg (by simp [ch]; omega), if_pos (by simp [ch]; omega), push_eq (by omega)]
    simp only [Option.bind_eq_bind, Option.bind_some]
    rw [ih _ _ _ (by simp; omega)]
    simp
  | escape e v s t he _ ih =>
    intro room out r hm
    obtain ⟨h1, h2, _⟩ := escape_spec he
    rw [List.cons_append, List.cons_append, measure_escape] at hm
    rw [List.cons_append, List.cons_append, string.eq_def]
    simp only
    rw [if_neg (by decide), if_neg (by decide), if_neg h1, h2]
    simp only
    rw [push_eq (by omega)]
    simp only [Option.bind_eq_bind, Option.bind_some]
    rw [ih _ _ _ (by simp; omega)]
    simp
  | u d b s t hd hh hb _ ih =>
    intro room out r hm
    obtain ⟨a1, a2, a3, a4, rfl⟩ : ∃ a b c e, d = [a, b, c, e] := by
      match d, hd with
      | [a, b, c, e], _ => exact ⟨a, b, c, e, rfl⟩
    simp only [List.mem_cons, List.not_mem_nil, or_false, forall_eq_or_imp, forall_eq] at hh
    obtain ⟨g1, g2, g3, g4⟩ := hh
    have e : 92 :: 117 :: ([a1, a2, a3, a4] ++ s) ++ 34 :: r = 92 :: 117 :: a1 :: a2 :: a3 :: a4 :: (s ++ 34 :: r) := by simp
    rw [e, measure_hex (isHex_spec g1) (isHex_spec g2) (isHex_spec g3) (isHex_spec g4)] at hm
    rw [e, string.eq_def]
    simp only
    rw [if_neg (by decide), if_neg (by decide), if_pos (by decide)]
    simp only [isHex_spec g1, isHex_spec g2, isHex_spec g3, isHex_spec g4, Bool.and_self, if_true]
    rw [push_eq (by omega)]
    simp only [Option.bind_eq_bind, Option.bind_some]
    rw [ih _ _ _ (by simp; omega)]
    have hv : nibble a1 * 4096 + nibble a2 * 256 + nibble a3 * 16 + nibble a4 = hexValue [a1, a2, a3, a4] := by
      rw [nibble_spec g1, nibble_spec g2, nibble_spec g3, nibble_spec g4]
      simp [hexValue]; omega
    rw [hv, hchar _ _ hb]
    simp

theorem cstr_id {s : List Nat} (h : ∀ c ∈ s, c ≠ 0) : cstr s = s := by
  induction s with
  | nil => rfl
  | cons c s ih =>
    unfold cstr at ih ⊢
    rw [List.takeWhile_cons, if_pos (by simpa using h c (by simp)), ih fun c hc => h c (by simp [hc])]

theorem text_nonzero {s t : List Nat} (h : Text ascii s t) : ∀ c ∈ t, c ≠ 0 := by
  induction h with
  | nil => simp
  | plain c s t _ hc _ ih => intro x hx; simp at hx; rcases hx with rfl | hx; omega; exact ih x hx
  | escape e v s t he _ ih =>
    intro x hx; simp at hx; rcases hx with rfl | hx
    · exact (escape_spec he).2.2
    · exact ih x hx
  | u d b s t _ _ hb _ ih =>
    intro x hx
    unfold ascii at hb
    split at hb
    · cases hb
      simp at hx; rcases hx with rfl | hx
      · omega
      · exact ih x hx
    · cases hb

theorem lex_string {s t : List Nat} (h : Text ascii s t) (r : List Nat) :
    lex (34 :: (s ++ 34 :: r)) = some ⟨.str t, r, false⟩ := by
  have : lex (34 :: (s ++ 34 :: r)) = string (measure (s ++ 34 :: r) + 1) [] (s ++ 34 :: r) := by
    simp [lex, skipSpace_stop, ch]
  rw [this, string_text (char := ascii) (by
    intro v b hb
    unfold ascii at hb
    split at hb
    · cases hb; simp; omega
    · cases hb) h _ _ _ (by simp), List.nil_append, cstr_id (text_nonzero h)]

/-- Where a number ends. -/
def Follow (r : List Nat) : Prop := ∀ c ∈ r.head?, isDigit c = false ∧ c ≠ 46

theorem digit_mem {c : Nat} (h : 48 ≤ c ∧ c ≤ 57) : isDigit c = true := (isDigit_iff c).2 h

theorem decimal_append (a : List Nat) (c : Nat) : decimal (a ++ [c]) = decimal a * 10 + (c - 48) := by
  simp [decimal]

theorem decimal_fold (d : List Nat) : ∀ v : Nat,
    d.foldl (fun v c => v * 10 + (c - 48)) v = v * 10 ^ d.length + decimal d := by
  induction d with
  | nil => intro v; simp [decimal]
  | cons c d ih =>
    intro v
    simp only [List.foldl_cons, decimal]
    rw [ih, ih (0 * 10 + (c - 48))]
    simp [Nat.pow_succ]; ring

theorem decimal_cons (c : Nat) (d : List Nat) : decimal (c :: d) = (c - 48) * 10 ^ d.length + decimal d := by
  have := decimal_fold d (0 * 10 + (c - 48))
  simpa [decimal] using this

theorem digits_eq (d : List Nat) : ∀ (v : Rat) (r : List Nat), (∀ c ∈ d, 48 ≤ c ∧ c ≤ 57) →
    (∀ c ∈ r.head?, isDigit c = false) → digits v (d ++ r) = (v * 10 ^ d.length + decimal d, r) := by
  induction d with
  | nil =>
    intro v r _ hr
    cases r with
    | nil => simp [digits, decimal]
    | cons c r => simp [digits, decimal, hr c (by simp)]
  | cons c d ih =>
    intro v r hd hr
    rw [List.cons_append, digits, if_pos (digit_mem (hd c (by simp))), ih _ _ (fun c hc => hd c (by simp [hc])) hr]
    rw [decimal_cons]
    congr 1
    push_cast
    simp only [List.length_cons, pow_succ]
    ring

theorem decimals_eq (d : List Nat) : ∀ (v : Rat) (j : Nat) (r : List Nat), (∀ c ∈ d, 48 ≤ c ∧ c ≤ 57) →
    (∀ c ∈ r.head?, isDigit c = false) →
    decimals v (10 ^ (j + 1)) (d ++ r) = (v + decimal d / 10 ^ (j + d.length), r) := by
  induction d with
  | nil =>
    intro v j r _ hr
    cases r with
    | nil => simp [decimals, decimal]
    | cons c r => simp [decimals, decimal, hr c (by simp)]
  | cons c d ih =>
    intro v j r hd hr
    rw [List.cons_append, decimals, if_pos (digit_mem (hd c (by simp)))]
    rw [← pow_succ, ih _ (j + 1) _ (fun c hc => hd c (by simp [hc])) hr, decimal_cons]
    congr 1
    push_cast
    simp only [List.length_cons]
    rw [show j + (d.length + 1) = (j + 1) + d.length by omega, pow_add, pow_add]
    field_simp
    ring

theorem lex_number {c : Nat} (hc : isDigit c = true) (s : List Nat) : lex (c :: s) = some (number (c :: s)) := by
  have h : 48 ≤ c ∧ c ≤ 57 := (isDigit_iff c).1 hc
  have : skipSpace (c :: s) = c :: s := by
    exact skipSpace_stop _ _ (by omega)
  unfold lex
  rw [this]
  have hn : ∀ x : Char, x.toNat < 48 ∨ 57 < x.toNat → c ≠ ch x := fun x hx e => by
    rw [e] at h; unfold ch at h; omega
  simp only
  rw [if_neg (hn '{' (by decide)), if_neg (hn '}' (by decide)), if_neg (hn '[' (by decide)), if_neg (hn ']' (by decide)),
    if_neg (hn ':' (by decide)), if_neg (hn ',' (by decide)), if_neg (hn '"' (by decide)), if_pos (by simp [hc])]

theorem number_digit {c : Nat} (hc : isDigit c = true) (s : List Nat) :
    number (c :: s) = match digits 0 (c :: s) with
      | (value, s) => match s with
        | c :: s' =>
          if c = ch '.' then
            let (d, s) := decimals 0 10 s'
            ⟨.num (value + d), s, false⟩
          else ⟨.num value, c :: s', false⟩
        | [] => ⟨.num value, [], false⟩ := by
  have h : 48 ≤ c ∧ c ≤ 57 := (isDigit_iff c).1 hc
  unfold number
  simp only [show ¬ c = ch '-' by simp [ch]; omega, if_false]
  rfl

theorem lex_int {d : List Nat} (hd : Digits d) {r : List Nat} (hr : Follow r) :
    lex (d ++ r) = some ⟨.num (decimal d), r, false⟩ := by
  obtain ⟨h0, hd⟩ := hd
  cases d with
  | nil => exact absurd rfl h0
  | cons c d =>
    rw [List.cons_append, lex_number (digit_mem (hd c (by simp))), number_digit (digit_mem (hd c (by simp))),
      ← List.cons_append, digits_eq (c :: d) 0 r hd (fun c hc => (hr c hc).1)]
    cases r with
    | nil => simp
    | cons x r => simp [ch, (hr x (by simp)).2]

theorem lex_frac {d e : List Nat} (hd : Digits d) (he : Digits e) {r : List Nat} (hr : Follow r) :
    lex (d ++ 46 :: (e ++ r)) = some ⟨.num (decimal d + decimal e / 10 ^ e.length), r, false⟩ := by
  obtain ⟨h0, hd⟩ := hd
  cases d with
  | nil => exact absurd rfl h0
  | cons c d =>
    rw [List.cons_append, lex_number (digit_mem (hd c (by simp))), number_digit (digit_mem (hd c (by simp))),
      ← List.cons_append, digits_eq (c :: d) 0 (46 :: (e ++ r)) hd (by simp; decide)]
    have := decimals_eq e 0 0 r he.2 (fun c hc => (hr c hc).1)
    simp only [zero_add, pow_one] at this
    simp [ch, this]

end C3.Json
