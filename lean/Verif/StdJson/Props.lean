import Verif.StdJson.LemmasAccept

/-!
# What the JSON parser of the standard library accepts, and what it makes of it
-/

set_option autoImplicit false

namespace C3.StdJson
open C3.Utf (Byte nums form8 utf8)

variable {D : Type}

/-! ## C196 -/

/-- Every JSON text, in which no surrogates are escaped and no object has a name twice, is parsed, to the
value it denotes, with white space around it. -/
theorem C196_parse (td : List Byte → Option D) (v : Val D) (t w w' : List Byte) (hw : Ws w) (hw' : Ws w')
    (h : Text td (.val v) t) : parse td (w ++ t ++ w') = .ok v := by
  have hd : Delim w' := by have := hw'.delim (l := []) (by intro c hc; simp at hc); simpa using this
  have hr := parse_text h w w' hw hd
  unfold parse
  rw [List.append_assoc, hr.any (by simp; omega)]

/-- The parser ends for all bytes, in a depth of at most twice as many calls as there are bytes, and two: it
gives a value or one of its faults. -/
theorem C196_total (td : List Byte → Option D) (s : List Byte) : parse td s ≠ .error .fuel := by
  unfold parse parse_any
  split
  · rename_i e h
    split at h
    · rename_i h1
      intro he; simp only [Except.error.injEq] at he h; subst he; subst h
      exact advance_not_fuel _ h1
    · rename_i h1
      have := advance_length h1
      intro he; simp only [Except.error.injEq] at he; subst he
      exact go_not_fuel _ _ _ (by simp only [need]; omega) h
  · simp

/-- ` {"a": [1, "\n"], "b":{}}` and what it denotes. -/
example : Text (D := List Byte) some (.val (.obj [([0x61], .arr [.num [0x31], .str [10]]), ([0x62], .empty)]))
    (0x7b :: ([] ++ 0x22 :: [0x61] ++ 0x22 :: [] ++ 0x3a :: [0x20] ++
        (0x5b :: ([] ++ ([] ++ [0x31] ++ [] ++ []) ++ [] ++ 0x2c :: ([0x20] ++ (0x22 :: [0x5c, 0x6e] ++ [0x22]) ++ [])) ++ [0x5d]) ++ [] ++
      0x2c :: ([0x20] ++ 0x22 :: [0x62] ++ 0x22 :: [] ++ 0x3a :: [] ++ (0x7b :: [] ++ [0x7d]) ++ [])) ++ [0x7d]) := by
  have w0 : Ws [] := ws_nil
  have w1 : Ws [0x20] := by intro c hc; simp at hc; exact .inl hc
  have hl : ∀ c : Byte, 32 ≤ c.toNat → c ≠ 0x22 → c ≠ 0x5c → StrText [c] [c] := fun c a b d => .raw c [] [] a b d .nil
  refine .obj _ _ (.membersCons _ _ _ _ _ _ _ _ _ _ w0 w0 w1 w0 (hl _ (by decide) (by decide) (by decide)) ?_
    (.member _ _ _ _ _ _ _ _ w1 w0 w0 w0 (hl _ (by decide) (by decide) (by decide)) (.noMembers [] w0))) (by decide)
  refine .arr _ _ (.elemsCons _ _ _ _ _ _ w0 w0 (.num _ _ (.mk [] [0x31] [] [] (.inl rfl) ⟨by simp, by simp [Dig]⟩ (by simp)
    (.inl rfl) (.inl rfl)) rfl) (.elem _ _ _ _ w1 w0 (.str _ _ (.esc 0x6e 10 [] [] (by decide) .nil))))

/-! ## C197 -/

/-- Only JSON texts are parsed. -/
def C197_full : Prop := ∀ (s : List Byte) (v : Val (List Byte)), parse some s = .ok v →
  ∃ w t w', Ws w ∧ Ws w' ∧ s = w ++ t ++ w' ∧ Text some (.val v) t

/-- A slash is skipped wherever a token may begin. -/
theorem C197_slash (td : List Byte → Option D) (s : List Byte) : advance td (0x2f :: s) = advance td s := by
  simp [advance, skip, skipped]

/-- So is a vertical tab. -/
theorem C197_vertical_tab (td : List Byte → Option D) (s : List Byte) : advance td (11 :: s) = advance td s := by
  simp [advance, skip, skipped]

/-- What is after the value is not looked at: the same value is parsed whatever it is, as soon as it begins with
white space, a comma, or a bracket or brace that closes. -/
theorem C197_trailing (td : List Byte → Option D) (v : Val D) (t w rest : List Byte) (c : Byte) (hw : Ws w)
    (hc : c ∈ ([0x20, 9, 10, 13, 0x2c, 0x5d, 0x7d] : List Byte)) (h : Text td (.val v) t) :
    parse td (w ++ t ++ c :: rest) = .ok v := by
  have hd : Delim (c :: rest) := by
    intro d hd
    simp only [List.head?_cons, Option.some.injEq] at hd; subst hd
    simpa using hc
  have hr := parse_text h w (c :: rest) hw hd
  unfold parse
  rw [List.append_assoc, hr.any (by simp; omega)]

/-- A comma may be after the last element of an array. -/
theorem C197_comma_array (td : List Byte → Option D) (vs : List (Val D)) (t w rest : List Byte) (hw : Ws w)
    (h : Text td (.elems vs) t) : parse td (0x5b :: t ++ 0x2c :: w ++ 0x5d :: rest) = .ok (.arr vs) := by
  have e : 0x5b :: t ++ 0x2c :: w ++ 0x5d :: rest = 0x5b :: (t ++ ((0x2c :: w) ++ 0x5d :: rest)) := by simp
  unfold parse parse_any
  rw [e, advance_lbracket]
  obtain ⟨n, hn⟩ : ∃ n, 2 * (0x5b :: (t ++ ((0x2c :: w) ++ 0x5d :: rest)) : List Byte).length + 2 = n + 1 := ⟨_, rfl⟩
  rw [hn]
  simp only [List.length_cons, List.length_append] at hn
  simp only [go]
  rw [parse_text h (0x2c :: w) rest [] n (.inr ⟨w, hw, rfl⟩) (by simp only [List.length_cons]; omega)]
  simp

/-- And after the last member of an object. -/
theorem C197_comma_object (td : List Byte → Option D) (ms : List (List Byte × Val D)) (t w rest : List Byte) (hw : Ws w)
    (h : Text td (.members ms) t) (hn : (ms.map (·.1)).Nodup) :
    parse td (0x7b :: t ++ 0x2c :: w ++ 0x7d :: rest) = .ok (.obj ms) := by
  have e : 0x7b :: t ++ 0x2c :: w ++ 0x7d :: rest = 0x7b :: (t ++ ((0x2c :: w) ++ 0x7d :: rest)) := by simp
  unfold parse parse_any
  rw [e, advance_lbrace]
  obtain ⟨n, hk⟩ : ∃ n, 2 * (0x7b :: (t ++ ((0x2c :: w) ++ 0x7d :: rest)) : List Byte).length + 2 = n + 1 := ⟨_, rfl⟩
  rw [hk]
  simp only [List.length_cons, List.length_append] at hk
  simp only [go]
  rw [parse_text h (0x2c :: w) rest [] n (.inr ⟨w, hw, rfl⟩) (by simp only [List.length_cons]; omega) (by simpa using hn)]
  simp

/-- `/[1,/]x` is an array with one element. -/
example : parse (D := List Byte) some [0x2f, 0x5b, 0x31, 0x2c, 0x2f, 0x5d, 0x78] = .ok (.arr [.num [0x31]]) := by rfl

/-- A JSON text does not begin with a slash. -/
theorem C197_begin (td : List Byte → Option D) (v : Val D) (t : List Byte) (h : Text td (.val v) t) :
    t ≠ [] ∧ t.head? ≠ some 0x2f := by
  cases h with
  | num t d ht hd =>
    obtain ⟨c, r, rfl, hc⟩ := ht.first
    refine ⟨by simp, ?_⟩
    intro e
    simp only [List.head?_cons, Option.some.injEq] at e
    subst e
    revert hc; decide
  | _ => simp

theorem C197_fails : ¬ C197_full := by
  intro h
  obtain ⟨w, t, w', hw, -, e, ht⟩ := h [0x2f, 0x6e, 0x75, 0x6c, 0x6c] .null rfl
  obtain ⟨h1, h2⟩ := C197_begin _ _ _ ht
  cases w with
  | nil =>
    cases t with
    | nil => exact h1 rfl
    | cons c t =>
      simp only [List.nil_append, List.cons_append, List.cons.injEq] at e
      apply h2
      rw [List.head?_cons, ← e.1]
  | cons c w =>
    have := hw c (by simp)
    simp only [List.cons_append, List.cons.injEq] at e
    rw [← e.1] at this
    revert this; decide

/-- What does hold: in a value that is parsed no object has a name twice, and only `empty` is without elements. -/
theorem C197_good_partial (td : List Byte → Option D) (s : List Byte) (v : Val D) (h : parse td s = .ok v) : Good v := by
  unfold parse parse_any at h
  split at h
  · simp at h
  · rename_i h1
    simp only [Except.ok.injEq] at h; subst h
    split at h1
    · simp at h1
    · exact go_good _ _ _ h1 trivial

/-- And what is parsed begins, after white space, with a text of the wider grammar of `SpecLax`, of the value: white space
with vertical tabs and slashes, commas after the last element, numbers with digits missing that `to_double`
takes, and surrogates are all that is wrong with what is parsed, apart from what is after it. -/
theorem C197_lax_partial (td : List Byte → Option D) (s : List Byte) (v : Val D) (h : parse td s = .ok v) :
    ∃ w t r, s = w ++ t ++ r ∧ LaxWs w ∧ LaxText td (.val v) t := parse_lax h

/-- All of that grammar is parsed, to the value: as long as what is after the text is nothing, or begins with a byte
that cannot go on a number, it is the grammar of what is parsed. -/
theorem C197_lax_parsed (td : List Byte → Option D) (v : Val D) (t w rest : List Byte) (hw : LaxWs w)
    (hr : ∀ c, rest.head? = some c → c ∈ ([0x20, 9, 10, 13, 11, 0x2f, 0x2c, 0x5d, 0x7d] : List Byte))
    (h : LaxText td (.val v) t) : parse td (w ++ t ++ rest) = .ok v := by
  have hd : Accept.Delim rest := by
    intro d hd
    have := hr d hd
    simpa using this
  have hr := Accept.parse_text h w rest hw hd
  unfold parse
  rw [List.append_assoc, hr.any (by simp; omega)]

/-- `-.` is a number of the wider grammar, which `to_double` may take; in `[-.,]` it is an element. -/
example : LaxText (D := List Byte) some (.val (.arr [.num [0x2d, 0x2e]]))
    (0x5b :: ([] ++ ([0x2d] ++ [] ++ [0x2e] ++ []) ++ [] ++ 0x2c :: []) ++ [0x5d]) := by
  have w0 : LaxWs [] := by intro c hc; simp at hc
  exact .arr _ _ (by simp) (.elemsCons _ _ _ _ _ _ w0 w0 (.num _ _ (.mk [0x2d] [] [0x2e] [] (.inr rfl) (by simp) (by simp)
    (.inr ⟨[], by simp, rfl⟩) (.inl rfl)) rfl) (.noElem [] w0))

/-- `{"a":1,"a":2}` is not parsed. -/
example : parse (D := List Byte) some [0x7b, 0x22, 0x61, 0x22, 0x3a, 0x31, 0x2c, 0x22, 0x61, 0x22, 0x3a, 0x32, 0x7d] =
    .error .DUPLICATE_MEMBERS := by rfl

/-! ## C198 -/

/-- A code point above 0xFFFF, escaped as the two surrogates of UTF-16, is the code point, in UTF-8. -/
def C198_full : Prop := ∀ (h1 h2 h3 h4 l1 l2 l3 l4 : Byte) (hi lo : Nat),
  (∃ a b c d, hexVal h1 = some a ∧ hexVal h2 = some b ∧ hexVal h3 = some c ∧ hexVal h4 = some d ∧ hi = a * 4096 + b * 256 + c * 16 + d) →
  (∃ a b c d, hexVal l1 = some a ∧ hexVal l2 = some b ∧ hexVal l3 = some c ∧ hexVal l4 = some d ∧ lo = a * 4096 + b * 256 + c * 16 + d) →
  0xD800 ≤ hi → hi < 0xDC00 → 0xDC00 ≤ lo → lo < 0xE000 →
  ∃ s : List Byte, nums s = utf8 (0x10000 + (hi - 0xD800) * 1024 + (lo - 0xDC00)) ∧
    parse (D := List Byte) some ([0x22, 0x5c, 0x75, h1, h2, h3, h4, 0x5c, 0x75, l1, l2, l3, l4, 0x22]) = .ok (.str s)

/-- An escape with four digits is the form of UTF-8 with as many bytes as the number needs, also of a surrogate, for
which there is no UTF-8. -/
theorem C198_escape (h1 h2 h3 h4 : Byte) (v1 v2 v3 v4 : Nat) (n : Nat) (l acc : List Byte)
    (e1 : hexVal h1 = some v1) (e2 : hexVal h2 = some v2) (e3 : hexVal h3 = some v3) (e4 : hexVal h4 = some v4) :
    ∃ u : List Byte, nums u = utf8 (v1 * 4096 + v2 * 256 + v3 * 16 + v4) ∧
      lexStringLoop (n + 1) (0x5c :: 0x75 :: h1 :: h2 :: h3 :: h4 :: l) acc = lexStringLoop n l (acc ++ u) := by
  obtain ⟨val, hv, hval⟩ := lexHex_four l e1 e2 e3 e4
  have b1 := (hexDigit_val e1).2.2.2
  have b2 := (hexDigit_val e2).2.2.2
  have b3 := (hexDigit_val e3).2.2.2
  have b4 := (hexDigit_val e4).2.2.2
  refine ⟨Utf.enc val, ?_, ?_⟩
  · rw [Utf.enc_utf8 val (by omega), hval]
  · simp only [lexStringLoop, read_cons _ (show (0x5c : Byte) ≠ 0 by decide),
      show ¬ (0x5c : Byte) = 0 by decide, show ¬ (0x5c : Byte).toNat ≤ 31 by decide, show ¬ (0x5c : Byte) = 0x22 by decide,
      read_cons _ (show (0x75 : Byte) ≠ 0 by decide), show ¬ (0x75 : Byte) = 0 by decide, show ¬ (0x75 : Byte).toNat ≤ 31 by decide,
      if_false, if_true, ne_eq, not_true_eq_false, hv, append_char32_enc]

/-- For no pair of surrogates the code point is the result: six bytes are, three for each. -/
theorem C198_pair (h1 h2 h3 h4 l1 l2 l3 l4 : Byte) (a1 a2 a3 a4 b1 b2 b3 b4 : Nat)
    (e1 : hexVal h1 = some a1) (e2 : hexVal h2 = some a2) (e3 : hexVal h3 = some a3) (e4 : hexVal h4 = some a4)
    (f1 : hexVal l1 = some b1) (f2 : hexVal l2 = some b2) (f3 : hexVal l3 = some b3) (f4 : hexVal l4 = some b4)
    (hh : 0xD800 ≤ a1 * 4096 + a2 * 256 + a3 * 16 + a4) (hl : 0xD800 ≤ b1 * 4096 + b2 * 256 + b3 * 16 + b4) :
    ∃ s : List Byte, nums s = form8 3 (a1 * 4096 + a2 * 256 + a3 * 16 + a4) ++ form8 3 (b1 * 4096 + b2 * 256 + b3 * 16 + b4) ∧
      parse (D := List Byte) some ([0x22, 0x5c, 0x75, h1, h2, h3, h4, 0x5c, 0x75, l1, l2, l3, l4, 0x22]) = .ok (.str s) := by
  have x1 := (hexDigit_val e1).2.2.2
  have x2 := (hexDigit_val e2).2.2.2
  have x3 := (hexDigit_val e3).2.2.2
  have x4 := (hexDigit_val e4).2.2.2
  have y1 := (hexDigit_val f1).2.2.2
  have y2 := (hexDigit_val f2).2.2.2
  have y3 := (hexDigit_val f3).2.2.2
  have y4 := (hexDigit_val f4).2.2.2
  have w3 : ∀ n, 0xD800 ≤ n → n < 0x10000 → utf8 n = form8 3 n := by
    intro n g1 g2
    have : Utf.width8 n = 3 := by
      unfold Utf.width8
      rw [if_neg (by omega), if_neg (by omega), if_pos g2]
    unfold Utf.utf8; rw [this]
  obtain ⟨u, hu, eu⟩ := C198_escape h1 h2 h3 h4 a1 a2 a3 a4 13 [0x5c, 0x75, l1, l2, l3, l4, 0x22] [] e1 e2 e3 e4
  obtain ⟨u', hu', eu'⟩ := C198_escape l1 l2 l3 l4 b1 b2 b3 b4 12 [0x22] ([] ++ u) f1 f2 f3 f4
  refine ⟨u ++ u', ?_, ?_⟩
  · unfold nums at *
    rw [List.map_append, hu, hu', w3 _ hh (by omega), w3 _ hl (by omega)]
  · have hs : lex_string [0x5c, 0x75, h1, h2, h3, h4, 0x5c, 0x75, l1, l2, l3, l4, 0x22] = .ok (u ++ u', []) := by
      show lexStringLoop (13 + 1) _ _ = _
      rw [eu, eu']; rfl
    have ha : advance (D := List Byte) some [0x22, 0x5c, 0x75, h1, h2, h3, h4, 0x5c, 0x75, l1, l2, l3, l4, 0x22] =
        .ok (.string (u ++ u'), []) := by
      show (match lex_string [0x5c, 0x75, h1, h2, h3, h4, 0x5c, 0x75, l1, l2, l3, l4, 0x22] with
        | .error e => Except.error e
        | .ok (s, r) => .ok (Tok.string s, r)) = _
      rw [hs]
    unfold parse parse_any
    rw [ha]
    rfl

theorem C198_fails : ¬ C198_full := by
  intro h
  obtain ⟨s, h1, h2⟩ := h 0x64 0x38 0x33 0x64 0x64 0x65 0x30 0x30 0xD83D 0xDE00
    ⟨13, 8, 3, 13, rfl, rfl, rfl, rfl, rfl⟩ ⟨13, 14, 0, 0, rfl, rfl, rfl, rfl, rfl⟩ (by decide) (by decide) (by decide) (by decide)
  obtain ⟨s', h3, h4⟩ := C198_pair 0x64 0x38 0x33 0x64 0x64 0x65 0x30 0x30 13 8 3 13 13 14 0 0 rfl rfl rfl rfl rfl rfl rfl rfl
    (by decide) (by decide)
  rw [h2] at h4
  simp only [Except.ok.injEq, Val.str.injEq] at h4
  rw [h4, h3] at h1
  exact absurd h1 (by decide)

/-! ## C199 -/

/-- An array is told from an object. -/
def C199_full : Prop := ∀ (t t' : List Byte) (v v' : Val (List Byte)), t.head? = some 0x5b → t'.head? = some 0x7b →
  parse some t = .ok v → parse some t' = .ok v' → v ≠ v'

/-- It is if one of them has elements. -/
theorem C199_told_partial (td : List Byte → Option D) (t t' : List Byte) (v : Val D) (h : t.head? = some 0x5b)
    (h' : t'.head? = some 0x7b) (hp : parse td t = .ok v) (hp' : parse td t' = .ok v) : v = .empty := by
  have arrs : ∀ n vs l (v : Val D) l', go td n (.array vs) l = .ok (v, l') → v = .empty ∨ ∃ vs, v = .arr vs := by
    intro n
    induction n with
    | zero => intro vs l v l' h; simp [go] at h
    | succ n ih =>
      intro vs l v l' h
      have hm : ∀ vs : List (Val D), mkArr vs = .empty ∨ ∃ vs', mkArr vs = .arr vs' := by
        intro vs; cases vs <;> simp [mkArr]
      simp only [go] at h
      split at h
      · simp at h
      · simp only [Except.ok.injEq, Prod.mk.injEq] at h; rw [← h.1]; exact hm _
      · split at h
        · simp at h
        · split at h
          · simp at h
          · exact ih _ _ _ _ h
          · simp only [Except.ok.injEq, Prod.mk.injEq] at h; rw [← h.1]; exact hm _
          · simp at h
  have objs : ∀ n vs l (v : Val D) l', go td n (.map vs) l = .ok (v, l') → v = .empty ∨ ∃ vs, v = .obj vs := by
    intro n
    induction n with
    | zero => intro vs l v l' h; simp [go] at h
    | succ n ih =>
      intro vs l v l' h
      have hm : ∀ vs : List (List Byte × Val D), mkObj vs = .empty ∨ ∃ vs', mkObj vs = .obj vs' := by
        intro vs; cases vs <;> simp [mkObj]
      simp only [go] at h
      split at h
      · simp at h
      · simp only [Except.ok.injEq, Prod.mk.injEq] at h; rw [← h.1]; exact hm _
      · split at h
        · simp at h
        split at h
        · simp at h
        · split at h
          · simp at h
          · split at h
            · simp at h
            · split at h
              · simp at h
              · exact ih _ _ _ _ h
              · simp only [Except.ok.injEq, Prod.mk.injEq] at h; rw [← h.1]; exact hm _
              · simp at h
        · simp at h
      · simp at h
  cases t with
  | nil => simp at h
  | cons c t =>
    cases t' with
    | nil => simp at h'
    | cons c' t' =>
      simp only [List.head?_cons, Option.some.injEq] at h h'
      subst h; subst h'
      unfold parse parse_any at hp hp'
      rw [advance_lbracket] at hp
      rw [advance_lbrace] at hp'
      have s1 : ∀ n l, go td (n + 1) (.from_token .lbracket) l = go td n (.array []) l := fun _ _ => rfl
      have s2 : ∀ n l, go td (n + 1) (.from_token .lbrace) l = go td n (.map []) l := fun _ _ => rfl
      simp only [s1] at hp
      simp only [s2] at hp'
      split at hp
      · simp at hp
      · rename_i g
        split at hp'
        · simp at hp'
        · rename_i g'
          simp only [Except.ok.injEq] at hp hp'
          subst hp; subst hp'
          rcases arrs _ _ _ _ _ g with a | ⟨x, a⟩
          · exact a
          · rcases objs _ _ _ _ _ g' with b | ⟨y, b⟩
            · exact b
            · rw [a] at b; simp at b

theorem C199_fails : ¬ C199_full := by
  intro h
  exact h [0x5b, 0x5d] [0x7b, 0x7d] .empty .empty rfl rfl rfl rfl rfl

example : parse (D := List Byte) some [0x5b, 0x31, 0x5d] = .ok (.arr [.num [0x31]]) := by rfl

end C3.StdJson
