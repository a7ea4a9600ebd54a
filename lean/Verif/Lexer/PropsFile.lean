import Verif.Lexer.PropsChar

/-! # Tokens, gaps and comments of a file -/

set_option autoImplicit false

namespace C3.Lexer

open Spec (HexOverrun OpenChar OpenRaw RawText Gap NoGap Tiled Comment Inside Units located row inLine str)

/-- Lexing a text without NUL and carriage return bytes (`C43` is about their removal) breaks off, by reading outside the
text or a table, only if it contains a character literal or raw string that is not closed, or a byte outside ASCII among
the hex digits of an escape.  Otherwise it ends, and unless an error is reported, the text consists of the tokens, in
order, and of whitespace and comments between them.  The full claim, that it never breaks off, does not hold: see
`C14_open_raw`, `C14_open_char` and `C14_hex_overrun`. -/
theorem C14_tokens_partial (src : Src) (hz : NoNul src) (hcr : ∀ c ∈ src, c ≠ 13) (keyword : List Nat → Bool) :
    (lexAll src keyword init = none → HexOverrun src ∨ OpenChar src ∨ OpenRaw src) ∧
    (∀ toks, lexAll src keyword init = some (toks, true) → Tiled src false 0 toks) := by
  have h := lexAll_cases src hz hcr keyword _ init (located_init src) rfl
  rcases h with ⟨h1, h2⟩ | ⟨toks, ok, h1, h2, h3⟩
  · exact ⟨fun _ => h2, fun toks h => by rw [h1] at h; cases h⟩
  · refine ⟨fun h => (by rw [h1] at h; cases h), fun toks' h => ?_⟩
    rw [h1] at h
    simp only [Option.some.injEq, Prod.mk.injEq] at h
    obtain ⟨rfl, rfl⟩ := h
    exact h2 rfl

/-- The text ";" is lexed as one token. -/
example : ∃ x, lexAll [59] (fun _ => false) init = some ([x], true) ∧ x.tok = .sym ";" := by
  refine ⟨⟨.sym ";", adv1 [59] (begin_ init)⟩, ?_, rfl⟩
  have hz : NoNul [59] := by simp [NoNul]
  rw [lexAll, nextToken, scanToken_at [59] hz (by simp) _ (l := init) (c := 59) (s := []) rfl (by simp [NoGap, str])]
  have h : scanTok [59] (fun _ => false) 59 (adv1 [59] (begin_ init)) = some (adv1 [59] (begin_ init), some (.sym ";")) := by
    simp [scanTok, ch]
  simp only [h, Option.bind_eq_bind, Option.bind_some, Out.isTok, if_true]
  rcases lexAll_end [59] hz (by simp) (fun _ => false) (l := adv1 [59] (begin_ init)) (by simp [begin_, init]) with h | ⟨_, h⟩
  · simp [h]
  · exfalso
    rcases h with ⟨i, j, c, h, _⟩ | ⟨i, h, _⟩ | ⟨i, h, _⟩ <;> rcases i with _ | i <;> simp at h

/-- Every token is where its location says. -/
theorem C46_locations (src : Src) (hz : NoNul src) (hcr : ∀ c ∈ src, c ≠ 13) (keyword : List Nat → Bool) (toks : List Lexed)
    (ok : Bool) (h : lexAll src keyword init = some (toks, ok)) :
    ∀ x ∈ toks, span x.l = located src x.l.start x.l.pos := by
  have h' := lexAll_cases src hz hcr keyword _ init (located_init src) rfl
  rcases h' with ⟨h1, _⟩ | ⟨toks', ok', h1, _, h3⟩
  · rw [h1] at h; cases h
  · rw [h1] at h
    simp only [Option.some.injEq, Prod.mk.injEq] at h
    obtain ⟨rfl, rfl⟩ := h
    exact fun x hx => span_located (h3 x hx)

/-- In the text "a", line break, " bc", the text [3, 5) is in line 2, column 2, and has 2 characters. -/
example : located [97, 10, 32, 98, 99] 3 5 = ⟨2, 2, 2⟩ := by decide

theorem nextToken_over (src : Src) (keyword : List Nat → Bool) {l l' : Lx}
    (h : scanToken src keyword l = some (l', .bad)) (hp : l'.pos = src.length + 1) : nextToken src keyword l = none := by
  unfold nextToken
  simp only [h, Option.bind_eq_bind, Option.bind_some, Out.isTok, peek, hp, rd_over]
  rfl

theorem lexAll_none (src : Src) (keyword : List Nat → Bool) {l : Lx} (h : nextToken src keyword l = none) :
    lexAll src keyword l = none := by
  rw [lexAll, h]; rfl

/-- A raw string that is not closed makes the lexer read behind the end of the text. -/
theorem C14_open_raw (src : Src) (hz : NoNul src) (hcr : ∀ c ∈ src, c ≠ 13) (keyword : List Nat → Bool) (l : Lx)
    (body : List Nat) (hb : RawText body) (hs : src.drop l.pos = 96 :: body) : lexAll src keyword l = none := by
  apply lexAll_none
  obtain ⟨hlt, _, hs'⟩ := drop_cons hs
  have hp : (adv1 src (begin_ l)).pos ≤ src.length := by simp [begin_]; omega
  have hd : src.drop (adv1 src (begin_ l)).pos = body := by simpa [begin_] using hs'
  rcases scanRaw_cases src hz hp (by simp [begin_]) with ⟨s, t, r, h1, h2, h3, h4⟩ | ⟨_, h2⟩
  · rw [hd] at h1
    subst h1
    exact absurd hb (raw_open h2 h3)
  · refine nextToken_over src keyword (l' := advN src (adv1 src (begin_ l)) (src.length + 1 - (adv1 src (begin_ l)).pos)) ?_
      (by simp [begin_]; omega)
    rw [scanToken_at src hz hcr keyword hs (by simp [NoGap, str])]
    have : scanTok src keyword 96 (adv1 src (begin_ l)) = scanRaw src (adv1 src (begin_ l)) := by
      unfold scanTok
      rw [if_neg (by decide), if_neg (by decide), if_neg (by decide), if_pos (by decide)]
    rw [this, h2]; rfl

/-- A file with a single back quote. -/
example : RawText [] ∧ [96].drop init.pos = 96 :: [] := ⟨.nil, rfl⟩

/-- So does a character literal that is not closed. -/
theorem C14_open_char (src : Src) (hz : NoNul src) (hcr : ∀ c ∈ src, c ≠ 13) (keyword : List Nat → Bool) (l : Lx)
    (s bs : List Nat) (h : Units s bs) (h1 : 1 ≤ bs.length) (h16 : bs.length ≤ 16) (hs : src.drop l.pos = 39 :: s) :
    lexAll src keyword l = none := by
  apply lexAll_none
  obtain ⟨hlt, _, hs'⟩ := drop_cons hs
  obtain ⟨c, r, rfl, hc⟩ := units_first h (by intro e; simp [e] at h1)
  refine nextToken_over src keyword (l' := advN src (adv1 src (begin_ l)) ((c :: r).length + 1)) ?_ ?_
  · rw [scanToken_char src hz hcr keyword hs hc]
    have hd : src.drop (adv1 src (begin_ l)).pos = (c :: r) ++ [] := by simpa [begin_] using hs'
    rw [charLoop_units src h 0 0 _ _ hd (by omega)]
    have hp : (advN src (adv1 src (begin_ l)) (c :: r).length).pos = src.length := by
      have := congrArg List.length hs
      simp at this
      simp [begin_]; omega
    rw [charLoop]
    rcases accept_eq src (ch '\'') (by decide) (Nat.le_of_eq hp) with ⟨hn, _, _⟩ | ⟨_, he⟩
    · rw [hp, rd_end] at hn; exact absurd (Option.some.inj hn) (by decide)
    · simp only [he, Option.bind_eq_bind, Option.bind_some, peek, hp, rd_end, next_eq src (Nat.le_of_eq hp)]
      simp [advN_adv1]
  · have := congrArg List.length hs
    simp at this
    simp [begin_]; omega

/-- The file `'a`. -/
example : Units [97] [97] ∧ [39, 97].drop init.pos = 39 :: [97] := ⟨.plain _ _ _ (by decide) (by decide) .nil, rfl⟩

/-- A byte outside ASCII where a hex digit should be is used as an index far outside the table of hex digits. -/
theorem C14_hex_overrun (src : Src) (hz : NoNul src) (hcr : ∀ c ∈ src, c ≠ 13) (keyword : List Nat → Bool) (l : Lx)
    (s bs d rest : List Nat) (c : Nat) (h : Units s bs) (h15 : bs.length ≤ 15) (hd : d.length < 2)
    (hh : ∀ x ∈ d, Spec.IsHex x) (hc : 128 ≤ c) (hs : src.drop l.pos = 39 :: (s ++ 92 :: 120 :: (d ++ c :: rest))) :
    lexAll src keyword l = none := by
  apply lexAll_none
  obtain ⟨hlt, _, hs'⟩ := drop_cons hs
  have hfirst : ∃ c' r, s ++ 92 :: 120 :: (d ++ c :: rest) = c' :: r ∧ c' ≠ 39 := by
    by_cases e : bs = []
    · subst e
      cases h
      exact ⟨92, _, rfl, by decide⟩
    · obtain ⟨c', r, rfl, hc'⟩ := units_first h e
      exact ⟨c', _, rfl, hc'⟩
  obtain ⟨c', r, e, hc'⟩ := hfirst
  rw [e] at hs
  unfold nextToken
  rw [scanToken_char src hz hcr keyword hs hc']
  have hd1 : src.drop (adv1 src (begin_ l)).pos = s ++ 92 :: 120 :: (d ++ c :: rest) := by simpa [begin_] using hs'
  rw [charLoop_units src h 0 0 _ _ hd1 (by omega)]
  have hd2 : src.drop (advN src (adv1 src (begin_ l)) s.length).pos = 92 :: 120 :: (d ++ c :: rest) := by
    rw [advN_pos]; exact drop_append hd1
  rw [charLoop_escape src hd2 (by omega) (by rfl : validEscape 120 = some 120), if_pos (by decide)]
  have hd3 := drop_append (a := [92, 120]) hd2
  have hhex : ∀ (n : Nat) (d : List Nat) (v : Nat) (l : Lx), d.length < n → (∀ x ∈ d, Spec.IsHex x) →
      src.drop l.pos = d ++ c :: rest → hexLiteral src v l n = none := by
    intro n
    induction n with
    | zero => intro d v l h; omega
    | succ n ih =>
      intro d v l hn hx hs
      cases d with
      | nil =>
        obtain ⟨_, hrd, _⟩ := drop_cons (s := rest) hs
        simp only [hexLiteral, peek, hrd, Option.bind_eq_bind, Option.bind_some, hexNibble]
        rw [if_pos hc]; rfl
      | cons a d =>
        obtain ⟨hlt, hrd, hs2⟩ := drop_cons (s := d ++ c :: rest) hs
        simp only [hexLiteral, peek, hrd, Option.bind_eq_bind, Option.bind_some]
        rcases hexNibble_cases a with ⟨h, e⟩ | ⟨h, e⟩ | ⟨h, h', e⟩
        · rw [e]; rfl
        · rw [e]
          simp only [Option.bind_some, next_eq src (Nat.le_of_lt hlt)]
          exact ih d _ _ (by simp at hn; omega) (fun x h => hx x (by simp [h])) (by simpa using hs2)
        · exact absurd (hx a (by simp)) h'
  rw [hhex 2 d 0 _ hd hh (by simpa using hd3)]
  rfl

/-- The file `'\xé'`. -/
example : [39, 92, 120, 0xC3, 0xA9, 39].drop init.pos = 39 :: ([] ++ 92 :: 120 :: ([] ++ 0xC3 :: [0xA9, 39])) := rfl

/-! ## Comments -/

/-- Outside contracts a block comment is skipped up to the `*/` that balances its `/*`. -/
theorem C15_closed (src : Src) (hz : NoNul src) (keyword : List Nat → Bool) (l : Lx)
    (b r : List Nat) (hm : l.contracts = false) (hb : Comment b r) (hs : src.drop l.pos = str "/*" ++ (b ++ r)) :
    ∃ l', l'.pos = l.pos + 2 + b.length ∧ src.drop l'.pos = r ∧ scanToken src keyword l = scanToken src keyword l' := by
  have hs' : src.drop l.pos = ch '/' :: ch '*' :: (b ++ r) := hs
  obtain ⟨hlt, h1, hs1⟩ := drop_cons hs'
  obtain ⟨hlt2, h2, hs2⟩ := drop_cons hs1
  refine ⟨advN src (advN src l 2) b.length, by simp, ?_, ?_⟩
  · have := drop_append hs2
    simpa [Nat.add_assoc] using this
  · unfold scanToken
    rw [show skipWhitespace src l = skipWhitespace src (advN src (advN src l 2) b.length) by
      rw [skipWhitespace]
      simp only [peek, h1, Option.bind_eq_bind, Option.bind_some, if_true, hm, Bool.false_eq_true, if_false, peekNext, h2]
      rw [if_neg (by decide), skip_eq src 2 (by omega), Option.bind_some]
      rw [blockComment_closed src hz (b := b) (r := r) (by simpa using hs2) hb, Option.bind_some]]

/-- `/* a /* b */ c */`. -/
example : Comment (str " a /* b */ c */") (str " x") := by
  refine ⟨str " a /* b */ c ", rfl, ?_⟩
  have h1 : Inside (str " b ") (str "*/" ++ (str " c " ++ (str "*/" ++ str " x"))) := by
    refine .char _ _ _ (by decide) (by decide) (.char _ _ _ (by decide) (by decide) (.char _ _ _ (by decide) (by decide) ?_))
    exact .nil _
  have h2 : Inside (str " c ") (str "*/" ++ str " x") :=
    .char _ _ _ (by decide) (by decide) (.char _ _ _ (by decide) (by decide) (.char _ _ _ (by decide) (by decide) (.nil _)))
  exact .char _ _ _ (by decide) (by decide) (.char _ _ _ (by decide) (by decide) (.char _ _ _ (by decide) (by decide)
    (.nested (str " b ") (str " c ") _ h1 h2)))

/-- That `*/` is unique. -/
theorem C15_unique (b b' r r' : List Nat) (hz : NoNul (b ++ r)) (h : Comment b r) (h' : Comment b' r')
    (e : b ++ r = b' ++ r') : b = b' := by
  have h1 := blockComment_closed (b ++ r) hz (l := init) (b := b) (r := r) rfl h
  have h2 := blockComment_closed (b ++ r) hz (l := init) (b := b') (r := r') (by simpa [init] using e) h'
  have := congrArg (Option.map Lx.pos) (h1.symm.trans h2)
  simp at this
  have hb := congrArg (List.take b.length) e
  rw [List.take_left, this, List.take_left] at hb
  exact hb

/-- Without one, the rest of the file is skipped and no error reported. -/
theorem C15_open (src : Src) (hz : NoNul src) (keyword : List Nat → Bool) (l : Lx)
    (s : List Nat) (hm : l.contracts = false) (hb : ¬ ∃ b r, s = b ++ r ∧ Comment b r)
    (hs : src.drop l.pos = str "/*" ++ s) :
    ∃ l', l'.pos = src.length ∧ nextToken src keyword l = some (l', .eof, true) := by
  have hs' : src.drop l.pos = ch '/' :: ch '*' :: s := hs
  obtain ⟨hlt, h1, hs1⟩ := drop_cons hs'
  obtain ⟨hlt2, h2, hs2⟩ := drop_cons hs1
  have hp : (advN src l 2).pos ≤ src.length := by simp; omega
  have hend : (advN src (advN src l 2) (src.length - (advN src l 2).pos)).pos = src.length := by
    simp; omega
  have hskip : skipWhitespace src l = some (advN src (advN src l 2) (src.length - (advN src l 2).pos)) := by
    rw [skipWhitespace]
    simp only [peek, h1, Option.bind_eq_bind, Option.bind_some, if_true, hm, Bool.false_eq_true, if_false, peekNext, h2]
    rw [if_neg (by decide), skip_eq src 2 (by omega), Option.bind_some]
    rw [blockComment_open src hz hp (by
      rw [show src.drop (advN src l 2).pos = s by simpa using hs2]; exact hb), Option.bind_some]
    rw [skipWhitespace]
    simp only [peek, hend, rd_end, Option.bind_eq_bind, Option.bind_some]
    simp [ch]
  refine ⟨begin_ (advN src (advN src l 2) (src.length - (advN src l 2).pos)), hend, ?_⟩
  have hend' : (begin_ (advN src (advN src l 2) (src.length - (advN src l 2).pos))).pos = src.length := hend
  unfold nextToken scanToken
  simp only [hskip, Option.bind_eq_bind, Option.bind_some, peek, hend', rd_end, if_true, Out.isTok, Bool.false_eq_true,
    if_false]

/-- The rest of the file `/* a`. -/
example : ¬ ∃ b r, [32, 97] = b ++ r ∧ Comment b r := by
  rintro ⟨b, r, e, t, rfl, _⟩
  have : 42 ∈ [32, 97] := by rw [e]; simp [str]
  simp at this

end C3.Lexer
