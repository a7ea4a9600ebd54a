import Verif.ByteLiteral.LemmasPiece

/-!
# C13: byte literals

`x"..."` and `b64"..."` literals are scanned by the lexer and turned into bytes by the parser;
adjacent literals are concatenated.  The scanner accepts exactly the well-formed literals and gives
their length.  The parser gives the denoted bytes for hex literals, and for a base64 literal that is
the first non-empty one and is padded (or followed by enough base64 characters).

Two defects: a base64 literal that follows another non-empty literal leaves its last byte (and more)
uninitialised, since the end pointer is `new_data + next_len` instead of `new_data + new_len`
(`parse_expr.c:1693`); an unpadded base64 literal is read past its closing quote, into the following
text, and past the end of the file buffer if that has too few base64 characters.
-/

set_option autoImplicit false

namespace C3.ByteLiteral
open C3.Codec (Decodes)

/-- **C13** (scanner, hex): what is accepted is a well-formed literal, with its length. -/
theorem C13_scan_hex (text : List Byte) (t : Token) (h : scan_hex_array text = some (some t)) :
    ∃ bytes, HexLiteral text bytes ∧ t.is_base64 = false ∧ t.bytes_len = bytes.length := by
  obtain ⟨q, cs, rest, e1, e2, e3, e4, e5⟩ := hex_token h
  obtain ⟨bs, hb, -⟩ := parse_hex_spec [] cs none [] (List.replicate cs.length none) 0 e3 (by simp)
    (by simpa using e4) (by
      have := List.length_filterMap_le hexVal cs
      simp; omega) rfl
  have hb : Decodes 4 (cs.filterMap hexVal) bs := by simpa using hb
  refine ⟨bs, ⟨q, cs, rest, e1, e2, e3, e4, hb⟩, by rw [e5], ?_⟩
  rw [e5, hb.1]; simp only; omega

/-- **C13** (scanner, hex): every well-formed literal is accepted. -/
theorem C13_scan_hex_complete (q : Byte) (text bytes : List Byte) (hq : q ≠ 0)
    (h : HexLiteral (q :: text) bytes) : ∃ t, scan_hex_array (q :: text) = some (some t) := by
  obtain ⟨q', cs, rest, e1, e2, e3, e4, -⟩ := h
  rw [List.cons.injEq] at e1
  obtain ⟨rfl, rfl⟩ := e1
  exact ⟨_, hex_of q hq cs rest e2 e3 e4⟩

-- `"a1 F0";`
example : ∃ t, scan_hex_array [34, 97, 49, 32, 70, 48, 34, 59] = some (some t) ∧ t.bytes_len = 2 :=
  ⟨_, rfl, rfl⟩

/-- **C13** (scanner, base64): what is accepted is a well-formed literal, with its length. -/
theorem C13_scan_base64 (text : List Byte) (t : Token) (h : scan_base64 text = some (some t)) :
    ∃ cs rest bytes, B64Literal text cs rest bytes ∧ t.is_base64 = true ∧ t.bytes_len = bytes.length := by
  obtain ⟨q, body, tail, rest, e1, e2, e3, e4, e5, e6, e7, e8⟩ := b64_token h
  have hcs : (body ++ tail).filterMap b64Val = body.filterMap b64Val := by
    rw [List.filterMap_append, tail_b64 e4, List.append_nil]
  obtain ⟨bs, hb⟩ := decodes_exists (body.filterMap b64Val) b64_lt e7
  refine ⟨body ++ tail, rest, bs, ⟨q, e1, e2, ⟨body, tail, rfl, e3, e4, e5, e6⟩, by rw [hcs]; exact e7,
    by rw [hcs]; exact hb⟩, by rw [e8], ?_⟩
  rw [e8, hb.1]; simp only; omega

/-- **C13** (scanner, base64): every well-formed literal is accepted. -/
theorem C13_scan_base64_complete (q : Byte) (text cs rest bytes : List Byte) (hq : q ≠ 0)
    (h : B64Literal (q :: text) cs rest bytes) : ∃ t, scan_base64 (q :: text) = some (some t) := by
  obtain ⟨q', e1, e2, ⟨body, tail, rfl, e3, e4, e5, e6⟩, e7, -⟩ := h
  rw [List.cons.injEq] at e1
  obtain ⟨rfl, rfl⟩ := e1
  rw [List.filterMap_append, tail_b64 e4, List.append_nil] at e7
  exact b64_of q hq body tail rest e2 e3 e4 e5 e6 e7

-- `"QUI=";`
example : ∃ t, scan_base64 [34, 81, 85, 73, 61, 34, 59] = some (some t) ∧ t.bytes_len = 2 :=
  ⟨_, rfl, rfl⟩

/-- A literal in the source: its text, its token and the bytes it denotes. -/
structure Literal where
  text : List Byte
  token : Token
  bytes : List Byte

/-- The token is what the scanner makes of the text, and the bytes are those that the text denotes;
an unpadded base64 literal is followed by enough base64 characters. -/
def Literal.Good (l : Literal) : Prop :=
  (scan_hex_array l.text = some (some l.token) ∧ HexLiteral l.text l.bytes) ∨
  (scan_base64 l.text = some (some l.token) ∧
    ∃ cs rest, B64Literal l.text cs rest l.bytes ∧ (Complete cs ∨ FilledBehind cs rest))

/-- The closing quote is the first occurrence of `q`, so that the text determines the parts. -/
theorem quote_unique {q : Byte} : ∀ {a b x y : List Byte}, a ++ q :: x = b ++ q :: y → q ∉ a → q ∉ b → a = b ∧ x = y
  | [], [], x, y, h, _, _ => by simpa using h
  | [], c :: b, x, y, h, _, hb => by
    simp only [List.nil_append, List.cons_append, List.cons.injEq] at h
    exact absurd h.1 (fun e => hb (by simp [e]))
  | c :: a, [], x, y, h, ha, _ => by
    simp only [List.nil_append, List.cons_append, List.cons.injEq] at h
    exact absurd h.1 (fun e => ha (by simp [e]))
  | c :: a, d :: b, x, y, h, ha, hb => by
    simp only [List.cons_append, List.cons.injEq] at h
    have := quote_unique h.2 (fun e => ha (by simp [e])) (fun e => hb (by simp [e]))
    exact ⟨by rw [h.1, this.1], this.2⟩

theorem good_piece (l : Literal) (h : l.Good) (data : Cells)
    (hd : l.token.is_base64 = true → l.bytes ≠ [] → data = []) :
    parsePiece data l.token = some (data ++ l.bytes.map some) := by
  rcases h with ⟨hs, q', cs', rest', e1', e2', e3', e4', hb⟩ |
    ⟨hs, cs', rest', ⟨q', e1', e2', -, e7', hb⟩, hend⟩
  · obtain ⟨q, cs, rest, e1, e2, e3, e4, e5⟩ := hex_token hs
    rw [e1', List.cons.injEq] at e1
    obtain ⟨rfl, e1⟩ := e1
    obtain ⟨rfl, rfl⟩ := quote_unique e1 e2' e2
    rw [e5]
    exact piece_hex data cs' (q' :: rest') l.bytes e3 e4 hb
  · obtain ⟨q, body, tail, rest, e1, e2, e3, e4, e5, e6, e7, e8⟩ := b64_token hs
    rw [e1', List.cons.injEq] at e1
    obtain ⟨rfl, e1⟩ := e1
    obtain ⟨rfl, rfl⟩ := quote_unique e1 e2' e2
    have hcs : (body ++ tail).filterMap b64Val = body.filterMap b64Val := by
      rw [List.filterMap_append, tail_b64 e4, List.append_nil]
    have hsx : sx (body ++ tail) = body.filterMap b64Val ++ List.replicate (tail.count 61) 0 := by
      unfold sx
      rw [List.filterMap_append]
      exact congrArg₂ _ (sx_body e3) (sx_tail e4)
    rw [hcs] at hb
    have hlen : l.bytes.length = (body.filterMap b64Val).length * 6 / 8 := by rw [hb.1]; omega
    by_cases h0 : l.bytes = []
    · rw [h0] at hlen ⊢
      unfold parsePiece
      simp only []
      rw [if_pos (by rw [e8]; exact hlen.symm)]; simp
    · rw [hd (by rw [e8]) h0, e8]
      simp only [List.nil_append]
      refine piece_b64 (body ++ tail) (q' :: rest') l.bytes _ _ hsx b64_lt e7 e6 (fun hz => ?_) (fun hz => ?_) hb
      · rcases e5 with h | h
        · exact absurd h hz
        · exact h
      · have hrest : (sx rest').length ≤ (sx (q' :: rest')).length := by
          cases hq : base64_to_sextet q' with
          | none => rw [sx_none hq]
          | some v => rw [sx_some hq, List.length_cons]; omega
        unfold Complete FilledBehind at hend
        rw [b64Count_eq, b64Count_eq, hsx, hz, List.replicate_zero, List.append_nil] at hend
        omega

/-- **C13**, for hex literals in any number and base64 literals in front of all other non-empty ones:
the constant holds the denoted bytes in order, every one of them initialised; the empty constant is
refused.

Missing for the full property: base64 literals behind other literals (`C13_uninitialised`) and
unpadded ones with too little text behind them (`C13_overread`). -/
theorem C13_bytes_partial (ls : List Literal) (hg : ∀ l ∈ ls, l.Good)
    (hfirst : ∀ pre l post, ls = pre ++ l :: post → l.token.is_base64 = true → l.bytes ≠ [] →
      ∀ p ∈ pre, p.bytes = []) :
    parse_bytes_expr (ls.map (·.token)) =
      some (if ls.flatMap (·.bytes) = [] then none else some ((ls.flatMap (·.bytes)).map some)) := by
  have key : ∀ (ls : List Literal) (D : List Byte), (∀ l ∈ ls, l.Good) →
      (∀ pre l post, ls = pre ++ l :: post → l.token.is_base64 = true → l.bytes ≠ [] →
        D = [] ∧ ∀ p ∈ pre, p.bytes = []) →
      (ls.map (·.token)).foldlM parsePiece (D.map some) = some ((D ++ ls.flatMap (·.bytes)).map some) := by
    intro ls
    induction ls with
    | nil => intro D _ _; simp
    | cons l ls ih =>
      intro D hg hf
      rw [List.map_cons, List.foldlM_cons, good_piece l (hg l (by simp)) (D.map some) (fun hb hne => by
        rw [(hf [] l ls rfl hb hne).1]; rfl), Option.bind_eq_bind, Option.bind_some, ← List.map_append,
        ih (D ++ l.bytes) (fun x hx => hg x (by simp [hx])) (fun pre x post hx hb hne => by
          have := hf (l :: pre) x post (by rw [hx]; rfl) hb hne
          exact ⟨by rw [this.1, this.2 l (by simp)]; rfl, fun p hp => this.2 p (by simp [hp])⟩)]
      simp
  have := key ls [] hg (fun pre l post h1 h2 h3 => ⟨rfl, hfirst pre l post h1 h2 h3⟩)
  rw [List.map_nil, List.nil_append] at this
  unfold parse_bytes_expr
  rw [this, Option.bind_eq_bind, Option.bind_some]
  by_cases h : ls.flatMap (·.bytes) = []
  · rw [if_pos h, h]; rfl
  · rw [if_neg h, if_neg]
    rw [List.length_map]
    exact fun h' => h (List.eq_nil_of_length_eq_zero h')

-- `b64"QUI=" x"a1 F0"` is `A B 0xa1 0xf0`
example : (scan_base64 [34, 81, 85, 73, 61, 34, 32, 120]).bind (fun t => (scan_hex_array
      [34, 97, 49, 32, 70, 48, 34, 59]).bind fun u => parse_bytes_expr (t.toList ++ u.toList)) =
    some (some [some 65, some 66, some 0xa1, some 0xf0]) := by decide

example : (⟨[34, 97, 49, 34, 59], ⟨false, 1, [97, 49, 34, 59], 2⟩, [0xa1]⟩ : Literal).Good :=
  Or.inl ⟨rfl, 34, [97, 49], [59], rfl, by decide, by
    intro c hc
    simp at hc
    rcases hc with rfl | rfl
    · exact Or.inl ⟨10, rfl⟩
    · exact Or.inl ⟨1, rfl⟩, rfl, by unfold Decodes; decide⟩

/-- **C13**, negation for concatenation: whenever a non-empty base64 literal follows a non-empty
literal, the constant that is built (if the parser does not leave its buffers) has a byte that was
never written. -/
theorem C13_uninitialised (pre post : List Token) (t : Token) (hb : t.is_base64 = true) (hn : t.bytes_len ≠ 0)
    (hpre : ∃ p ∈ pre, p.bytes_len ≠ 0) (cells : Cells)
    (h : parse_bytes_expr (pre ++ t :: post) = some (some cells)) : ∃ j : Nat, cells[j]? = some none := by
  unfold parse_bytes_expr at h
  rw [Option.bind_eq_bind, Option.bind_eq_some_iff] at h
  obtain ⟨data, h1, h2⟩ := h
  rw [List.foldlM_append, Option.bind_eq_bind, Option.bind_eq_some_iff] at h1
  obtain ⟨d1, h3, h4⟩ := h1
  rw [List.foldlM_cons, Option.bind_eq_bind, Option.bind_eq_some_iff] at h4
  obtain ⟨d2, h5, h6⟩ := h4
  have hl := fold_length pre [] d1 h3
  have hne : d1.length ≠ 0 := by
    obtain ⟨p, hp, hp0⟩ := hpre
    rw [hl, List.length_nil, Nat.zero_add]
    have := le_sum pre p hp
    omega
  have hu := piece_uninit h5 hb hn hne
  have hf := fold_front post d2 data h6 (d1.length + t.bytes_len - 1) (by rw [piece_length h5]; omega)
  split at h2
  · simp at h2
  · rw [Option.some.injEq, Option.some.injEq] at h2
    exact ⟨_, by rw [← h2, hf, hu]⟩

-- `x"00" b64"QUJD"`: only two of the three bytes are written
example : parse_bytes_expr [⟨false, 1, [48, 48, 34, 32], 2⟩, ⟨true, 3, [81, 85, 74, 68, 34, 59], 4⟩] =
    some (some [some 0, some 65, some 66, none]) := by decide

/-- **C13**, negation for unpadded base64: a literal that the scanner accepts, whose last group is not
full and is not filled by the base64 characters of the rest of the file, is read past the end of the
file buffer. -/
theorem C13_overread (text : List Byte) (t : Token) (cs rest bytes : List Byte) (pre post : List Token)
    (hs : scan_base64 text = some (some t)) (hl : B64Literal text cs rest bytes)
    (h1 : ¬ Complete cs) (h2 : ∀ q, text.head? = some q → b64Val q = none ∧ q ≠ 61)
    (h3 : ¬ FilledBehind cs rest) : parse_bytes_expr (pre ++ t :: post) = none := by
  obtain ⟨q', e1', e2', -, -, -⟩ := hl
  obtain ⟨q, body, tail, rest', e1, e2, e3, e4, e5, e6, e7, e8⟩ := b64_token hs
  rw [e1', List.cons.injEq] at e1
  obtain ⟨rfl, e1⟩ := e1
  obtain ⟨rfl, rfl⟩ := quote_unique e1 e2' e2
  have hq := h2 q' (by rw [e1']; rfl)
  have hq' : base64_to_sextet q' = none := by rw [sextet_eq, if_neg hq.2, hq.1]
  have hsx : sx (body ++ tail) = body.filterMap b64Val ++ List.replicate (tail.count 61) 0 := by
    unfold sx
    rw [List.filterMap_append]
    exact congrArg₂ _ (sx_body e3) (sx_tail e4)
  unfold Complete at h1
  unfold FilledBehind at h3
  rw [b64Count_eq] at h1
  rw [b64Count_eq, b64Count_eq] at h3
  have hz : (sx (body ++ tail)).length = (body.filterMap b64Val).length := by
    have := h1
    rw [hsx, List.length_append, List.length_replicate] at this ⊢
    omega
  have key : ∀ data, parsePiece data t = none := by
    intro data
    rw [e8]
    refine piece_b64_short (body ++ tail) (q' :: rest) data _ ?_ h1 ?_
    · have hm : (body.filterMap b64Val).length % 4 ≠ 0 := by rw [← hz]; exact h1
      have hm1 := e7
      clear hz h1 h3 e5 hsx
      generalize (body.filterMap b64Val).length = m at hm hm1 ⊢
      have : 2 ≤ m := by omega
      omega
    · rw [sx_none hq']; omega
  unfold parse_bytes_expr
  rw [List.foldlM_append]
  cases hp : pre.foldlM parsePiece [] with
  | none => rfl
  | some d => simp [List.foldlM_cons, key]

-- `b64"QQ";` at the end of the file
example : (scan_base64 [34, 81, 81, 34, 59, 10, 0]).bind (fun t => parse_bytes_expr t.toList) = none := by decide

-- the same literal with enough text behind it is read correctly
example : (scan_base64 [34, 81, 81, 34, 59, 10, 102, 110, 0]).bind (fun t => parse_bytes_expr t.toList) =
    some (some [some 65]) := by decide

end C3.ByteLiteral
