import Verif.Lexer.LemmasFile
import Verif.Utf.Spec

/-! # String literals -/

set_option autoImplicit false

namespace C3.Lexer

open Spec (Text Raw IsHex hexValue escapes str NoGap)
open C3.Utf (IsScalar utf8 form8 width8)

theorem Text.mono {b c b' c' : Nat → Option (List Nat)} (hb : ∀ v t, b v = some t → b' v = some t)
    (hc : ∀ v t, c v = some t → c' v = some t) {s t : List Nat} (h : Text b c s t) : Text b' c' s t := by
  induction h with
  | nil => exact .nil
  | plain e s t he _ ih => exact .plain e s t he ih
  | escape e v s t he _ ih => exact .escape e v s t he ih
  | x d b s t h1 h2 h3 _ ih => exact .x d b s t h1 h2 (hb _ _ h3) ih
  | u d b s t h1 h2 h3 _ ih => exact .u d b s t h1 h2 (hc _ _ h3) ih
  | U d b s t h1 h2 h3 _ ih => exact .U d b s t h1 h2 (hc _ _ h3) ih

theorem or_add (k a b : Nat) (hb : b < 2 ^ k) (ha : a % 2 ^ k = 0) : a ||| b = a + b := by
  obtain ⟨q, rfl⟩ : ∃ q, a = 2 ^ k * q := ⟨a / 2 ^ k, by have := Nat.div_add_mod a (2 ^ k); omega⟩
  exact (Nat.two_pow_add_eq_or_of_lt hb q).symm

theorem and63 (a : Nat) : a &&& 63 = a % 64 := Nat.and_two_pow_sub_one_eq_mod a 6

theorem putUtf8_utf8 {v : Nat} (h : v < 0x200000) : putUtf8 v = utf8 v := by
  have c : ∀ a, 0x80 ||| (a &&& 0x3F) = 0x80 + a % 64 := by
    intro a; rw [and63]; exact or_add 6 _ _ (Nat.mod_lt _ (by omega)) rfl
  unfold putUtf8 utf8 width8
  split
  · rfl
  · split
    · simp only [form8, c, Nat.shiftRight_eq_div_pow]
      rw [or_add 5 _ _ (by omega) rfl]
    · split
      · simp only [form8, c, Nat.shiftRight_eq_div_pow]
        rw [or_add 4 _ _ (by omega) rfl]
      · simp only [form8, c, Nat.shiftRight_eq_div_pow]
        rw [or_add 3 _ _ (by omega) rfl, Nat.mod_eq_of_lt (by omega)]

/-- At a text that starts with a token, `lexer_scan_token_inner` goes on with the character after the first. -/
theorem scanToken_at (src : Src) (hz : NoNul src) (hcr : ∀ c ∈ src, c ≠ 13) (keyword : List Nat → Bool) {l : Lx} {c : Nat}
    {s : List Nat} (hs : src.drop l.pos = c :: s) (hn : NoGap l.contracts (c :: s)) :
    scanToken src keyword l = (scanTok src keyword c (adv1 src (begin_ l))).bind fun x =>
      match x.2 with
      | none => some (x.1, .bad)
      | some t => some (x.1, .tok t) := by
  obtain ⟨hlt, hc, _⟩ := drop_cons hs
  have hskip : skipWhitespace src l = some l := by
    rw [skipWhitespace]
    simp only [peek, hc, Option.bind_eq_bind, Option.bind_some]
    obtain ⟨h1, h2⟩ := hn
    simp at h1
    have h13 := rd_not13 hcr hc
    by_cases e : c = ch '/'
    · subst e
      rw [if_pos rfl]
      cases hm : l.contracts with
      | true => rfl
      | false =>
        obtain ⟨_, h3, h4⟩ := h2 hm
        obtain ⟨d, hd⟩ := rd_some src (show l.pos + 1 ≤ src.length by omega)
        simp only [peekNext, hd, Option.bind_some, Bool.false_eq_true, if_false]
        have key : ∀ x, x ≠ 0 → d = x → [ch '/', x] <+: ch '/' :: s := by
          rintro x hx rfl
          have := drop_rd (rd_lt src hd hx) hd
          rw [(drop_cons hs).2.2] at this
          rw [this]; simp
        rw [if_neg (show ¬ d = ch '/' from fun e => h3 (key (ch '/') (by decide) e)),
          if_neg (show ¬ d = ch '*' from fun e => h4 (key (ch '*') (by decide) e))]
    · rw [if_neg e]
      by_cases e' : c = 10
      · subst e'
        cases hm : l.contracts with
        | true => simp [ch]
        | false => exact absurd rfl (h2 hm).1
      · rw [if_neg (by simp [ch, e']), if_neg (by simp [ch, e', h1]), if_neg (show ¬ c = ch '\r' from h13)]
  have h0 : c ≠ 0 := hz c (List.mem_of_mem_drop (show c ∈ src.drop l.pos by rw [hs]; simp))
  unfold scanToken
  simp only [hskip, Option.bind_eq_bind, Option.bind_some, peek, show (begin_ l).pos = l.pos from rfl, hc]
  rw [if_neg h0, next_eq src (show (begin_ l).pos ≤ src.length by exact Nat.le_of_lt hlt), Option.bind_some]
  rcases scanTok src keyword c (adv1 src (begin_ l)) with _ | ⟨a, _ | b⟩ <;> rfl

theorem scanToken_quote (src : Src) (hz : NoNul src) (hcr : ∀ c ∈ src, c ≠ 13) (keyword : List Nat → Bool) {l : Lx}
    {s : List Nat} (hs : src.drop l.pos = 34 :: s) {l' : Lx} {t : Tok}
    (h : scanString src (adv1 src (begin_ l)) = some (l', some t)) : scanToken src keyword l = some (l', .tok t) := by
  rw [scanToken_at src hz hcr keyword hs (by simp [NoGap, str])]
  have : scanTok src keyword 34 (adv1 src (begin_ l)) = scanString src (adv1 src (begin_ l)) := by
    unfold scanTok
    rw [if_neg (by decide), if_neg (by decide), if_neg (by decide), if_neg (by decide), if_pos (by decide)]
  rw [this, h]; rfl

/-- A string literal by the book: `\xhh` stands for a byte, `\u` and `\U` for the UTF-8 encoding of a scalar value, and
nothing else is allowed. -/
def Book : List Nat → List Nat → Prop :=
  Text (fun v => some [v]) (fun v => if IsScalar v then some (utf8 v) else none)

/-- Those literals of the book whose `\xhh` are ASCII. -/
def BookAscii : List Nat → List Nat → Prop :=
  Text (fun v => if v < 128 then some [v] else none) (fun v => if IsScalar v then some (utf8 v) else none)

theorem bookAscii_book {s t : List Nat} (h : BookAscii s t) : Book s t :=
  Text.mono (fun v t h => by split at h <;> simp_all) (fun _ _ h => h) h

/-- The bytes of a string literal are its source bytes with each escape replaced by the byte or by the UTF-8 encoding of
the code point it denotes.  Missing: `\x80` to `\xff`, see `C17_byte_escape`. -/
theorem C17_string_partial (src : Src) (hz : NoNul src) (hcr : ∀ c ∈ src, c ≠ 13) (keyword : List Nat → Bool) (l : Lx)
    (body bytes rest : List Nat) (hb : BookAscii body bytes) (hs : src.drop l.pos = 34 :: (body ++ 34 :: rest)) :
    ∃ l', scanToken src keyword l = some (l', .tok (.string bytes)) ∧ l'.start = l.pos ∧
      l'.pos = l.pos + body.length + 2 := by
  obtain ⟨hlt, _, hs'⟩ := drop_cons hs
  have hput : Text put put body bytes := by
    refine Text.mono (fun v t h => ?_) (fun v t h => ?_) hb
    · by_cases hv : v < 128
      · simp only [hv, if_true] at h
        cases h
        unfold put putUtf8; rw [if_pos (by omega)]
      · simp [hv] at h
    · by_cases hv : IsScalar v
      · simp only [hv, if_true] at h
        cases h
        unfold put; rw [putUtf8_utf8 (by unfold IsScalar at hv; omega)]
      · simp [hv] at h
  have hzb : NoNul body := by
    intro c hc
    refine hz c (List.mem_of_mem_drop (i := l.pos) ?_)
    rw [hs]; simp [hc]
  have := scanString_text src (l := adv1 src (begin_ l)) (by simp [begin_]; omega) hput hzb (rest := rest)
    (by simpa [begin_] using hs')
  exact ⟨_, scanToken_quote src hz hcr keyword hs this, by simp [begin_], by simp [begin_]; omega⟩

/-- The literal `"aé\né\x41"`. -/
example : BookAscii [97, 195, 169, 92, 110, 92, 117, 48, 48, 101, 57, 92, 120, 52, 49] [97, 195, 169, 10, 195, 169, 65] := by
  refine .plain _ _ _ (by decide) (.plain _ _ _ (by decide) (.plain _ _ _ (by decide) (.escape 110 10 _ _ (by decide) ?_)))
  refine .u [48, 48, 101, 57] [195, 169] _ _ rfl (by simp [IsHex]) (by decide) ?_
  exact .x [52, 49] [65] _ _ rfl (by simp [IsHex]) (by decide) .nil

/-- Conversely, an accepted string literal consists of characters other than line breaks and of complete escapes, up to
the first quote that is not escaped; no escape for a number below 200000 hex stands for anything but its UTF-8 encoding.
The bytes fit the buffer `scan_string` has allocated for them. -/
theorem C17_accepted (src : Src) (hz : NoNul src) (hcr : ∀ c ∈ src, c ≠ 13) (keyword : List Nat → Bool) (l l' : Lx)
    (s bytes : List Nat) (hs : src.drop l.pos = 34 :: s)
    (h : scanToken src keyword l = some (l', .tok (.string bytes))) :
    ∃ body rest enc, s = body ++ 34 :: rest ∧ Text enc enc body bytes ∧ (∀ v < 0x200000, enc v = some (utf8 v)) ∧
      l'.pos = l.pos + body.length + 2 ∧ bytes.length ≤ body.length := by
  obtain ⟨hlt, _, hs'⟩ := drop_cons hs
  rw [scanToken_at src hz hcr keyword hs (by simp [NoGap, str])] at h
  have : scanTok src keyword 34 (adv1 src (begin_ l)) = scanString src (adv1 src (begin_ l)) := by
    unfold scanTok
    rw [if_neg (by decide), if_neg (by decide), if_neg (by decide), if_neg (by decide), if_pos (by decide)]
  rw [this] at h
  rcases scanString_cases src (l := adv1 src (begin_ l)) (by simp [begin_]; omega) with ⟨h1, _⟩ | ⟨l1, h1, _⟩ |
    ⟨body, t, rest, h1, h2, h3⟩
  · rw [h1] at h; cases h
  · rw [h1] at h; cases h
  · rw [h3] at h
    simp only [Option.bind_some, Option.some.injEq, Prod.mk.injEq, Out.tok.injEq, Tok.string.injEq] at h
    obtain ⟨rfl, rfl⟩ := h
    refine ⟨body, rest, put, ?_, h1, fun v hv => by unfold put; rw [putUtf8_utf8 hv], ?_, ?_⟩
    · rw [← h2]; simpa [begin_] using hs'.symm
    · simp [begin_]; omega
    · have hlen : ∀ v, (putUtf8 v).length ≤ 4 := by
        intro v; unfold putUtf8; split <;> (try split) <;> (try split) <;> simp
      clear h2 h3 hs hs'
      induction h1 with
      | nil => simp
      | plain c s t _ _ ih => simp; exact ih
      | escape e v s t _ _ ih => simp; omega
      | x d b s t h1 _ h3 _ ih => cases h3; have := hlen (hexValue d); simp [h1]; omega
      | u d b s t h1 _ h3 _ ih => cases h3; have := hlen (hexValue d); simp [h1]; omega
      | U d b s t h1 _ h3 _ ih => cases h3; have := hlen (hexValue d); simp [h1]; omega

/-- The text `"a\u00e9"`. -/
example : Text (fun v => some (utf8 v)) (fun v => some (utf8 v)) (str "a\\u00e9") [97, 0xC3, 0xA9] :=
  .plain 97 _ _ (by decide) (.u (str "00e9") [0xC3, 0xA9] [] [] rfl (by decide) (by decide) .nil)

/-- The same escape by the book and in the compiler: a byte from 80 to ff hex becomes two bytes. -/
theorem C17_byte_escape (src : Src) (hz : NoNul src) (hcr : ∀ c ∈ src, c ≠ 13) (keyword : List Nat → Bool) (l : Lx)
    (a b : Nat) (rest : List Nat) (ha : IsHex a) (hb : IsHex b) (hv : 128 ≤ hexValue [a, b])
    (hs : src.drop l.pos = 34 :: 92 :: 120 :: a :: b :: 34 :: rest) :
    Book [92, 120, a, b] [hexValue [a, b]] ∧
    ∃ l', scanToken src keyword l = some (l', .tok (.string (utf8 (hexValue [a, b])))) ∧
      utf8 (hexValue [a, b]) ≠ [hexValue [a, b]] := by
  obtain ⟨hlt, _, hs'⟩ := drop_cons hs
  have hhex : ∀ c ∈ [a, b], IsHex c := by simp [ha, hb]
  have hlt256 : hexValue [a, b] < 256 := by
    have : ∀ c, IsHex c → Spec.hexDigit c < 16 := by
      intro c h; unfold IsHex at h; unfold Spec.hexDigit; split
      · omega
      · split <;> omega
    have h1 := this a ha
    have h2 := this b hb
    simp [hexValue]; omega
  refine ⟨.x [a, b] [hexValue [a, b]] [] [] rfl hhex rfl .nil, ?_⟩
  have hput : Text put put [92, 120, a, b] (putUtf8 (hexValue [a, b])) := by
    have := Text.x (byte := put) (char := put) [a, b] _ [] [] rfl hhex rfl .nil
    simpa using this
  have hzb : NoNul [92, 120, a, b] := by
    intro c hc
    refine hz c (List.mem_of_mem_drop (i := l.pos) ?_)
    rw [hs]; revert hc; simp; rintro (h | h | h | h) <;> simp [h]
  have := scanString_text src (l := adv1 src (begin_ l)) (by simp [begin_]; omega) hput hzb (rest := rest)
    (by simpa [begin_] using hs')
  rw [putUtf8_utf8 (by omega)] at this
  refine ⟨_, scanToken_quote src hz hcr keyword hs this, ?_⟩
  intro e
  have := congrArg List.length e
  unfold utf8 width8 at this
  rw [if_neg (by omega), if_pos (by omega)] at this
  simp [form8] at this

/-- `\xff`. -/
example : IsHex 102 ∧ 128 ≤ hexValue [102, 102] := by decide

/-- `\u` and `\U` escapes are not checked: one that denotes no scalar value is accepted. -/
theorem C17_no_scalar_check (src : Src) (hz : NoNul src) (hcr : ∀ c ∈ src, c ≠ 13) (keyword : List Nat → Bool) (l : Lx)
    (d rest : List Nat) (hd : d.length = 8) (hhex : ∀ c ∈ d, IsHex c) (hv : ¬ IsScalar (hexValue d))
    (hs : src.drop l.pos = 34 :: 92 :: 85 :: (d ++ 34 :: rest)) :
    (¬ ∃ bytes, Book (92 :: 85 :: d) bytes) ∧
    ∃ l' bytes, scanToken src keyword l = some (l', .tok (.string bytes)) := by
  obtain ⟨hlt, _, hs'⟩ := drop_cons hs
  constructor
  · rintro ⟨t, ht⟩
    have hno : ∀ e v, (e, v) ∈ escapes → e ≠ 85 := by
      intro e v h; exact (show ∀ p ∈ escapes, p.1 ≠ 85 by decide) (e, v) h
    generalize hx : 92 :: 85 :: d = x at ht
    cases ht with
    | nil => cases hx
    | plain c s t hc _ => injection hx with h1 _; subst h1; simp at hc
    | escape e v s t he _ =>
      injection hx with _ h2
      injection h2 with h2 _
      exact hno e v he h2.symm
    | x => injection hx with _ h2; injection h2 with h2 _; cases h2
    | u => injection hx with _ h2; injection h2 with h2 _; cases h2
    | U d' b s t h1 h2 h3 _ =>
      injection hx with _ hx
      injection hx with _ hx
      have : d = d' := by
        have h := congrArg (List.take 8) hx
        rw [List.take_of_length_le (by omega), List.take_append_of_le_length (by omega),
          List.take_of_length_le (by omega)] at h
        exact h
      subst this
      simp [hv] at h3
  · have hput : Text put put (92 :: 85 :: d) (putUtf8 (hexValue d)) := by
      have := Text.U (byte := put) (char := put) d _ [] [] hd hhex rfl .nil
      simpa using this
    have hzb : NoNul (92 :: 85 :: d) := by
      intro c hc
      refine hz c (List.mem_of_mem_drop (i := l.pos) ?_)
      rw [hs]; revert hc; simp; rintro (h | h | h) <;> simp [h]
    have := scanString_text src (l := adv1 src (begin_ l)) (by simp [begin_]; omega) hput hzb (rest := rest)
      (by simpa [begin_] using hs')
    exact ⟨_, _, scanToken_quote src hz hcr keyword hs this⟩

/-- `\U0000d800`. -/
example : (str "0000d800").length = 8 ∧ (∀ c ∈ str "0000d800", IsHex c) ∧ ¬ IsScalar (hexValue (str "0000d800")) := by decide

/-- Above 10ffff hex, different `\U` escapes stand for the same bytes. -/
theorem C17_escapes_collide (src src' : Src) (hz : NoNul src) (hcr : ∀ c ∈ src, c ≠ 13) (hz' : NoNul src')
    (hcr' : ∀ c ∈ src', c ≠ 13) (keyword : List Nat → Bool) (l l' : Lx) (d d' rest rest' : List Nat)
    (hd : d.length = 8) (hd' : d'.length = 8) (hhex : ∀ c ∈ d, IsHex c) (hhex' : ∀ c ∈ d', IsHex c)
    (hv : 0x10000 ≤ hexValue d) (hv' : hexValue d' = hexValue d + 2 ^ 26)
    (hs : src.drop l.pos = 34 :: 92 :: 85 :: (d ++ 34 :: rest))
    (hs' : src'.drop l'.pos = 34 :: 92 :: 85 :: (d' ++ 34 :: rest')) :
    ∃ m m' bytes, scanToken src keyword l = some (m, .tok (.string bytes)) ∧
      scanToken src' keyword l' = some (m', .tok (.string bytes)) := by
  have one : ∀ {src : Src} {l : Lx} {d rest : List Nat}, NoNul src → (∀ c ∈ src, c ≠ 13) → d.length = 8 →
      (∀ c ∈ d, IsHex c) → src.drop l.pos = 34 :: 92 :: 85 :: (d ++ 34 :: rest) →
      ∃ m, scanToken src keyword l = some (m, .tok (.string (putUtf8 (hexValue d)))) := by
    intro src l d rest hz hcr hd hhex hs
    obtain ⟨hlt, _, hs'⟩ := drop_cons hs
    have hput : Text put put (92 :: 85 :: d) (putUtf8 (hexValue d)) := by
      have := Text.U (byte := put) (char := put) d _ [] [] hd hhex rfl .nil
      simpa using this
    have hzb : NoNul (92 :: 85 :: d) := by
      intro c hc
      refine hz c (List.mem_of_mem_drop (i := l.pos) ?_)
      rw [hs]; revert hc; simp; rintro (h | h | h) <;> simp [h]
    have := scanString_text src (l := adv1 src (begin_ l)) (by simp [begin_]; omega) hput hzb (rest := rest)
      (by simpa [begin_] using hs')
    exact ⟨_, scanToken_quote src hz hcr keyword hs this⟩
  obtain ⟨m, hm⟩ := one hz hcr hd hhex hs
  obtain ⟨m', hm'⟩ := one hz' hcr' hd' hhex' hs'
  have e : putUtf8 (hexValue d') = putUtf8 (hexValue d) := by
    rw [hv']
    generalize hexValue d = u at hv
    unfold putUtf8
    rw [if_neg (by omega), if_neg (by omega), if_neg (by omega), if_neg (by omega), if_neg (by omega), if_neg (by omega)]
    have e1 : (240 ||| ((u + 2 ^ 26) >>> 18)) % 256 = (240 ||| (u >>> 18)) % 256 := by
      rw [show (256 : Nat) = 2 ^ 8 by rfl, Nat.or_mod_two_pow, Nat.or_mod_two_pow]
      congr 1
      simp only [Nat.shiftRight_eq_div_pow]; omega
    rw [e1]
    simp only [and63, Nat.shiftRight_eq_div_pow]
    rw [show (u + 2 ^ 26) / 2 ^ 12 % 64 = u / 2 ^ 12 % 64 by omega, show (u + 2 ^ 26) / 2 ^ 6 % 64 = u / 2 ^ 6 % 64 by omega,
      show (u + 2 ^ 26) % 64 = u % 64 by omega]
  rw [e] at hm'
  exact ⟨m, m', _, hm, hm'⟩

/-- `"\U00110000"` and `"\U04110000"`. -/
example : hexValue [48, 48, 49, 49, 48, 48, 48, 48] = 0x110000 ∧
    hexValue [48, 52, 49, 49, 48, 48, 48, 48] = 0x110000 + 2 ^ 26 := by decide

theorem raw_unique : ∀ {body bytes : List Nat}, Raw body bytes → ∀ {s t r rest : List Nat}, Raw s t → r.head? ≠ some 96 →
    rest.head? ≠ some 96 → s ++ 96 :: r = body ++ 96 :: rest → s = body ∧ t = bytes := by
  intro body bytes h
  induction h with
  | nil =>
    intro s t r rest h hr hrest e
    cases h with
    | nil => exact ⟨rfl, rfl⟩
    | char c s t hc _ => injection e with e _; exact absurd e hc
    | pair s t _ =>
      injection e with _ e
      exact absurd (by rw [← e]; rfl) hrest
  | char c b t hc _ ih =>
    intro s t r rest h hr hrest e
    cases h with
    | nil => injection e with e _; exact absurd e.symm hc
    | char c' s t' hc' h =>
      injection e with e1 e2
      subst e1
      obtain ⟨rfl, rfl⟩ := ih h hr hrest e2
      exact ⟨rfl, rfl⟩
    | pair s t' h => injection e with e _; exact absurd e.symm hc
  | pair b t _ ih =>
    intro s t r rest h hr hrest e
    cases h with
    | nil =>
      injection e with _ e
      exact absurd (by rw [e]; rfl) hr
    | char c' s t' hc' h => injection e with e _; exact absurd e hc'
    | pair s t' h =>
      injection e with _ e
      injection e with _ e
      obtain ⟨rfl, rfl⟩ := ih h hr hrest e
      exact ⟨rfl, rfl⟩

theorem raw_open : ∀ {body bytes : List Nat}, Raw body bytes → ∀ {rest : List Nat}, rest.head? ≠ some 96 →
    ¬ Spec.RawText (body ++ 96 :: rest) := by
  intro body bytes h
  induction h with
  | nil =>
    intro rest hr h
    generalize hx : [] ++ 96 :: rest = x at h
    cases h with
    | nil => cases hx
    | char c s hc _ => injection hx with e _; exact hc e.symm
    | pair s _ => injection hx with _ e; rw [e] at hr; simp at hr
  | char c b t hc _ ih =>
    intro rest hr h
    generalize hx : (c :: b) ++ 96 :: rest = x at h
    cases h with
    | nil => cases hx
    | char c' s hc' h => injection hx with _ e; subst e; exact ih hr h
    | pair s _ => injection hx with e _; exact hc e
  | pair b t _ ih =>
    intro rest hr h
    generalize hx : (96 :: 96 :: b) ++ 96 :: rest = x at h
    cases h with
    | nil => cases hx
    | char c' s hc' h => injection hx with e _; exact hc' e.symm
    | pair s h => injection hx with _ e; injection e with _ e; subst e; exact ih hr h

/-- A raw string stands for its text, with doubled back quotes halved. -/
theorem C17_raw_string (src : Src) (hz : NoNul src) (hcr : ∀ c ∈ src, c ≠ 13) (keyword : List Nat → Bool) (l : Lx)
    (body bytes rest : List Nat) (hb : Raw body bytes) (hr : rest.head? ≠ some 96)
    (hs : src.drop l.pos = 96 :: (body ++ 96 :: rest)) :
    ∃ l', scanToken src keyword l = some (l', .tok (.string bytes)) ∧ l'.start = l.pos ∧
      l'.pos = l.pos + body.length + 2 := by
  obtain ⟨hlt, _, hs'⟩ := drop_cons hs
  rcases scanRaw_cases src hz (l := adv1 src (begin_ l)) (by simp [begin_]; omega) (by simp [begin_]) with
    ⟨s, t, r, h1, h2, h3, h4⟩ | ⟨h1, _⟩
  · have e : s ++ 96 :: r = body ++ 96 :: rest := by rw [← h1]; simpa [begin_] using hs'
    obtain ⟨rfl, rfl⟩ := raw_unique hb h2 h3 hr e
    refine ⟨advN src (adv1 src (begin_ l)) (s.length + 1), ?_, by simp [begin_], ?_⟩
    · rw [scanToken_at src hz hcr keyword hs (by simp [NoGap, str])]
      have : scanTok src keyword 96 (adv1 src (begin_ l)) = scanRaw src (adv1 src (begin_ l)) := by
        unfold scanTok
        rw [if_neg (by decide), if_neg (by decide), if_neg (by decide), if_pos (by decide)]
      rw [this, h4]; rfl
    · simp [begin_]; omega
  · refine absurd ?_ (raw_open hb hr)
    have : src.drop (adv1 src (begin_ l)).pos = body ++ 96 :: rest := by simpa [begin_] using hs'
    rwa [this] at h1

/-- The raw string between back quotes with the text "a``\n", a line break and "b": two back quotes are one, the rest is kept. -/
example : Raw [97, 96, 96, 92, 110, 10, 98] [97, 96, 92, 110, 10, 98] :=
  .char _ _ _ (by decide) (.pair _ _ (.char _ _ _ (by decide) (.char _ _ _ (by decide) (.char _ _ _ (by decide)
    (.char _ _ _ (by decide) .nil)))))

end C3.Lexer
