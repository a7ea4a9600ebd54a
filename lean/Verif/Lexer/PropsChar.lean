import Verif.Lexer.PropsText

/-! # Character literals -/

set_option autoImplicit false

namespace C3.Lexer

open Spec (IsHex hexValue hexDigit escapes str NoGap Units bigEndian)
open C3.Utf (IsScalar utf8 form8 width8)

theorem charLoop_more (src : Src) {l : Lx} {c width value : Nat} {s : List Nat} (h : src.drop l.pos = c :: s)
    (hc : c ≠ 39) (h0 : c ≠ 0) (hw : width ≤ 15) (h80 : c < 128) (h10 : c ≠ 10) (h92 : c ≠ 92) :
    charLoop src width value l = charLoop src (width + 1) (value * 256 + c) (adv1 src l) := by
  obtain ⟨hlt, hrd, hs⟩ := drop_cons h
  rw [charLoop]
  rcases accept_eq src (ch '\'') (by decide) (Nat.le_of_lt hlt) with ⟨hq, _, _⟩ | ⟨_, he⟩
  · rw [hrd] at hq; exact absurd (Option.some.inj hq) hc
  · simp only [he, Option.bind_eq_bind, Option.bind_some, peek, hrd, next_eq src (Nat.le_of_lt hlt)]
    rw [if_neg (by simp), if_neg h0, if_neg (by omega), if_neg (by omega), if_neg (show ¬ c = ch '\n' from h10),
      if_neg (show ¬ c = ch '\\' from h92)]

theorem charLoop_escape (src : Src) {l : Lx} {d width value e : Nat} {s : List Nat} (h : src.drop l.pos = 92 :: d :: s)
    (hw : width ≤ 15) (he : validEscape d = some e) :
    charLoop src width value l =
      (if e = ch 'x' then do
          let (l, r) ← hexLiteral src 0 (adv1 src (adv1 src l)) 2
          match r with
          | none => some (l, none)
          | some hex => charLoop src (width + 1) (value * 256 + hex) l
        else if e = ch 'u' || e = ch 'U' then
          if width ≠ 0 then some (adv1 src (adv1 src l), none)
          else do
            let (l, r) ← hexLiteral src 0 (adv1 src (adv1 src l)) (if e = ch 'U' then 8 else 4)
            match r with
            | none => some (begin_ l, none)
            | some hex => do
              let (l, done) ← accept src l (ch '\'')
              if done then some (l, some (.char hex (if e = ch 'U' then 4 else 2)))
              else do
                let d ← peek src l
                if d = 0 then charLoop src width value l else some (l, none)
        else charLoop src (width + 1) (value * 256 + e) (adv1 src (adv1 src l))) := by
  obtain ⟨hlt, hrd, hs⟩ := drop_cons h
  obtain ⟨hlt2, hrd2, hs2⟩ := drop_cons hs
  rw [charLoop]
  rcases accept_eq src (ch '\'') (by decide) (Nat.le_of_lt hlt) with ⟨hq, _, _⟩ | ⟨_, hacc⟩
  · rw [hrd] at hq; exact absurd (Option.some.inj hq) (by decide)
  · simp only [hacc, Option.bind_eq_bind, Option.bind_some, peek, hrd, next_eq src (Nat.le_of_lt hlt)]
    rw [if_neg (by simp), if_neg (by decide), if_neg (by omega), if_neg (by decide), if_neg (by decide), if_pos (by decide)]
    rw [show (adv1 src l).pos = l.pos + 1 by simp, hrd2, Option.bind_some, he]
    dsimp only
    rw [next_eq src (by simp; omega), Option.bind_some]
    rfl

theorem charLoop_units (src : Src) {s bs : List Nat} (h : Units s bs) : ∀ (width value : Nat) (l : Lx) (r : List Nat),
    src.drop l.pos = s ++ r → width + bs.length ≤ 16 →
    charLoop src width value l =
      charLoop src (width + bs.length) (bs.foldl (fun v b => v * 256 + b) value) (advN src l s.length) := by
  induction h with
  | nil => intro width value l r _ _; rfl
  | plain c s bs hc h128 _ ih =>
    intro width value l r h hw
    simp at hc hw
    rw [charLoop_more src (s := s ++ r) h hc.1 hc.2.2.2 (by omega) h128 hc.2.2.1 hc.2.1]
    rw [ih _ _ _ r (by simpa using (drop_cons (s := s ++ r) h).2.2) (by omega)]
    simp only [List.length_cons, List.foldl_cons, advN]
    congr 1; omega
  | escape e v s bs he _ ih =>
    intro width value l r h hw
    obtain ⟨h0, h10, h1, h2, h3, hv⟩ := escape_ne he
    simp at hw
    rw [charLoop_escape src (s := s ++ r) h (by omega) hv, if_neg (show ¬ v = ch 'x' from h1), if_neg (by
      simp only [Bool.or_eq_true, decide_eq_true_eq, not_or]; exact ⟨h2, h3⟩)]
    rw [ih _ _ _ r (by simpa using drop_append (a := [92, e]) (b := s ++ r) h) (by omega)]
    simp only [List.length_cons, List.foldl_cons, advN]
    congr 1; omega
  | x d s bs hd hhex _ ih =>
    intro width value l r h hw
    simp at hw
    have h' : src.drop l.pos = 92 :: 120 :: (d ++ (s ++ r)) := by simpa using h
    rw [charLoop_escape src h' (by omega) (by rfl : validEscape 120 = some 120), if_pos (by decide)]
    have := hexLiteral_digits src d 0 (adv1 src (adv1 src l)) (s ++ r) hhex
      (by simpa using drop_append (a := [92, 120]) h')
    rw [hd] at this
    rw [this]
    simp only [Option.bind_eq_bind, Option.bind_some]
    have hdr := drop_append (a := 92 :: 120 :: d) (b := s ++ r) h'
    simp [hd] at hdr
    have hi := ih (width + 1) (value * 256 + hexValue d) (advN src (adv1 src (adv1 src l)) 2) r (by simpa using hdr) (by omega)
    rw [show (List.foldl (fun v c => v * 16 + hexDigit c) 0 d) = hexValue d from rfl, hi]
    simp only [List.length_cons, List.length_append, hd, List.foldl_cons]
    rw [show width + (bs.length + 1) = width + 1 + bs.length by omega]
    congr 1
    rw [show adv1 src (adv1 src l) = advN src l 2 from rfl, advN_add, advN_add]
    congr 1; omega

theorem scanToken_char (src : Src) (hz : NoNul src) (hcr : ∀ c ∈ src, c ≠ 13) (keyword : List Nat → Bool) {l : Lx}
    {c : Nat} {s : List Nat} (hs : src.drop l.pos = 39 :: c :: s) (hc : c ≠ 39) :
    scanToken src keyword l = (charLoop src 0 0 (adv1 src (begin_ l))).bind fun x =>
      match x.2 with
      | none => some (x.1, .bad)
      | some t => some (x.1, .tok t) := by
  obtain ⟨hlt, _, hs'⟩ := drop_cons hs
  obtain ⟨hlt2, hrd, _⟩ := drop_cons hs'
  rw [scanToken_at src hz hcr keyword hs (by simp [NoGap, str])]
  have : scanTok src keyword 39 (adv1 src (begin_ l)) = scanChar src (adv1 src (begin_ l)) := by
    unfold scanTok
    rw [if_neg (by decide), if_neg (by decide), if_pos (by decide)]
  rw [this]
  unfold scanChar
  rcases accept_eq src (l := adv1 src (begin_ l)) (ch '\'') (by decide) (by simp [begin_]; omega) with ⟨hq, _, _⟩ | ⟨_, he⟩
  · simp only [adv1_pos, begin_] at hq
    rw [hrd] at hq; exact absurd (Option.some.inj hq) hc
  · simp only [he, Option.bind_eq_bind, Option.bind_some]
    rw [if_neg (by simp)]
    rfl

theorem units_first {s bs : List Nat} (h : Units s bs) (hne : bs ≠ []) : ∃ c r, s = c :: r ∧ c ≠ 39 := by
  cases h with
  | nil => exact absurd rfl hne
  | plain c s bs hc => simp at hc; exact ⟨c, s, rfl, hc.1⟩
  | escape e v s bs => exact ⟨92, _, rfl, by decide⟩
  | x d s bs => exact ⟨92, _, rfl, by decide⟩

/-- A character literal of 1 to 16 ASCII characters and escapes is the number with these bytes, the first one being the
most significant. -/
theorem C44_bytes (src : Src) (hz : NoNul src) (hcr : ∀ c ∈ src, c ≠ 13) (keyword : List Nat → Bool) (l : Lx)
    (s bs rest : List Nat) (h : Units s bs) (h1 : 1 ≤ bs.length) (h16 : bs.length ≤ 16)
    (hs : src.drop l.pos = 39 :: (s ++ 39 :: rest)) :
    ∃ l', scanToken src keyword l = some (l', .tok (.char (bigEndian bs) bs.length)) ∧ l'.start = l.pos ∧
      l'.pos = l.pos + s.length + 2 := by
  obtain ⟨hlt, _, hs'⟩ := drop_cons hs
  obtain ⟨c, r, rfl, hc⟩ := units_first h (by intro e; simp [e] at h1)
  refine ⟨advN src (adv1 src (begin_ l)) ((c :: r).length + 1), ?_, by simp [begin_], by simp [begin_]; omega⟩
  rw [scanToken_char src hz hcr keyword (s := r ++ 39 :: rest) hs hc]
  have hd : src.drop (adv1 src (begin_ l)).pos = (c :: r) ++ 39 :: rest := by simpa [begin_] using hs'
  rw [charLoop_units src h 0 0 _ _ hd (by omega)]
  obtain ⟨hlt2, hq, _⟩ := drop_cons (drop_append hd)
  rw [charLoop]
  rcases accept_eq src (l := advN src (adv1 src (begin_ l)) (c :: r).length) (ch '\'') (by decide)
    (by rw [advN_pos]; exact Nat.le_of_lt hlt2) with ⟨_, _, he⟩ | ⟨hn, _⟩
  · simp only [he, Option.bind_eq_bind, Option.bind_some, if_true]
    rw [if_pos (by simp; omega), advN_adv1, Nat.zero_add]
    rfl
  · exact absurd (by rw [advN_pos]; exact hq) hn

/-- `'\x01b\n'` is 0x01620a. -/
example : Units [92, 120, 48, 49, 98, 92, 110] [1, 98, 10] ∧ bigEndian [1, 98, 10] = 0x01620a := by
  refine ⟨.x [48, 49] _ _ rfl (by simp [IsHex]) (.plain 98 _ _ (by decide) (by decide) (.escape 110 10 _ _ (by decide) .nil)),
    by decide⟩

/-- Seventeen of them are rejected. -/
theorem C44_too_long (src : Src) (hz : NoNul src) (hcr : ∀ c ∈ src, c ≠ 13) (keyword : List Nat → Bool) (l : Lx)
    (s bs rest : List Nat) (c : Nat) (h : Units s bs) (h16 : bs.length = 16) (hc : c ≠ 39) (h0 : c ≠ 0)
    (hs : src.drop l.pos = 39 :: (s ++ c :: rest)) :
    ∃ l', scanToken src keyword l = some (l', .bad) := by
  obtain ⟨hlt, _, hs'⟩ := drop_cons hs
  obtain ⟨c', r, rfl, hc'⟩ := units_first h (by intro e; simp [e] at h16)
  refine ⟨advN src (adv1 src (begin_ l)) ((c' :: r).length + 1), ?_⟩
  rw [scanToken_char src hz hcr keyword (s := r ++ c :: rest) hs hc']
  have hd : src.drop (adv1 src (begin_ l)).pos = (c' :: r) ++ c :: rest := by simpa [begin_] using hs'
  rw [charLoop_units src h 0 0 _ _ hd (by omega)]
  obtain ⟨hlt2, hq, _⟩ := drop_cons (drop_append hd)
  rw [charLoop]
  have hp : (advN src (adv1 src (begin_ l)) (c' :: r).length).pos ≤ src.length := by
    rw [advN_pos]; exact Nat.le_of_lt hlt2
  rcases accept_eq src (ch '\'') (by decide) hp with ⟨hn, _, _⟩ | ⟨_, he⟩
  · rw [advN_pos, hq] at hn; exact absurd (Option.some.inj hn) hc
  · simp only [he, Option.bind_eq_bind, Option.bind_some, peek]
    rw [advN_pos, hq, next_eq src hp]
    simp only [Option.bind_some]
    rw [if_neg (by simp), if_neg h0, if_pos (by omega), advN_adv1]
    rfl

/-- `'\uhhhh'` has the value of its digits and two bytes, `'\Uhhhhhhhh'` four. -/
theorem C44_unicode_escape (src : Src) (hz : NoNul src) (hcr : ∀ c ∈ src, c ≠ 13) (keyword : List Nat → Bool) (l : Lx)
    (u : Nat) (d rest : List Nat) (hu : (u = 117 ∧ d.length = 4) ∨ (u = 85 ∧ d.length = 8)) (hd : ∀ c ∈ d, IsHex c)
    (hs : src.drop l.pos = 39 :: 92 :: u :: (d ++ 39 :: rest)) :
    ∃ l', scanToken src keyword l = some (l', .tok (.char (hexValue d) (d.length / 2))) ∧ l'.start = l.pos ∧
      l'.pos = l.pos + d.length + 4 := by
  obtain ⟨hlt, _, hs'⟩ := drop_cons hs
  refine ⟨advN src (adv1 src (begin_ l)) (d.length + 3), ?_, by simp [begin_], by simp [begin_]; omega⟩
  rw [scanToken_char src hz hcr keyword hs (by decide)]
  have h1 : src.drop (adv1 src (begin_ l)).pos = 92 :: u :: (d ++ 39 :: rest) := by simpa [begin_] using hs'
  have hv : validEscape u = some u := by rcases hu with ⟨rfl, _⟩ | ⟨rfl, _⟩ <;> rfl
  rw [charLoop_escape src h1 (by omega) hv, if_neg (show ¬ u = ch 'x' by
    rcases hu with ⟨rfl, _⟩ | ⟨rfl, _⟩ <;> decide), if_pos (by rcases hu with ⟨rfl, _⟩ | ⟨rfl, _⟩ <;> decide),
    if_neg (by simp)]
  have hdr : src.drop (adv1 src (adv1 src (adv1 src (begin_ l)))).pos = d ++ 39 :: rest := by
    simpa using drop_append (a := [92, u]) (b := d ++ 39 :: rest) h1
  have hh := hexLiteral_digits src d 0 _ (39 :: rest) hd hdr
  rw [show (if u = ch 'U' then 8 else 4) = d.length by
    rcases hu with ⟨rfl, h⟩ | ⟨rfl, h⟩ <;> simp [ch, h], hh]
  simp only [Option.bind_eq_bind, Option.bind_some]
  obtain ⟨hlt2, hq, _⟩ := drop_cons (drop_append hdr)
  rcases accept_eq src (l := advN src (adv1 src (adv1 src (adv1 src (begin_ l)))) d.length) (ch '\'') (by decide)
    (by rw [advN_pos]; exact Nat.le_of_lt hlt2) with ⟨_, _, he⟩ | ⟨hn, _⟩
  · simp only [he, Option.bind_some, if_true]
    rw [show (if u = ch 'U' then 4 else 2) = d.length / 2 by
      rcases hu with ⟨rfl, h⟩ | ⟨rfl, h⟩ <;> simp [ch, h], advN_adv1]
    rw [show adv1 src (adv1 src (adv1 src (begin_ l))) = advN src (adv1 src (begin_ l)) 2 from rfl, advN_add]
    rw [show 2 + (d.length + 1) = d.length + 3 by omega]
    rfl
  · exact absurd (by rw [advN_pos]; exact hq) hn

/-- The continuation bytes of a character. -/
theorem utf8Rest_bytes (src : Src) (ds : List Nat) : ∀ (u : Nat) (l : Lx) (s : List Nat), (∀ d ∈ ds, d < 64) →
    src.drop l.pos = ds.map (0x80 + ·) ++ s →
    utf8Rest src u l ds.length = some (advN src l ds.length, some (ds.foldl (fun v d => v * 64 + d) u)) := by
  induction ds with
  | nil => intro u l s _ _; rfl
  | cons d ds ih =>
    intro u l s hds h
    obtain ⟨hlt, hc, hs⟩ := drop_cons (s := ds.map (0x80 + ·) ++ s) h
    have hd := hds d (by simp)
    simp only [List.length_cons, utf8Rest, peek, hc, Option.bind_eq_bind, Option.bind_some, next_eq src (Nat.le_of_lt hlt)]
    have h192 : (0x80 + d) &&& 0xc0 = 0x80 := by
      have : ∀ d < 64, (0x80 + d) &&& 0xc0 = 0x80 := by decide
      exact this d hd
    have h63 : (0x80 + d) &&& 0x3f = d := by
      rw [and63]; omega
    rw [if_neg (by omega), if_neg (by simp [h192]), h63]
    exact ih _ _ s (fun x hx => hds x (by simp [hx])) (by simpa using hs)

/-- A character literal with a lead byte and continuation bytes. -/
theorem char_utf8 (src : Src) (hz : NoNul src) (hcr : ∀ c ∈ src, c ≠ 13) (keyword : List Nat → Bool) (l : Lx)
    (c u : Nat) (ds rest : List Nat) (h80 : 0x80 ≤ c) (hds : ∀ d ∈ ds, d < 64)
    (hu : ∀ l, scanUtf8 src c l = utf8Rest src u l ds.length)
    (hs : src.drop l.pos = 39 :: c :: (ds.map (0x80 + ·) ++ 39 :: rest)) :
    scanToken src keyword l = some (advN src (begin_ l) (ds.length + 3),
      .tok (.char (ds.foldl (fun v d => v * 64 + d) u) (if ds.foldl (fun v d => v * 64 + d) u > 0xffff then 4 else 2))) := by
  obtain ⟨hlt, _, hs'⟩ := drop_cons hs
  obtain ⟨hlt2, hrd, hs2⟩ := drop_cons hs'
  rw [scanToken_char src hz hcr keyword hs (by omega)]
  have hp : (adv1 src (begin_ l)).pos ≤ src.length := by simp [begin_]; omega
  have hrd1 : rd src (adv1 src (begin_ l)).pos = some c := by simpa [begin_] using hrd
  rw [charLoop]
  rcases accept_eq src (ch '\'') (by decide) hp with ⟨hq, _, _⟩ | ⟨_, he⟩
  · rw [hrd1] at hq; have : c = 39 := Option.some.inj hq; omega
  · simp only [he, Option.bind_eq_bind, Option.bind_some, peek, hrd1, next_eq src hp]
    rw [if_neg (by simp), if_neg (by omega), if_neg (by omega), if_pos h80, if_neg (by simp), hu]
    have hd : src.drop (adv1 src (adv1 src (begin_ l))).pos = ds.map (0x80 + ·) ++ 39 :: rest := by
      simpa [begin_] using hs2
    rw [utf8Rest_bytes src ds u _ _ hds hd]
    simp only [Option.bind_some]
    obtain ⟨hlt3, hq3, _⟩ := drop_cons (drop_append hd)
    simp only [List.length_map] at hlt3 hq3
    rcases accept_eq src (l := advN src (adv1 src (adv1 src (begin_ l))) ds.length) (ch '\'') (by decide)
      (by rw [advN_pos]; exact Nat.le_of_lt hlt3) with ⟨_, _, he⟩ | ⟨hn, _⟩
    · simp only [he, Option.bind_some, if_true]
      rw [advN_adv1, show adv1 src (adv1 src (begin_ l)) = advN src (begin_ l) 2 from rfl, advN_add,
        show 2 + (ds.length + 1) = ds.length + 3 by omega]
    · exact absurd (by rw [advN_pos]; exact hq3) hn

/-- A character outside ASCII, in UTF-8, has its code point as its value: two bytes up to ffff hex, four above. -/
theorem C44_utf8 (src : Src) (hz : NoNul src) (hcr : ∀ c ∈ src, c ≠ 13) (keyword : List Nat → Bool) (l : Lx)
    (n : Nat) (rest : List Nat) (hn : IsScalar n) (h80 : 0x80 ≤ n) (hs : src.drop l.pos = 39 :: (utf8 n ++ 39 :: rest)) :
    ∃ l', scanToken src keyword l = some (l', .tok (.char n (if n > 0xffff then 4 else 2))) ∧ l'.start = l.pos ∧
      l'.pos = l.pos + (utf8 n).length + 2 := by
  have hlt : n < 0x110000 := by unfold IsScalar at hn; omega
  by_cases h1 : n < 0x800
  · have hu : utf8 n = form8 2 n := by unfold utf8 width8; rw [if_neg (by omega), if_pos h1]
    rw [hu] at hs ⊢
    refine ⟨advN src (begin_ l) 4, ?_, by simp [begin_], ?_⟩
    · have := char_utf8 src hz hcr keyword l (0xC0 + n / 64) (n / 64) [n % 64] rest (by omega)
        (by simp; omega) (fun l => by
          unfold scanUtf8
          rw [if_neg (by omega), if_pos (by omega)]
          congr 1
          rw [show 0x1f = 2 ^ 5 - 1 by rfl, Nat.and_two_pow_sub_one_eq_mod]; omega)
        (by simpa [form8] using hs)
      have e : [n % 64].foldl (fun v d => v * 64 + d) (n / 64) = n := by simp; omega
      rw [e] at this
      exact this
    · simp [begin_, form8]
  · by_cases h2 : n < 0x10000
    · have hu : utf8 n = form8 3 n := by unfold utf8 width8; rw [if_neg (by omega), if_neg h1, if_pos h2]
      rw [hu] at hs ⊢
      refine ⟨advN src (begin_ l) 5, ?_, by simp [begin_], ?_⟩
      · have := char_utf8 src hz hcr keyword l (0xE0 + n / 4096) (n / 4096) [n / 64 % 64, n % 64] rest (by omega)
          (by simp; omega) (fun l => by
            unfold scanUtf8
            rw [if_neg (by omega), if_neg (by omega), if_pos (by omega)]
            congr 1
            rw [show 0xf = 2 ^ 4 - 1 by rfl, Nat.and_two_pow_sub_one_eq_mod]; omega)
          (by simpa [form8] using hs)
        have e : [n / 64 % 64, n % 64].foldl (fun v d => v * 64 + d) (n / 4096) = n := by simp; omega
        rw [e] at this
        exact this
      · simp [begin_, form8]
    · have hu : utf8 n = form8 4 n := by unfold utf8 width8; rw [if_neg (by omega), if_neg h1, if_neg h2]
      rw [hu] at hs ⊢
      refine ⟨advN src (begin_ l) 6, ?_, by simp [begin_], ?_⟩
      · have := char_utf8 src hz hcr keyword l (0xF0 + n / 262144) (n / 262144) [n / 4096 % 64, n / 64 % 64, n % 64] rest
          (by omega) (by simp; omega) (fun l => by
            unfold scanUtf8
            rw [if_neg (by omega), if_neg (by omega), if_neg (by omega), if_pos (by omega)]
            congr 1
            rw [show 7 = 2 ^ 3 - 1 by rfl, Nat.and_two_pow_sub_one_eq_mod]; omega)
          (by simpa [form8] using hs)
        have e : [n / 4096 % 64, n / 64 % 64, n % 64].foldl (fun v d => v * 64 + d) (n / 262144) = n := by simp; omega
        rw [e] at this
        exact this
      · simp [begin_, form8]

/-- `'é'`. -/
example : IsScalar 0xE9 ∧ 0x80 ≤ 0xE9 ∧ utf8 0xE9 = [0xC3, 0xA9] := by decide

/-- The bytes are not checked for the shortest form: those of an overlong form of an ASCII character are accepted, and the
literal gets two bytes instead of one. -/
theorem C44_overlong (src : Src) (hz : NoNul src) (hcr : ∀ c ∈ src, c ≠ 13) (keyword : List Nat → Bool) (l : Lx)
    (n : Nat) (rest : List Nat) (hn : n < 0x80) (hs : src.drop l.pos = 39 :: (form8 2 n ++ 39 :: rest)) :
    form8 2 n ≠ utf8 n ∧ ∃ l', scanToken src keyword l = some (l', .tok (.char n 2)) := by
  constructor
  · intro e
    have := congrArg List.length e
    unfold utf8 width8 at this
    rw [if_pos hn] at this
    simp [form8] at this
  · have := char_utf8 src hz hcr keyword l (0xC0 + n / 64) (n / 64) [n % 64] rest (by omega)
      (by simp; omega) (fun l => by
        unfold scanUtf8
        rw [if_neg (by omega), if_pos (by omega)]
        congr 1
        rw [show 0x1f = 2 ^ 5 - 1 by rfl, Nat.and_two_pow_sub_one_eq_mod]; omega)
      (by simpa [form8] using hs)
    have e : [n % 64].foldl (fun v d => v * 64 + d) (n / 64) = n := by simp; omega
    rw [e, if_neg (by omega)] at this
    exact ⟨_, this⟩

end C3.Lexer
