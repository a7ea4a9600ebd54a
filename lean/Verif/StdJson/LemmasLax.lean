import Verif.StdJson.SpecLax
import Verif.StdJson.LemmasTotal

/-! What the parser accepts is a text of the wider grammar. -/

set_option autoImplicit false

namespace C3.StdJson
open C3.Utf (Byte Char32 nums utf8)

variable {D : Type} {td : List Byte → Option D}

theorem read_ne (l : List Byte) (h : (read_next l).1 ≠ 0) : l = (read_next l).1 :: (read_next l).2 := by
  cases l with
  | nil => exact absurd rfl h
  | cons c r =>
    by_cases hc : c = 0
    · subst hc; exact absurd rfl h
    · rw [read_cons r hc]

theorem or_e : ∀ c : Byte, c ||| 32 = 0x65 → c = 0x65 ∨ c = 0x45 := by decide +kernel

theorem skipped_lax : ∀ c : Byte, skipped c = true → c = 0x20 ∨ c = 9 ∨ c = 10 ∨ c = 13 ∨ c = 11 ∨ c = 0x2f := by
  decide +kernel

theorem xdigit_val : ∀ c : Byte, isXDigit c = true → (hexVal c).isSome = true ∧ c ≠ 0 := by decide +kernel

theorem lexHex_inv {i : Nat} {val : Char32} {l : List Byte} {p : Char32 × List Byte} (h : lexHex (i + 1) val l = .ok p) :
    ∃ c v l1, hexVal c = some v ∧ l = c :: l1 ∧ lexHex i (addDigit val c) l1 = .ok p := by
  simp only [lexHex] at h
  by_cases hx : (!isXDigit (read_next l).1) = true
  · rw [if_pos hx] at h; simp at h
  · rw [if_neg hx] at h
    have hx : isXDigit (read_next l).1 = true := by simpa using hx
    obtain ⟨h1, h2⟩ := xdigit_val _ hx
    obtain ⟨v, hv⟩ := Option.isSome_iff_exists.1 h1
    exact ⟨_, v, _, hv, read_ne l h2, h⟩

theorem escaped_mem : ∀ c : Byte, (escaped c).all (fun d => decide ((c, d) ∈ escapes)) = true := by decide +kernel

theorem lexString_lax (n : Nat) (l s : List Byte) {s' l' : List Byte} (h : lexStringLoop n l s = .ok (s', l')) :
    ∃ t s1, l = t ++ 0x22 :: l' ∧ LaxStr t s1 ∧ s' = s ++ s1 := by
  induction n generalizing l s with
  | zero => simp [lexStringLoop] at h
  | succ n ih =>
    simp only [lexStringLoop] at h
    by_cases g0 : (read_next l).1 = 0
    · rw [if_pos g0] at h; simp at h
    rw [if_neg g0] at h
    have el := read_ne l g0
    generalize (read_next l).1 = c at *
    generalize (read_next l).2 = r at *
    subst el
    by_cases g1 : c.toNat ≤ 31
    · rw [if_pos g1] at h; simp at h
    rw [if_neg g1] at h
    by_cases g2 : c = 0x22
    · rw [if_pos g2] at h
      simp only [Except.ok.injEq, Prod.mk.injEq] at h
      exact ⟨[], [], by rw [g2, h.2]; rfl, .nil, by rw [h.1]; simp⟩
    rw [if_neg g2] at h
    by_cases g3 : c ≠ 0x5c
    · rw [if_pos g3] at h
      obtain ⟨t, s1, e1, e2, e3⟩ := ih _ _ h
      exact ⟨c :: t, c :: s1, by rw [e1]; rfl, .raw c t s1 (by omega) g2 g3 e2, by rw [e3]; simp⟩
    rw [if_neg g3] at h
    have g3 : c = 0x5c := Decidable.not_not.1 g3
    subst g3
    by_cases k0 : (read_next r).1 = 0
    · rw [if_pos k0] at h; simp at h
    rw [if_neg k0] at h
    have el := read_ne r k0
    generalize (read_next r).1 = c at *
    generalize (read_next r).2 = q at *
    subst el
    by_cases k1 : c.toNat ≤ 31
    · rw [if_pos k1] at h; simp at h
    rw [if_neg k1] at h
    by_cases k2 : c = 0x75
    · rw [if_pos k2] at h
      subst k2
      split at h
      · simp at h
      · rename_i val l4 hx
        obtain ⟨h1, v1, l1, a1, rfl, hx1⟩ := lexHex_inv hx
        obtain ⟨h2, v2, l2, a2, rfl, hx2⟩ := lexHex_inv hx1
        obtain ⟨h3, v3, l3, a3, rfl, hx3⟩ := lexHex_inv hx2
        obtain ⟨h4, v4, l5, a4, rfl, hx4⟩ := lexHex_inv hx3
        obtain ⟨val', hv', hval⟩ := lexHex_four l5 a1 a2 a3 a4
        rw [hx] at hv'
        simp only [Except.ok.injEq, Prod.mk.injEq] at hv'
        obtain ⟨rfl, rfl⟩ := hv'
        obtain ⟨t, s1, e1, e2, e3⟩ := ih _ _ h
        have b1 := (hexDigit_val a1).2.2.2
        have b2 := (hexDigit_val a2).2.2.2
        have b3 := (hexDigit_val a3).2.2.2
        have b4 := (hexDigit_val a4).2.2.2
        refine ⟨_, _, ?_, .uni h1 h2 h3 h4 v1 v2 v3 v4 (append_char32 val) t s1 a1 a2 a3 a4 ?_ e2, ?_⟩
        · rw [e1]; rfl
        · rw [append_char32_enc, Utf.enc_utf8 val (by omega), hval]
        · rw [e3]; simp
    rw [if_neg k2] at h
    split at h
    · simp at h
    · rename_i d hd
      have hm := escaped_mem c
      rw [hd] at hm
      simp only [Option.all_some, decide_eq_true_eq] at hm
      obtain ⟨t, s1, e1, e2, e3⟩ := ih _ _ h
      exact ⟨_, _, by rw [e1]; rfl, .esc c d t s1 hm e2, by rw [e3]; simp⟩

theorem takeWhile_dig (l : List Byte) : ∀ c ∈ l.takeWhile isDigit, Dig c := by
  intro c hc
  have := List.all_takeWhile (p := isDigit) (l := l)
  exact (isDigit_iff c).1 (List.all_eq_true.1 this c hc)

theorem numExp_lax {l t l' : List Byte} (h : numExp l = .ok (t, l')) : l = t ++ l' ∧
    (t = [] ∨ ∃ e s ds, (e = 0x65 ∨ e = 0x45) ∧ (s = [] ∨ s = [0x2b] ∨ s = [0x2d]) ∧ Digits ds ∧ t = e :: (s ++ ds)) := by
  cases l with
  | nil =>
    simp only [numExp, Except.ok.injEq, Prod.mk.injEq] at h
    obtain ⟨rfl, rfl⟩ := h
    exact ⟨rfl, .inl rfl⟩
  | cons c l =>
    simp only [numExp] at h
    by_cases h1 : c ||| 32 = 0x65
    · rw [if_pos h1] at h
      have hc : c = 0x65 ∨ c = 0x45 := or_e c h1
      generalize hp : (if l.head? = some 0x2d ∨ l.head? = some 0x2b then (l.take 1, l.tail) else ([], l)) = p at h
      have hpl : l = p.1 ++ p.2 ∧ (p.1 = [] ∨ p.1 = [0x2b] ∨ p.1 = [0x2d]) := by
        rw [← hp]
        split
        · rename_i hh
          cases l with
          | nil => simp at hh
          | cons d l =>
            simp only [List.head?_cons, Option.some.injEq] at hh
            refine ⟨rfl, ?_⟩
            rcases hh with rfl | rfl
            · exact .inr (.inr rfl)
            · exact .inr (.inl rfl)
        · exact ⟨rfl, .inl rfl⟩
      by_cases h2 : (p.2.takeWhile isDigit).isEmpty = true
      · rw [if_pos h2] at h; simp at h
      · rw [if_neg h2] at h
        simp only [Except.ok.injEq, Prod.mk.injEq] at h
        obtain ⟨rfl, rfl⟩ := h
        refine ⟨?_, .inr ⟨c, p.1, p.2.takeWhile isDigit, hc, hpl.2, ⟨by simpa using h2, takeWhile_dig _⟩, rfl⟩⟩
        rw [List.append_assoc, List.takeWhile_append_dropWhile, List.cons_append, ← hpl.1]
    · rw [if_neg h1] at h
      simp only [Except.ok.injEq, Prod.mk.injEq] at h
      obtain ⟨rfl, rfl⟩ := h
      exact ⟨rfl, .inl rfl⟩

theorem numFrac_lax (l : List Byte) : l = (numFrac l).1 ++ (numFrac l).2 ∧
    ((numFrac l).1 = [] ∨ ∃ ds, (∀ c ∈ ds, Dig c) ∧ (numFrac l).1 = 0x2e :: ds) := by
  by_cases h : l.head? = some 0x2e
  · have e : numFrac l = (0x2e :: l.tail.takeWhile isDigit, l.tail.dropWhile isDigit) := if_pos h
    rw [e]
    refine ⟨?_, .inr ⟨_, takeWhile_dig _, rfl⟩⟩
    cases l with
    | nil => simp at h
    | cons c l =>
      simp only [List.head?_cons, Option.some.injEq] at h
      rw [h, List.cons_append, List.takeWhile_append_dropWhile]; rfl
  · have e : numFrac l = ([], l) := if_neg h
    rw [e]; exact ⟨rfl, .inl rfl⟩

theorem lex_number_lax {c : Byte} {r l' : List Byte} {d : D} (hc : c = 0x2d ∨ isDigit c = true)
    (h : lex_number td (c :: r) = .ok (d, l')) : ∃ t q, c :: r = t ++ q ∧ LaxNum t ∧ td t = some d ∧ l' = cut q := by
  have hsg : c :: r = (numSign (c :: r)).1 ++ (numSign (c :: r)).2 ∧
      ((numSign (c :: r)).1 = [] ∨ (numSign (c :: r)).1 = [0x2d]) ∧
      ((numSign (c :: r)).1 = [] → (numSign (c :: r)).2.takeWhile isDigit ≠ []) := by
    by_cases h1 : c = 0x2d
    · have e : numSign (c :: r) = ([0x2d], r) := if_pos (by simp [h1])
      rw [e]; exact ⟨by rw [h1]; rfl, .inr rfl, by simp⟩
    · have hd : isDigit c = true := by rcases hc with h | h <;> [exact absurd h h1; exact h]
      have e : numSign (c :: r) = ([], c :: r) := if_neg (by simpa using h1)
      rw [e]; exact ⟨rfl, .inl rfl, by simp [hd]⟩
  unfold lex_number at h
  simp only at h
  generalize numSign (c :: r) = p1 at *
  obtain ⟨f1, f2⟩ := numFrac_lax (p1.2.dropWhile isDigit)
  generalize numFrac (p1.2.dropWhile isDigit) = p3 at *
  split at h
  · simp at h
  · rename_i t4 l4 hx
    obtain ⟨x1, x2⟩ := numExp_lax hx
    split at h
    · simp at h
    · rename_i d' hd
      simp only [Except.ok.injEq, Prod.mk.injEq] at h
      refine ⟨p1.1 ++ p1.2.takeWhile isDigit ++ p3.1 ++ t4, l4, ?_, .mk _ _ _ _ hsg.2.1 (takeWhile_dig _) hsg.2.2 f2 x2,
        by rw [hd, h.1], h.2.symm⟩
      rw [hsg.1]
      conv_lhs => rw [← List.takeWhile_append_dropWhile (p := isDigit) (l := p1.2), f1, x1]
      simp

theorem matchText_lax {str l l' : List Byte} (hs : ∀ c ∈ str, c ≠ 0) (h : matchText str l = .ok l') : l = str ++ l' := by
  induction str generalizing l with
  | nil => simpa [matchText] using h
  | cons c str ih =>
    simp only [matchText] at h
    by_cases g : (read_next l).1 ≠ c
    · rw [if_pos g] at h; simp at h
    · rw [if_neg g] at h
      have g : (read_next l).1 = c := Decidable.not_not.1 g
      have := read_ne l (by rw [g]; exact hs c (by simp))
      rw [this, g, ih (fun d hd => hs d (by simp [hd])) h]; rfl

theorem skip_lax (l : List Byte) : ∃ w, LaxWs w ∧ l = w ++ skip l := by
  induction l with
  | nil => exact ⟨[], by intro c hc; simp at hc, rfl⟩
  | cons c r ih =>
    by_cases h : skipped c = true
    · obtain ⟨w, h1, h2⟩ := ih
      refine ⟨c :: w, ?_, ?_⟩
      · intro d hd
        rcases List.mem_cons.1 hd with rfl | hd
        · exact skipped_lax d h
        · exact h1 d hd
      · simp only [skip, h, if_true, List.cons_append, ← h2]
    · exact ⟨[], by intro c hc; simp at hc, by simp [skip, h]⟩

/-- The texts of tokens. -/
inductive TokText (td : List Byte → Option D) : Tok D → List Byte → Prop where
  | lbrace : TokText td .lbrace [0x7b]
  | rbrace : TokText td .rbrace [0x7d]
  | lbracket : TokText td .lbracket [0x5b]
  | rbracket : TokText td .rbracket [0x5d]
  | colon : TokText td .colon [0x3a]
  | comma : TokText td .comma [0x2c]
  | string (t s : List Byte) : LaxStr t s → TokText td (.string s) (0x22 :: t ++ [0x22])
  | number (t : List Byte) (d : D) : LaxNum t → td t = some d → TokText td (.number d) t
  | true : TokText td .true [0x74, 0x72, 0x75, 0x65]
  | false : TokText td .false [0x66, 0x61, 0x6c, 0x73, 0x65]
  | null : TokText td .null [0x6e, 0x75, 0x6c, 0x6c]

theorem cut_or (l : List Byte) : cut l = l ∨ cut l = [] := by
  cases l with
  | nil => exact .inl rfl
  | cons c r => simp only [cut]; split <;> [exact .inr rfl; exact .inl rfl]

theorem advance_lax {l l' : List Byte} {tok : Tok D} (h : advance td l = .ok (tok, l')) :
    ∃ w t r, l = w ++ t ++ r ∧ LaxWs w ∧ TokText td tok t ∧ (l' = r ∨ l' = []) := by
  obtain ⟨w, hw, e⟩ := skip_lax l
  suffices hs : ∃ t r, skip l = t ++ r ∧ TokText td tok t ∧ (l' = r ∨ l' = []) by
    obtain ⟨t, r, a, b, c⟩ := hs
    exact ⟨w, t, r, by rw [List.append_assoc, ← a]; exact e, hw, b, c⟩
  clear e
  unfold advance at h
  generalize skip l = m at *
  cases m with
  | nil => simp at h
  | cons c r =>
    simp only at h
    by_cases g : c = 0
    · rw [if_pos g] at h; simp at h
    rw [if_neg g] at h; clear g
    by_cases g : c = 0x7b
    · rw [if_pos g] at h
      simp only [Except.ok.injEq, Prod.mk.injEq] at h
      obtain ⟨rfl, rfl⟩ := h
      exact ⟨[0x7b], r, by rw [g]; rfl, .lbrace, .inl rfl⟩
    rw [if_neg g] at h; clear g
    by_cases g : c = 0x7d
    · rw [if_pos g] at h
      simp only [Except.ok.injEq, Prod.mk.injEq] at h
      obtain ⟨rfl, rfl⟩ := h
      exact ⟨[0x7d], r, by rw [g]; rfl, .rbrace, .inl rfl⟩
    rw [if_neg g] at h; clear g
    by_cases g : c = 0x5b
    · rw [if_pos g] at h
      simp only [Except.ok.injEq, Prod.mk.injEq] at h
      obtain ⟨rfl, rfl⟩ := h
      exact ⟨[0x5b], r, by rw [g]; rfl, .lbracket, .inl rfl⟩
    rw [if_neg g] at h; clear g
    by_cases g : c = 0x5d
    · rw [if_pos g] at h
      simp only [Except.ok.injEq, Prod.mk.injEq] at h
      obtain ⟨rfl, rfl⟩ := h
      exact ⟨[0x5d], r, by rw [g]; rfl, .rbracket, .inl rfl⟩
    rw [if_neg g] at h; clear g
    by_cases g : c = 0x3a
    · rw [if_pos g] at h
      simp only [Except.ok.injEq, Prod.mk.injEq] at h
      obtain ⟨rfl, rfl⟩ := h
      exact ⟨[0x3a], r, by rw [g]; rfl, .colon, .inl rfl⟩
    rw [if_neg g] at h; clear g
    by_cases g : c = 0x2c
    · rw [if_pos g] at h
      simp only [Except.ok.injEq, Prod.mk.injEq] at h
      obtain ⟨rfl, rfl⟩ := h
      exact ⟨[0x2c], r, by rw [g]; rfl, .comma, .inl rfl⟩
    rw [if_neg g] at h; clear g
    by_cases g : c = 0x22
    · rw [if_pos g] at h
      split at h
      · simp at h
      · rename_i s r' hx
        simp only [Except.ok.injEq, Prod.mk.injEq] at h
        obtain ⟨rfl, rfl⟩ := h
        obtain ⟨t, s1, e1, e2, e3⟩ := lexString_lax _ _ _ hx
        rw [List.nil_append] at e3; subst e3
        exact ⟨_, _, by rw [g, e1]; simp, .string t s e2, .inl rfl⟩
    rw [if_neg g] at h; clear g
    by_cases g : c = 0x2d ∨ isDigit c = true
    · rw [if_pos g] at h
      split at h
      · simp at h
      · rename_i d r' hx
        simp only [Except.ok.injEq, Prod.mk.injEq] at h
        obtain ⟨rfl, rfl⟩ := h
        obtain ⟨t, q, e1, e2, e3, e4⟩ := lex_number_lax g hx
        refine ⟨t, q, e1, .number t d e2 e3, ?_⟩
        rw [e4]; exact cut_or q
    rw [if_neg g] at h; clear g
    by_cases g : c = 0x74
    · rw [if_pos g] at h
      split at h
      · simp at h
      · rename_i r' hx
        simp only [Except.ok.injEq, Prod.mk.injEq] at h
        obtain ⟨rfl, rfl⟩ := h
        exact ⟨_, r', by rw [g, matchText_lax (by decide) hx]; rfl, .true, .inl rfl⟩
    rw [if_neg g] at h; clear g
    by_cases g : c = 0x66
    · rw [if_pos g] at h
      split at h
      · simp at h
      · rename_i r' hx
        simp only [Except.ok.injEq, Prod.mk.injEq] at h
        obtain ⟨rfl, rfl⟩ := h
        exact ⟨_, r', by rw [g, matchText_lax (by decide) hx]; rfl, .false, .inl rfl⟩
    rw [if_neg g] at h; clear g
    by_cases g : c = 0x6e
    · rw [if_pos g] at h
      split at h
      · simp at h
      · rename_i r' hx
        simp only [Except.ok.injEq, Prod.mk.injEq] at h
        obtain ⟨rfl, rfl⟩ := h
        exact ⟨_, r', by rw [g, matchText_lax (by decide) hx]; rfl, .null, .inl rfl⟩
    rw [if_neg g] at h; clear g
    simp at h

theorem advance_nil : advance td [] = .error .EOF := rfl

theorem advance_lax' {l l' : List Byte} {tok : Tok D} (h : advance td l = .ok (tok, l')) (hl : l' ≠ []) :
    ∃ w t, l = w ++ t ++ l' ∧ LaxWs w ∧ TokText td tok t := by
  obtain ⟨w, t, r, a, b, c, d⟩ := advance_lax h
  rcases d with rfl | d
  · exact ⟨w, t, a, b, c⟩
  · exact absurd d hl

theorem advance_exact {l l' : List Byte} {tok : Tok D} {c : Byte} (h : advance td l = .ok (tok, l'))
    (hp : (tok = .comma ∧ c = 0x2c) ∨ (tok = .rbracket ∧ c = 0x5d) ∨ (tok = .rbrace ∧ c = 0x7d)) :
    ∃ w, l = w ++ c :: l' ∧ LaxWs w := by
  obtain ⟨w, hw, e⟩ := skip_lax l
  suffices hs : skip l = c :: l' from ⟨w, by rw [← hs]; exact e, hw⟩
  clear e
  unfold advance at h
  generalize skip l = m at *
  cases m with
  | nil => simp at h
  | cons b r =>
    simp only at h
    by_cases g : b = 0
    · rw [if_pos g] at h; simp at h
    rw [if_neg g] at h; clear g
    by_cases g : b = 0x7b
    · rw [if_pos g] at h
      simp only [Except.ok.injEq, Prod.mk.injEq] at h
      obtain ⟨rfl, rfl⟩ := h
      rcases hp with ⟨k, rfl⟩ | ⟨k, rfl⟩ | ⟨k, rfl⟩ <;> first | (cases k; done) | rw [g]
    rw [if_neg g] at h; clear g
    by_cases g : b = 0x7d
    · rw [if_pos g] at h
      simp only [Except.ok.injEq, Prod.mk.injEq] at h
      obtain ⟨rfl, rfl⟩ := h
      rcases hp with ⟨k, rfl⟩ | ⟨k, rfl⟩ | ⟨k, rfl⟩ <;> first | (cases k; done) | rw [g]
    rw [if_neg g] at h; clear g
    by_cases g : b = 0x5b
    · rw [if_pos g] at h
      simp only [Except.ok.injEq, Prod.mk.injEq] at h
      obtain ⟨rfl, rfl⟩ := h
      rcases hp with ⟨k, rfl⟩ | ⟨k, rfl⟩ | ⟨k, rfl⟩ <;> first | (cases k; done) | rw [g]
    rw [if_neg g] at h; clear g
    by_cases g : b = 0x5d
    · rw [if_pos g] at h
      simp only [Except.ok.injEq, Prod.mk.injEq] at h
      obtain ⟨rfl, rfl⟩ := h
      rcases hp with ⟨k, rfl⟩ | ⟨k, rfl⟩ | ⟨k, rfl⟩ <;> first | (cases k; done) | rw [g]
    rw [if_neg g] at h; clear g
    by_cases g : b = 0x3a
    · rw [if_pos g] at h
      simp only [Except.ok.injEq, Prod.mk.injEq] at h
      obtain ⟨rfl, rfl⟩ := h
      rcases hp with ⟨k, rfl⟩ | ⟨k, rfl⟩ | ⟨k, rfl⟩ <;> first | (cases k; done) | rw [g]
    rw [if_neg g] at h; clear g
    by_cases g : b = 0x2c
    · rw [if_pos g] at h
      simp only [Except.ok.injEq, Prod.mk.injEq] at h
      obtain ⟨rfl, rfl⟩ := h
      rcases hp with ⟨k, rfl⟩ | ⟨k, rfl⟩ | ⟨k, rfl⟩ <;> first | (cases k; done) | rw [g]
    rw [if_neg g] at h; clear g
    exfalso
    by_cases g : b = 0x22
    · rw [if_pos g] at h
      split at h
      · simp at h
      · simp only [Except.ok.injEq, Prod.mk.injEq] at h
        rcases hp with ⟨k, -⟩ | ⟨k, -⟩ | ⟨k, -⟩ <;> rw [k] at h <;> simp at h
    rw [if_neg g] at h; clear g
    by_cases g : b = 0x2d ∨ isDigit b = true
    · rw [if_pos g] at h
      split at h
      · simp at h
      · simp only [Except.ok.injEq, Prod.mk.injEq] at h
        rcases hp with ⟨k, -⟩ | ⟨k, -⟩ | ⟨k, -⟩ <;> rw [k] at h <;> simp at h
    rw [if_neg g] at h; clear g
    by_cases g : b = 0x74
    · rw [if_pos g] at h
      split at h
      · simp at h
      · simp only [Except.ok.injEq, Prod.mk.injEq] at h
        rcases hp with ⟨k, -⟩ | ⟨k, -⟩ | ⟨k, -⟩ <;> rw [k] at h <;> simp at h
    rw [if_neg g] at h; clear g
    by_cases g : b = 0x66
    · rw [if_pos g] at h
      split at h
      · simp at h
      · simp only [Except.ok.injEq, Prod.mk.injEq] at h
        rcases hp with ⟨k, -⟩ | ⟨k, -⟩ | ⟨k, -⟩ <;> rw [k] at h <;> simp at h
    rw [if_neg g] at h; clear g
    by_cases g : b = 0x6e
    · rw [if_pos g] at h
      split at h
      · simp at h
      · simp only [Except.ok.injEq, Prod.mk.injEq] at h
        rcases hp with ⟨k, -⟩ | ⟨k, -⟩ | ⟨k, -⟩ <;> rw [k] at h <;> simp at h
    rw [if_neg g] at h; clear g
    simp at h

/-- What is shown of each of the functions. -/
def Lax (td : List Byte → Option D) (j : Job D) (l : List Byte) (v : Val D) (l' : List Byte) : Prop :=
  match j with
  | .from_token tok => ∀ tt, TokText td tok tt → ∃ t, l = t ++ l' ∧ LaxText td (.val v) (tt ++ t)
  | .array acc => ∃ vs t, v = mkArr (acc ++ vs) ∧ l = t ++ 0x5d :: l' ∧ LaxText td (.elems vs) t
  | .map acc => (acc.map (·.1)).Nodup →
      ∃ ms t, v = mkObj (acc ++ ms) ∧ l = t ++ 0x7d :: l' ∧ LaxText td (.members ms) t ∧ ((acc ++ ms).map (·.1)).Nodup

theorem ne_nil_of_advance {l l' : List Byte} {tok : Tok D} (h : advance td l = .ok (tok, l')) : l ≠ [] := by
  rintro rfl; simp [advance_nil] at h

theorem go_lax (n : Nat) (j : Job D) (l : List Byte) {v : Val D} {l' : List Byte} (h : go td n j l = .ok (v, l')) :
    Lax td j l v l' := by
  induction n generalizing j l v l' with
  | zero => simp [go] at h
  | succ n ih =>
    cases j with
    | from_token tok =>
      intro tt ht
      cases ht <;> simp only [go] at h
      case lbrace =>
        obtain ⟨ms, t, e1, e2, e3, e4⟩ := ih _ _ h (by simp)
        refine ⟨t ++ [0x7d], by rw [e2]; simp, ?_⟩
        rw [e1]
        cases ms with
        | nil => exact .emptyObj t e3
        | cons m ms => exact .obj _ t (by simp) e3 (by simpa using e4)
      case lbracket =>
        obtain ⟨vs, t, e1, e2, e3⟩ := ih _ _ h
        refine ⟨t ++ [0x5d], by rw [e2]; simp, ?_⟩
        rw [e1]
        cases vs with
        | nil => exact .emptyArr t e3
        | cons m ms => exact .arr _ t (by simp) e3
      case comma => simp at h
      case colon => simp at h
      case rbrace => simp at h
      case rbracket => simp at h
      all_goals
        simp only [Except.ok.injEq, Prod.mk.injEq] at h
        refine ⟨[], h.2, ?_⟩
        rw [← h.1, List.append_nil]
      case string t s hs => exact .str t s hs
      case number d hn hd => exact .num _ d hn hd
      case true => exact .true
      case false => exact .false
      case null => exact .null
    | array acc =>
      simp only [go] at h
      split at h
      · simp at h
      · rename_i h1
        simp only [Except.ok.injEq, Prod.mk.injEq] at h
        obtain ⟨w, e1, e2⟩ := advance_exact (c := 0x5d) h1 (.inr (.inl ⟨rfl, rfl⟩))
        exact ⟨[], w, by rw [List.append_nil]; exact h.1.symm, by rw [← h.2]; exact e1, .noElem w e2⟩
      · rename_i tok l1 _ h1
        split at h
        · simp at h
        · rename_i v0 l2 h2
          have hl2 : l2 ≠ [] := by
            rintro rfl; simp [advance_nil] at h
          have hl1 : l1 ≠ [] := by
            intro e
            have := go_length _ _ _ h2
            rw [e] at this
            exact hl2 (List.length_eq_zero_iff.1 (by simpa using this))
          obtain ⟨w, tt, e1, e2, e3⟩ := advance_lax' h1 hl1
          obtain ⟨t, e4, e5⟩ := ih _ _ h2 tt e3
          split at h
          · simp at h
          · rename_i l3 h3
            obtain ⟨w2, e6, e7⟩ := advance_exact (c := 0x2c) h3 (.inl ⟨rfl, rfl⟩)
            obtain ⟨vs, t', e8, e9, e10⟩ := ih _ _ h
            refine ⟨v0 :: vs, _, by rw [e8]; simp, ?_, .elemsCons v0 vs (tt ++ t) t' w w2 e2 e7 e5 e10⟩
            rw [e1, e4, e6, e9]; simp
          · rename_i l3 h3
            obtain ⟨w2, e6, e7⟩ := advance_exact (c := 0x5d) h3 (.inr (.inl ⟨rfl, rfl⟩))
            simp only [Except.ok.injEq, Prod.mk.injEq] at h
            refine ⟨[v0], _, h.1.symm, ?_, .elem v0 (tt ++ t) w w2 e2 e7 e5⟩
            rw [e1, e4, e6, h.2]; simp
          · simp at h
    | map acc =>
      intro hnd
      simp only [go] at h
      split at h
      · simp at h
      · rename_i h1
        simp only [Except.ok.injEq, Prod.mk.injEq] at h
        obtain ⟨w, e1, e2⟩ := advance_exact (c := 0x7d) h1 (.inr (.inr ⟨rfl, rfl⟩))
        exact ⟨[], w, by rw [List.append_nil]; exact h.1.symm, by rw [← h.2]; exact e1, .noMember w e2, by simpa using hnd⟩
      · rename_i k l1 h1
        by_cases hk : (acc.any (fun m => m.1 == k)) = true
        · rw [if_pos hk] at h; simp at h
        rw [if_neg hk] at h
        have hnd' : ∀ v0 : Val D, ((acc ++ [(k, v0)]).map (·.1)).Nodup := by
          intro v0
          rw [List.map_append, List.nodup_append]
          refine ⟨hnd, by simp, ?_⟩
          intro a ha b hb e
          simp only [List.map_cons, List.map_nil, List.mem_singleton] at hb
          obtain ⟨m, hm, rfl⟩ := List.mem_map.1 ha
          apply hk
          rw [List.any_eq_true]
          exact ⟨m, hm, by simp [e, hb]⟩
        split at h
        · simp at h
        · rename_i l2 h2
          split at h
          · simp at h
          · rename_i tok l3 h3
            split at h
            · simp at h
            · rename_i v0 l4 h4
              have hl4 : l4 ≠ [] := by
                rintro rfl; simp [advance_nil] at h
              have hl3 : l3 ≠ [] := by
                intro e
                have := go_length _ _ _ h4
                rw [e] at this
                exact hl4 (List.length_eq_zero_iff.1 (by simpa using this))
              obtain ⟨w1, t1, a1, a2, a3⟩ := advance_lax' h1 (ne_nil_of_advance h2)
              obtain ⟨w2, t2, b1, b2, b3⟩ := advance_lax' h2 (ne_nil_of_advance h3)
              obtain ⟨w3, t3, c1, c2, c3⟩ := advance_lax' h3 hl3
              obtain ⟨t, e4, e5⟩ := ih _ _ h4 t3 c3
              obtain ⟨kt, hkt, rfl⟩ : ∃ kt, LaxStr kt k ∧ t1 = 0x22 :: kt ++ [0x22] := by
                cases a3; exact ⟨_, by assumption, rfl⟩
              cases b3
              split at h
              · simp at h
              · rename_i l5 h5
                obtain ⟨w4, e6, e7⟩ := advance_exact (c := 0x2c) h5 (.inl ⟨rfl, rfl⟩)
                obtain ⟨ms, t', e8, e9, e10, e11⟩ := ih _ _ h (hnd' v0)
                refine ⟨(k, v0) :: ms, _, by rw [e8]; simp, ?_,
                  .membersCons k v0 ms kt (t3 ++ t) t' w1 w2 w3 w4 a2 b2 c2 e7 hkt e5 e10, by simpa using e11⟩
                rw [a1, b1, c1, e4, e6, e9]; simp
              · rename_i l5 h5
                obtain ⟨w4, e6, e7⟩ := advance_exact (c := 0x7d) h5 (.inr (.inr ⟨rfl, rfl⟩))
                simp only [Except.ok.injEq, Prod.mk.injEq] at h
                refine ⟨[(k, v0)], _, h.1.symm, ?_, .member k v0 kt (t3 ++ t) w1 w2 w3 w4 a2 b2 c2 e7 hkt e5, hnd' v0⟩
                rw [a1, b1, c1, e4, e6, h.2]; simp
              · simp at h
        · simp at h
      · simp at h

theorem parse_lax {s : List Byte} {v : Val D} (h : parse td s = .ok v) :
    ∃ w t r, s = w ++ t ++ r ∧ LaxWs w ∧ LaxText td (.val v) t := by
  unfold parse parse_any at h
  split at h
  · simp at h
  · rename_i v0 l2 h1
    simp only [Except.ok.injEq] at h; subst h
    split at h1
    · simp at h1
    · rename_i tok l1 h0
      obtain ⟨w, tt, r, a, b, c, d⟩ := advance_lax h0
      obtain ⟨t, e1, e2⟩ := go_lax _ _ _ h1 tt c
      rcases d with rfl | rfl
      · exact ⟨w, tt ++ t, l2, by rw [a, e1]; simp, b, e2⟩
      · have : t = [] := by
          cases t with
          | nil => rfl
          | cons => simp at e1
        subst this
        exact ⟨w, tt ++ [], r, by rw [a]; simp, b, e2⟩

end C3.StdJson
