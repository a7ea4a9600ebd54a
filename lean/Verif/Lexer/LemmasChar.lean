import Verif.Lexer.LemmasText

/-! # Character literals, raw strings, bytes and contracts -/

set_option autoImplicit false

namespace C3.Lexer

open Spec (HexOverrun NoQuote OpenChar OpenRaw RawText IsHex hexDigit hexValue escapes Text Units bigEndian)

theorem hexLiteral_cases (src : Src) (i n : Nat) : ∀ (hex : Nat) (l : Lx), HexEsc src i l.pos → l.pos ≤ src.length →
    l.pos + n ≤ i + 10 →
    (hexLiteral src hex l n = none ∧ HexOverrun src) ∨
    (∃ l', hexLiteral src hex l n = some (l', none) ∧ Adv src l l') ∨
    (∃ v, hexLiteral src hex l n = some (advN src l n, some v) ∧ l.pos + n ≤ src.length ∧
      ∀ k d, l.pos ≤ k → k < l.pos + n → src[k]? = some d → IsHex d) := by
  induction n with
  | zero => intro hex l _ hl _; exact .inr (.inr ⟨hex, rfl, hl, by intros; omega⟩)
  | succ n ih =>
    intro hex l he hl hn
    obtain ⟨c, hc⟩ := rd_some src hl
    simp only [hexLiteral, peek, hc, Option.bind_eq_bind, Option.bind_some]
    rcases hexNibble_cases c with ⟨h, e⟩ | ⟨h, e⟩ | ⟨h, h', e⟩
    · left; rw [e]; exact ⟨rfl, he.overrun (by omega) hc h⟩
    · rw [e]
      have hlt := rd_lt src hc (IsHex.ne h).1
      simp only [Option.bind_some, next_eq src hl]
      rcases ih (hex * 16 + hexDigit c) (adv1 src l) (by simpa using he.step hc h) (by simp; omega) (by simp; omega)
        with h1 | ⟨l', h1, h2⟩ | ⟨v, h1, h2, h3⟩
      · exact .inl h1
      · exact .inr (.inl ⟨l', h1, (Adv.one hlt).trans h2⟩)
      · refine .inr (.inr ⟨v, h1, by simp at h2; omega, ?_⟩)
        intro k d hk1 hk2 hkd
        by_cases e : k = l.pos
        · subst e
          rw [rd_get src hlt, hkd] at hc
          rw [Option.some.inj hc]; exact h
        · exact h3 k d (by simp; omega) (by simp; omega) hkd
    · right; left; rw [e]; exact ⟨l, rfl, Adv.refl hl⟩

theorem hexLiteral_digits (src : Src) (ds : List Nat) : ∀ (hex : Nat) (l : Lx) (s : List Nat), (∀ c ∈ ds, IsHex c) →
    src.drop l.pos = ds ++ s →
    hexLiteral src hex l ds.length = some (advN src l ds.length, some (ds.foldl (fun v c => v * 16 + hexDigit c) hex)) := by
  induction ds with
  | nil => intro _ _ _ _ _; rfl
  | cons c ds ih =>
    intro hex l s hds h
    obtain ⟨hlt, hc, hs⟩ := drop_cons (s := ds ++ s) h
    simp only [List.length_cons, hexLiteral, peek, hc, Option.bind_eq_bind, Option.bind_some]
    rcases hexNibble_cases c with ⟨h, e⟩ | ⟨h, e⟩ | ⟨h, h', e⟩
    · have := hds c (by simp); unfold IsHex at this; omega
    · rw [e]
      simp only [Option.bind_some, next_eq src (Nat.le_of_lt hlt)]
      exact ih _ _ s (fun x hx => hds x (by simp [hx])) (by simpa using hs)
    · exact absurd (hds c (by simp)) h'

theorem utf8Rest_adv (src : Src) (n : Nat) : ∀ (u : Nat) (l : Lx), l.pos ≤ src.length →
    ∃ l' r, utf8Rest src u l n = some (l', r) ∧ Adv src l l' ∧
      (r.isSome = true → ∀ k d, l.pos ≤ k → k < l'.pos → src[k]? = some d → 128 ≤ d) := by
  induction n with
  | zero => intro u l hl; exact ⟨l, some u, rfl, Adv.refl hl, by intros; omega⟩
  | succ n ih =>
    intro u l hl
    obtain ⟨c, hc⟩ := rd_some src hl
    simp only [utf8Rest, peek, hc, Option.bind_eq_bind, Option.bind_some]
    split
    · exact ⟨l, _, rfl, Adv.refl hl, by intros; omega⟩
    · rename_i h0
      have hlt := rd_lt src hc h0
      rw [next_eq src hl, Option.bind_some]
      split
      · exact ⟨_, none, rfl, Adv.one hlt, by simp⟩
      · rename_i h
        obtain ⟨l', r, h1, h2, h3⟩ := ih (u * 64 + (c &&& 63)) (adv1 src l) (by simp; omega)
        refine ⟨l', r, h1, (Adv.one hlt).trans h2, ?_⟩
        intro hr k d hk1 hk2 hkd
        by_cases e : k = l.pos
        · subst e
          rw [rd_get src hlt, hkd] at hc
          have := Option.some.inj hc
          subst this
          have h' : d &&& 192 = 128 := by simpa using h
          have : d &&& 192 ≤ d := Nat.and_le_left
          omega
        · exact h3 hr k d (by simp; omega) hk2 hkd

theorem scanUtf8_adv (src : Src) (c : Nat) {l : Lx} (hl : l.pos ≤ src.length) :
    ∃ l' r, scanUtf8 src c l = some (l', r) ∧ Adv src l l' ∧
      (r.isSome = true → ∀ k d, l.pos ≤ k → k < l'.pos → src[k]? = some d → 128 ≤ d) := by
  unfold scanUtf8
  split
  · exact ⟨l, none, rfl, Adv.refl hl, by simp⟩
  · repeat' split
    all_goals first
      | exact utf8Rest_adv src _ _ l hl
      | exact ⟨l, none, rfl, Adv.refl hl, by simp⟩

theorem noQuote_extend {src : Src} {p q : Nat} (h : NoQuote src q) (hpq : p ≤ q)
    (hb : ∀ k d, p ≤ k → k < q → src[k]? = some d → d ≠ 10 ∧ (d = 39 → p < k ∧ src[k - 1]? = some 92)) :
    NoQuote src p := by
  intro j hj
  by_cases hjq : q ≤ j
  · refine ⟨(h j hjq).1, fun e => ?_⟩
    have := (h j hjq).2 e
    exact ⟨by omega, this.2⟩
  · refine ⟨fun e => (hb j 10 hj (by omega) e).1 rfl, fun e => (hb j 39 hj (by omega) e).2 rfl⟩

/-- The loop of `scan_char`. -/
theorem charLoop_res (src : Src) (hz : NoNul src) (m : Nat) : ∀ (width value : Nat) (l : Lx), l.pos ≤ src.length →
    src.length - l.pos = m → (0 < width ∨ rd src l.pos ≠ some 39) → width ≤ 16 →
    Res src l.pos (NoQuote src l.pos) (HexOverrun src) l (charLoop src width value l) := by
  induction m using Nat.strongRecOn with
  | _ m ih =>
    intro width value l hl hm hw hw16
    rw [charLoop]
    rcases accept_eq src (ch '\'') (by decide) hl with ⟨hq, hlt, he⟩ | ⟨hq, he⟩
    · simp only [he, Option.bind_eq_bind, Option.bind_some, if_true]
      rw [if_pos]
      · exact .ret (Adv.one hlt) (Nat.le_refl _)
      · have : 0 < width := by
          rcases hw with h | h
          · exact h
          · exact absurd hq h
        simp; omega
    · obtain ⟨c, hc⟩ := rd_some src hl
      simp only [he, Option.bind_eq_bind, Option.bind_some, peek, hc, next_eq src hl]
      rw [if_neg (by simp)]
      by_cases h0 : c = 0
      · rw [if_pos h0]
        subst h0
        have hend := rd_zero hz hc
        refine .inr ⟨_, none, rfl, by simp, by simp, .inr ⟨rfl, by simp; omega, ?_⟩⟩
        intro j hj
        rw [List.getElem?_eq_none (by omega)]
        simp
      · rw [if_neg h0]
        have hlt := rd_lt src hc h0
        have ha1 := Adv.one hlt
        have hget : src[l.pos]? = some c := by rw [← rd_get src hlt, hc]
        have hcq : c ≠ 39 := by rintro rfl; exact hq hc
        -- the recursive calls
        have again : ∀ (width value : Nat) (l2 : Lx), Adv src l l2 → l.pos < l2.pos →
            (0 < width ∨ rd src l2.pos ≠ some 39) → width ≤ 16 →
            (∀ k d, l.pos ≤ k → k < l2.pos → src[k]? = some d → d ≠ 10 ∧ (d = 39 → l.pos < k ∧ src[k - 1]? = some 92)) →
            Res src l.pos (NoQuote src l.pos) (HexOverrun src) l (charLoop src width value l2) := by
          intro width value l2 ha hgt h1 h2 hb
          have hb2 := ha.bound
          refine .adv ha ?_
          rcases ih (src.length - l2.pos) (by omega) width value l2 ha.bound rfl h1 h2 with h | ⟨l', r, h1, h2, h3, h4⟩
          · exact .inl h
          · refine .inr ⟨l', r, h1, by omega, h3, ?_⟩
            rcases h4 with h4 | ⟨h4, h5, h6⟩
            · exact .inl h4
            · exact .inr ⟨h4, h5, noQuote_extend h6 (by omega) hb⟩
        by_cases hw15 : width > 15
        · rw [if_pos hw15]
          exact .err (by simp) ha1.bound
        · rw [if_neg hw15]
          by_cases h80 : c ≥ 128
          · rw [if_pos h80]
            by_cases hw0 : width ≠ 0
            · rw [if_pos hw0]; exact .err (by simp) ha1.bound
            · rw [if_neg hw0]
              obtain ⟨l2, r, h1, ha2, hbytes⟩ := scanUtf8_adv src c ha1.bound
              rw [h1, Option.bind_some]
              have hle := ha2.le
              simp at hle
              have hb2 := ha2.bound
              cases r with
              | none => exact .err (by dsimp only; omega) hb2
              | some u =>
                dsimp only
                have hstep : ∀ k d, l.pos ≤ k → k < l2.pos → src[k]? = some d →
                    d ≠ 10 ∧ (d = 39 → l.pos < k ∧ src[k - 1]? = some 92) := by
                  intro k d hk1 hk2 hkd
                  by_cases e : k = l.pos
                  · subst e
                    rw [hget] at hkd
                    have := Option.some.inj hkd
                    omega
                  · have := hbytes rfl k d (by simp; omega) hk2 hkd
                    omega
                rcases accept_eq src (ch '\'') (by decide) hb2 with ⟨_, hlt2, he2⟩ | ⟨hq2, he2⟩
                · rw [he2, Option.bind_some]
                  dsimp only
                  rw [if_pos rfl]
                  exact .ret ((ha1.trans ha2).trans (Adv.one hlt2)) (Nat.le_refl _)
                · rw [he2, Option.bind_some]
                  dsimp only
                  rw [if_neg (by simp)]
                  obtain ⟨d, hd⟩ := rd_some src hb2
                  rw [hd, Option.bind_some]
                  by_cases hd0 : d = 0
                  · rw [if_pos hd0]
                    exact again width value l2 (ha1.trans ha2) (by omega) (.inr hq2) hw16 hstep
                  · rw [if_neg hd0]
                    obtain ⟨l3, he3, hp3, _⟩ := backtrack_pos src (l := l2) (by omega) (by omega)
                    rw [he3, Option.bind_some]
                    exact .err (by omega) (by omega)
          · rw [if_neg h80]
            by_cases h10 : c = 10
            · rw [if_pos (show c = ch '\n' from h10)]
              exact .err (by simp) ha1.bound
            · rw [if_neg (show ¬ c = ch '\n' from h10)]
              by_cases hs : c = 92
              · rw [if_pos (show c = ch '\\' from hs)]
                subst hs
                obtain ⟨d, hd⟩ := rd_some src ha1.bound
                rw [hd, Option.bind_some]
                simp only [adv1_pos] at hd
                rcases validEscape_cases d with ⟨hv, _⟩ | ⟨v, hv', hv, h1, h2, h3⟩ | ⟨hx, hv⟩
                · rw [hv]
                  dsimp only
                  split
                  · rename_i h
                    have : d ≠ 0 := by rintro rfl; simp at h
                    have := rd_lt src hd this
                    rw [next_eq src (show ({ adv1 src l with start := (adv1 src l).start + 1 } : Lx).pos ≤ src.length by
                      simp; omega), Option.bind_some]
                    exact .err (by simp; omega) (by simp; omega)
                  · exact .err (by simp) (by simp; omega)
                · have hd0 := (escape_ne hv').1
                  have hd10 := (escape_ne hv').2.1
                  have hlt2 := rd_lt src hd hd0
                  rw [hv]
                  dsimp only
                  have ha2 := ha1.trans (Adv.one (l := adv1 src l) (by simpa using hlt2))
                  rw [next_eq src (by simp; omega), Option.bind_some, if_neg (show ¬ v = ch 'x' from h1), if_neg (by
                    simp only [Bool.or_eq_true, decide_eq_true_eq, not_or]
                    exact ⟨h2, h3⟩)]
                  refine again _ _ _ ha2 (by simp only [adv1_pos]; omega) (.inl (by omega)) (by omega) ?_
                  intro k e hk1 hk2 hke
                  simp at hk2
                  by_cases ek : k = l.pos
                  · subst ek
                    rw [hget] at hke
                    have := Option.some.inj hke
                    omega
                  · have : k = l.pos + 1 := by omega
                    subst this
                    rw [rd_get src hlt2, hke] at hd
                    have := Option.some.inj hd
                    subst this
                    exact ⟨hd10, fun _ => ⟨by omega, by simpa using hget⟩⟩
                · have hd0 : d ≠ 0 := by omega
                  have hlt2 := rd_lt src hd hd0
                  have hget2 : src[l.pos + 1]? = some d := by rw [← rd_get src hlt2, hd]
                  have ha2 := ha1.trans (Adv.one (l := adv1 src l) (by simpa using hlt2))
                  have hesc : HexEsc src l.pos (adv1 src (adv1 src l)).pos := by
                    refine ⟨hget, ?_, by simp, fun k _ hk1 hk2 => by simp at hk2; omega⟩
                    rw [hget2]
                    rcases hx with rfl | rfl | rfl <;> simp
                  rw [hv]
                  dsimp only
                  rw [next_eq src (by simp; omega), Option.bind_some]
                  have hexStep : ∀ n, (∀ k d, (adv1 src (adv1 src l)).pos ≤ k → k < (adv1 src (adv1 src l)).pos + n →
                        src[k]? = some d → IsHex d) →
                      ∀ k e, l.pos ≤ k → k < (advN src (adv1 src (adv1 src l)) n).pos → src[k]? = some e →
                        e ≠ 10 ∧ (e = 39 → l.pos < k ∧ src[k - 1]? = some 92) := by
                    intro n hn k e hk1 hk2 hke
                    simp at hk2
                    by_cases ek : k = l.pos
                    · subst ek
                      rw [hget] at hke
                      have := Option.some.inj hke
                      omega
                    · by_cases ek1 : k = l.pos + 1
                      · subst ek1
                        rw [hget2] at hke
                        have := Option.some.inj hke
                        omega
                      · have := IsHex.ne (hn k e (by simp; omega) (by simp; omega) hke)
                        omega
                  by_cases hxx : d = 120
                  · rw [if_pos (show d = ch 'x' from hxx)]
                    rcases hexLiteral_cases src l.pos 2 0 _ hesc ha2.bound (by simp) with ⟨h1, h2⟩ | ⟨l', h1, h2⟩ |
                      ⟨v, h1, h2, h3⟩
                    · rw [h1]; exact .inl ⟨rfl, h2⟩
                    · rw [h1, Option.bind_some]
                      have := h2.le
                      simp at this
                      exact .err (by dsimp only; omega) h2.bound
                    · rw [h1, Option.bind_some]
                      dsimp only
                      exact again _ _ _ (ha2.trans ⟨2, h2, rfl⟩) (by simp only [advN_pos, adv1_pos]; omega) (.inl (by omega)) (by omega) (hexStep 2 h3)
                  · rw [if_neg (show ¬ d = ch 'x' from hxx), if_pos (by
                      simp only [Bool.or_eq_true, decide_eq_true_eq]
                      rcases hx with h | h | h
                      · exact absurd h hxx
                      · exact .inl h
                      · exact .inr h)]
                    by_cases hw0 : width ≠ 0
                    · rw [if_pos hw0]; exact .err (by simp only [adv1_pos]; omega) ha2.bound
                    · rw [if_neg hw0]
                      have hn8 : (if d = ch 'U' then 8 else 4) ≤ 8 := by split <;> omega
                      rcases hexLiteral_cases src l.pos (if d = ch 'U' then 8 else 4) 0 _ hesc ha2.bound
                        (by simp only [adv1_pos]; omega) with ⟨h1, h2⟩ | ⟨l', h1, h2⟩ | ⟨v, h1, h2, h3⟩
                      · rw [h1]; exact .inl ⟨rfl, h2⟩
                      · rw [h1, Option.bind_some]
                        have := h2.le
                        simp at this
                        exact .err (by simp [begin_]; omega) h2.bound
                      · rw [h1, Option.bind_some]
                        dsimp only
                        have ha3 := ha2.trans (show Adv src _ _ from ⟨_, h2, rfl⟩)
                        have hb3 := ha3.bound
                        rcases accept_eq src (ch '\'') (by decide) hb3 with ⟨_, hlt4, he4⟩ | ⟨hq4, he4⟩
                        · rw [he4, Option.bind_some]
                          dsimp only
                          rw [if_pos rfl]
                          exact .ret (ha3.trans (Adv.one hlt4)) (Nat.le_refl _)
                        · rw [he4, Option.bind_some]
                          dsimp only
                          rw [if_neg (by simp)]
                          obtain ⟨e, hee⟩ := rd_some src hb3
                          rw [hee, Option.bind_some]
                          by_cases he0 : e = 0
                          · rw [if_pos he0]
                            exact again width value _ ha3 (by simp only [advN_pos, adv1_pos]; omega) (.inr hq4) hw16
                              (hexStep _ h3)
                          · rw [if_neg he0]
                            exact .err (by simp only [advN_pos, adv1_pos]; omega) hb3
              · rw [if_neg (show ¬ c = ch '\\' from hs)]
                refine again _ _ _ ha1 (by simp) (.inl (by omega)) (by omega) ?_
                intro k e hk1 hk2 hke
                simp at hk2
                have : k = l.pos := by omega
                subst this
                rw [hget] at hke
                have := Option.some.inj hke
                omega

theorem scanChar_res (src : Src) (hz : NoNul src) {l : Lx} (hl : l.pos ≤ src.length) :
    Res src l.pos (NoQuote src l.pos) (HexOverrun src) l (scanChar src l) := by
  unfold scanChar
  rcases accept_eq src (ch '\'') (by decide) hl with ⟨hq, hlt, he⟩ | ⟨hq, he⟩
  · simp only [he, Option.bind_eq_bind, Option.bind_some, if_true]
    exact .err (by simp) (by simp; omega)
  · simp only [he, Option.bind_eq_bind, Option.bind_some]
    rw [if_neg (by simp)]
    exact charLoop_res src hz _ 0 0 l hl rfl (.inr hq) (by omega)

end C3.Lexer
