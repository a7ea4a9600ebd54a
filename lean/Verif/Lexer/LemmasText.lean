import Verif.Lexer.LemmasScan

/-! # Escapes and strings -/

set_option autoImplicit false

namespace C3.Lexer

open Spec (HexOverrun NoQuote OpenChar OpenRaw RawText IsHex hexDigit hexValue escapes Text)

theorem hexNibble_cases (c : Nat) :
    (128 ≤ c ∧ hexNibble c = none) ∨ (IsHex c ∧ hexNibble c = some (some (hexDigit c))) ∨
    (c < 128 ∧ ¬ IsHex c ∧ hexNibble c = some none) := by
  unfold hexNibble IsHex hexDigit isDigit
  simp only [ch, Bool.and_eq_true]
  have e : '0'.toNat = 48 ∧ '9'.toNat = 57 ∧ 'A'.toNat = 65 ∧ 'F'.toNat = 70 ∧ 'a'.toNat = 97 ∧ 'f'.toNat = 102 := by
    decide
  simp only [e, decide_eq_true_eq]
  by_cases h1 : c ≥ 128
  · left; exact ⟨h1, by rw [if_pos h1]⟩
  · right
    rw [if_neg h1]
    by_cases h2 : 48 ≤ c ∧ c ≤ 57
    · left; rw [if_pos h2, if_pos h2.2]; exact ⟨.inl h2, rfl⟩
    · rw [if_neg h2]
      by_cases h3 : 65 ≤ c ∧ c ≤ 70
      · left; rw [if_pos h3, if_neg (by omega), if_pos h3.2]; exact ⟨.inr (.inl h3), rfl⟩
      · rw [if_neg h3]
        by_cases h4 : 97 ≤ c ∧ c ≤ 102
        · left; rw [if_pos h4, if_neg (by omega), if_neg (by omega)]; exact ⟨.inr (.inr h4), rfl⟩
        · right; rw [if_neg h4]; exact ⟨by omega, by omega, rfl⟩

theorem IsHex.ne {c : Nat} (h : IsHex c) : c ≠ 0 ∧ c ≠ 10 ∧ c ≠ 34 ∧ c ≠ 39 ∧ c ≠ 92 := by
  unfold IsHex at h; omega

/-- The escape before some hex digits. -/
structure HexEsc (src : Src) (i p : Nat) : Prop where
  slash : src[i]? = some 92
  letter : src[i + 1]? = some 120 ∨ src[i + 1]? = some 117 ∨ src[i + 1]? = some 85
  le : i + 2 ≤ p
  hex : ∀ k d, i + 2 ≤ k → k < p → src[k]? = some d → IsHex d

theorem HexEsc.step {src : Src} {i p c : Nat} (h : HexEsc src i p) (hc : rd src p = some c) (hx : IsHex c) :
    HexEsc src i (p + 1) := by
  refine ⟨h.slash, h.letter, by have := h.le; omega, ?_⟩
  intro k d h1 h2 h3
  by_cases e : k = p
  · subst e
    have hlt := rd_lt src hc (IsHex.ne hx).1
    rw [rd_get src hlt, h3] at hc
    rw [Option.some.inj hc]; exact hx
  · exact h.hex k d h1 (by omega) h3

theorem HexEsc.overrun {src : Src} {i p c : Nat} (h : HexEsc src i p) (hp : p < i + 10) (hc : rd src p = some c)
    (hx : 128 ≤ c) : HexOverrun src :=
  ⟨i, p, c, h.slash, h.letter, h.le, hp, h.hex, by rw [← rd_get src (rd_lt src hc (by omega)), hc], hx⟩

/-- Reading hex digits. -/
theorem hexAt_cases (src : Src) (i n : Nat) : ∀ (hex p : Nat), HexEsc src i p → p ≤ src.length → p + n ≤ i + 10 →
    (hexAt src hex p n = none ∧ HexOverrun src) ∨ hexAt src hex p n = some none ∨
    ∃ ds s, ds.length = n ∧ (∀ c ∈ ds, IsHex c) ∧ src.drop p = ds ++ s ∧
      hexAt src hex p n = some (some (ds.foldl (fun v c => v * 16 + hexDigit c) hex)) := by
  induction n with
  | zero => intro hex p _ _ _; exact .inr (.inr ⟨[], src.drop p, rfl, by simp, rfl, rfl⟩)
  | succ n ih =>
    intro hex p he hp hn
    obtain ⟨c, hc⟩ := rd_some src hp
    simp only [hexAt, hc, Option.bind_eq_bind, Option.bind_some]
    rcases hexNibble_cases c with ⟨h, e⟩ | ⟨h, e⟩ | ⟨h, h', e⟩
    · left; rw [e]; exact ⟨rfl, he.overrun (by omega) hc h⟩
    · rw [e]
      simp only [Option.bind_some]
      have hlt := rd_lt src hc (IsHex.ne h).1
      rcases ih (hex * 16 + hexDigit c) (p + 1) (he.step hc h) hlt (by omega) with h1 | h1 | ⟨ds, s, h1, h2, h3, h4⟩
      · exact .inl h1
      · exact .inr (.inl h1)
      · refine .inr (.inr ⟨c :: ds, s, by simp [h1], ?_, ?_, by rw [h4]; rfl⟩)
        · intro x hx
          rcases List.mem_cons.mp hx with rfl | hx
          · exact h
          · exact h2 x hx
        · rw [drop_rd hlt hc, h3]; rfl
    · right; left; rw [e]; rfl

theorem hexAt_digits (src : Src) (ds : List Nat) : ∀ (hex p : Nat) (s : List Nat), (∀ c ∈ ds, IsHex c) →
    src.drop p = ds ++ s →
    hexAt src hex p ds.length = some (some (ds.foldl (fun v c => v * 16 + hexDigit c) hex)) := by
  induction ds with
  | nil => intro _ _ _ _ _; rfl
  | cons c ds ih =>
    intro hex p s hds h
    obtain ⟨hlt, hc, hs⟩ := drop_cons (s := ds ++ s) h
    simp only [List.length_cons, hexAt, hc, Option.bind_eq_bind, Option.bind_some]
    rcases hexNibble_cases c with ⟨h, e⟩ | ⟨h, e⟩ | ⟨h, h', e⟩
    · have := hds c (by simp); unfold IsHex at this; omega
    · rw [e]
      exact ih _ _ s (fun x hx => hds x (by simp [hx])) hs
    · exact absurd (hds c (by simp)) h'

theorem validEscape_cases (c : Nat) :
    (validEscape c = none ∧ (∀ v, (c, v) ∉ escapes) ∧ c ≠ 120 ∧ c ≠ 117 ∧ c ≠ 85) ∨
    (∃ v, (c, v) ∈ escapes ∧ validEscape c = some v ∧ v ≠ 120 ∧ v ≠ 117 ∧ v ≠ 85) ∨
    ((c = 120 ∨ c = 117 ∨ c = 85) ∧ validEscape c = some c) := by
  have none_of : validEscape c = none → (∀ x ∈ escapes, c ≠ x.1) → ∀ v, (c, v) ∉ escapes := fun _ h v hv => h _ hv rfl
  by_cases h : c < 128
  · have table : ∀ c < 128, (validEscape c = none ∧ (∀ x ∈ escapes, c ≠ x.1) ∧ c ≠ 120 ∧ c ≠ 117 ∧ c ≠ 85) ∨
        (∃ x ∈ escapes, c = x.1 ∧ validEscape c = some x.2 ∧ x.2 ≠ 120 ∧ x.2 ≠ 117 ∧ x.2 ≠ 85) ∨
        ((c = 120 ∨ c = 117 ∨ c = 85) ∧ validEscape c = some c) := by decide +kernel
    rcases table c h with ⟨h1, h2, h3⟩ | ⟨x, h1, rfl, h2⟩ | h1
    · exact .inl ⟨h1, none_of h1 h2, h3⟩
    · exact .inr (.inl ⟨x.2, h1, h2⟩)
    · exact .inr (.inr h1)
  · left
    have big : ∀ x, x < 128 → c ≠ x := by intro x hx; omega
    have h1 : validEscape c = none := by
      unfold validEscape
      repeat rw [if_neg (big _ (by decide))]
    refine ⟨h1, none_of h1 ?_, by omega, by omega, by omega⟩
    have : ∀ x ∈ escapes, x.1 < 128 := by decide
    intro x hx
    exact big _ (this x hx)

/-! ## Strings -/

/-- What `scan_string` writes for a number. -/
def put (v : Nat) : Option (List Nat) := some (putUtf8 v)

theorem appendEsc_cases (src : Src) {i : Nat} (hs : src[i]? = some 92) {d : Nat} (hd : rd src (i + 1) = some d)
    (h0 : d ≠ 0) (h10 : d ≠ 10) :
    (appendEsc src (i + 1) = none ∧ HexOverrun src) ∨ appendEsc src (i + 1) = some none ∨
    ∃ e s bytes, appendEsc src (i + 1) = some (some (bytes, e.length)) ∧ src.drop (i + 1) = e ++ s ∧
      (∃ a r, e = a :: r ∧ ∀ c ∈ r, IsHex c) ∧
      ∀ b t, Text put put b t → Text put put (92 :: (e ++ b)) (bytes ++ t) := by
  have hlt := rd_lt src hd h0
  have hdrop := drop_rd hlt hd
  unfold appendEsc
  simp only [hd, Option.bind_eq_bind, Option.bind_some]
  rcases validEscape_cases d with ⟨he, _⟩ | ⟨v, hv, he, h1, h2, h3⟩ | ⟨hx, he⟩
  · right; left; rw [he]
  · right; right
    rw [he]
    dsimp only
    rw [if_neg (show ¬ v = ch 'x' from h1), if_neg (show ¬ v = ch 'u' from h2), if_neg (show ¬ v = ch 'U' from h3),
      if_pos rfl]
    exact ⟨[d], _, [v], rfl, hdrop, ⟨d, [], rfl, by simp⟩, fun b t hb => .escape d v b t hv hb⟩
  · rw [he]
    dsimp only
    have hesc : HexEsc src i (i + 1 + 1) := by
      refine ⟨hs, ?_, by omega, fun k _ h1 h2 => by omega⟩
      rw [← rd_get src hlt, hd]
      rcases hx with rfl | rfl | rfl <;> simp
    have fin : ∀ n, 0 < n → n ≤ 8 →
        (∀ ds : List Nat, ds.length = n → (∀ c ∈ ds, IsHex c) → ∀ b t, Text put put b t →
          Text put put (92 :: d :: (ds ++ b)) (putUtf8 (hexValue ds) ++ t)) →
        let x := if n = 0 then some (some ([d], 1))
          else (hexAt src 0 (i + 1 + 1) n).bind fun r => match r with
            | none => some none
            | some u => some (some (putUtf8 u, n + 1))
        (x = none ∧ HexOverrun src) ∨ x = some none ∨
        ∃ e s bytes, x = some (some (bytes, e.length)) ∧ src.drop (i + 1) = e ++ s ∧
          (∃ a r, e = a :: r ∧ ∀ c ∈ r, IsHex c) ∧
          ∀ b t, Text put put b t → Text put put (92 :: (e ++ b)) (bytes ++ t) := by
      intro n hn hn8 ht
      dsimp only
      rw [if_neg (by omega)]
      rcases hexAt_cases src i n 0 _ hesc hlt (by omega) with ⟨h, h'⟩ | h | ⟨ds, s, h1, h2, h3, h4⟩
      · left; rw [h]; exact ⟨rfl, h'⟩
      · right; left; rw [h]; rfl
      · right; right
        rw [h4]
        refine ⟨d :: ds, s, putUtf8 (hexValue ds), ?_, ?_, ⟨d, ds, rfl, h2⟩, ?_⟩
        · simp only [Option.bind_some, List.length_cons, h1]; rfl
        · rw [hdrop, h3]; rfl
        · intro b t hb
          exact ht ds h1 h2 b t hb
    rcases hx with rfl | rfl | rfl
    · exact fin 2 (by omega) (by omega) (fun ds h1 h2 b t hb => .x ds _ b t h1 h2 rfl hb)
    · exact fin 4 (by omega) (by omega) (fun ds h1 h2 b t hb => .u ds _ b t h1 h2 rfl hb)
    · exact fin 8 (by omega) (by omega) (fun ds h1 h2 b t hb => .U ds _ b t h1 h2 rfl hb)

theorem stringEnd_plain (src : Src) {i c : Nat} (hc : rd src i = some c) (h1 : c ≠ 34) (h2 : c ≠ 10) (h3 : c ≠ 0)
    (h4 : c ≠ 92) : stringEnd src i = stringEnd src (i + 1) := by
  rw [stringEnd]
  simp only [hc, Option.bind_eq_bind, Option.bind_some]
  rw [if_neg (show ¬ c = ch '"' from h1), if_neg (by simp [h3]; exact h2), if_neg (show ¬ c = ch '\\' from h4)]

theorem stringEnd_hex (src : Src) (ds : List Nat) : ∀ {p : Nat} {s : List Nat}, (∀ c ∈ ds, IsHex c) →
    src.drop p = ds ++ s → stringEnd src p = stringEnd src (p + ds.length) := by
  induction ds with
  | nil => intro p s _ _; rfl
  | cons c ds ih =>
    intro p s hds h
    obtain ⟨hlt, hc, hs⟩ := drop_cons (s := ds ++ s) h
    have := IsHex.ne (hds c (by simp))
    rw [stringEnd_plain src hc this.2.2.1 this.2.1 this.1 this.2.2.2.2,
      ih (fun x hx => hds x (by simp [hx])) hs]
    congr 1
    simp only [List.length_cons]; omega

theorem stringEnd_escape (src : Src) {i d : Nat} (hc : rd src i = some 92) (hd : rd src (i + 1) = some d) (h1 : d ≠ 0)
    (h2 : d ≠ 10) : stringEnd src i = stringEnd src (i + 2) := by
  rw [stringEnd]
  simp only [hc, hd, Option.bind_eq_bind, Option.bind_some]
  rw [if_neg (by decide), if_neg (by decide), if_pos (by decide), if_pos (by simp [h1]; exact h2)]

theorem stringEnd_some (src : Src) (m : Nat) : ∀ (i : Nat), i ≤ src.length → src.length - i = m →
    ∃ e, stringEnd src i = some e := by
  induction m using Nat.strongRecOn with
  | _ m ih =>
    intro i hi hm
    obtain ⟨c, hc⟩ := rd_some src hi
    rw [stringEnd]
    simp only [hc, Option.bind_eq_bind, Option.bind_some]
    split
    · exact ⟨_, rfl⟩
    · split
      · exact ⟨_, rfl⟩
      · rename_i h
        have hlt := rd_lt src hc (by rintro rfl; exact h (by simp))
        split
        · obtain ⟨d, hd⟩ := rd_some src (show i + 1 ≤ src.length by omega)
          rw [hd, Option.bind_some]
          split
          · rename_i h'
            have := rd_lt src hd (by rintro rfl; revert h'; simp)
            exact ih _ (by omega) _ (by omega) rfl
          · exact ih _ (by omega) _ (by omega) rfl
        · exact ih _ (by omega) _ (by omega) rfl

theorem toEndQuote_adv (src : Src) {l : Lx} (h : l.pos ≤ src.length) : ∃ l', toEndQuote src l = some l' ∧ Adv src l l' :=
  skipWhile_adv src _ (by decide) h

/-- The second loop of `scan_string`. -/
theorem stringLoop_cases (src : Src) (m : Nat) : ∀ (l : Lx) (end_ : Nat) (dest : List Nat), l.pos ≤ src.length →
    src.length - l.pos = m → stringEnd src l.pos = some end_ →
    (stringLoop src end_ dest l = none ∧ HexOverrun src) ∨
    (∃ l', stringLoop src end_ dest l = some (l', none) ∧ l.pos ≤ l'.pos ∧ l'.pos ≤ src.length) ∨
    (∃ body bytes rest, Text put put body bytes ∧ src.drop l.pos = body ++ 34 :: rest ∧
      stringLoop src end_ dest l = some (advN src l body.length, some (dest ++ bytes))) := by
  induction m using Nat.strongRecOn with
  | _ m ih =>
    intro l end_ dest hl hm hend
    obtain ⟨c, hc⟩ := rd_some src hl
    have back : ∀ {l1 : Lx} (p : Nat), l1.pos = p + 1 → p ≤ src.length → l.pos ≤ p →
        ∃ l', ((backtrack src l1).bind fun l => (toEndQuote src l).bind fun l =>
          some (l, (none : Option (List Nat)))) = some (l', none) ∧ l.pos ≤ l'.pos ∧ l'.pos ≤ src.length := by
      intro l1 p h1 h2 h3
      obtain ⟨l2, he, hp, _⟩ := backtrack_pos src (l := l1) (by omega) (by omega)
      obtain ⟨l3, he3, ha⟩ := toEndQuote_adv src (show l2.pos ≤ src.length by omega)
      have := ha.le
      exact ⟨l3, by rw [he, Option.bind_some, he3]; rfl, by omega, ha.bound⟩
    by_cases hq : c = 34
    · subst hq
      have hlt := rd_lt src hc (by decide)
      have : end_ = l.pos := by
        rw [stringEnd] at hend
        simp only [hc, Option.bind_eq_bind, Option.bind_some] at hend
        rw [if_pos (by decide)] at hend
        exact (Option.some.inj hend).symm
      subst this
      right; right
      refine ⟨[], [], _, .nil, drop_rd hlt hc, ?_⟩
      rw [stringLoop, if_neg (by omega)]
      simp [advN]
    · have hgt : l.pos < end_ := by
        have key : ∀ (m : Nat) (i e : Nat), src.length - i = m → i ≤ src.length → stringEnd src i = some e → i ≤ e := by
          intro m
          induction m using Nat.strongRecOn with
          | _ m ih =>
            intro i e hm hi he
            obtain ⟨x, hx⟩ := rd_some src hi
            rw [stringEnd] at he
            simp only [hx, Option.bind_eq_bind, Option.bind_some] at he
            split at he
            · simp at he; omega
            · split at he
              · simp at he; omega
              · rename_i h
                have hlt := rd_lt src hx (by rintro rfl; exact h (by simp))
                split at he
                · obtain ⟨d, hd⟩ := rd_some src (show i + 1 ≤ src.length by omega)
                  rw [hd, Option.bind_some] at he
                  split at he
                  · rename_i h'
                    have := rd_lt src hd (by rintro rfl; revert h'; simp)
                    have := ih _ (by omega) _ e rfl (by omega) he
                    omega
                  · have := ih _ (by omega) _ e rfl (by omega) he
                    omega
                · have := ih _ (by omega) _ e rfl (by omega) he
                  omega
        rw [stringEnd] at hend
        simp only [hc, Option.bind_eq_bind, Option.bind_some] at hend
        rw [if_neg (show ¬ c = ch '"' from hq)] at hend
        split at hend
        · simp at hend; omega
        · rename_i h
          have hlt := rd_lt src hc (by rintro rfl; exact h (by simp))
          split at hend
          · obtain ⟨d, hd⟩ := rd_some src (show l.pos + 1 ≤ src.length by omega)
            rw [hd, Option.bind_some] at hend
            split at hend
            · rename_i h'
              have := rd_lt src hd (by rintro rfl; revert h'; simp)
              have := key _ _ _ rfl (by omega) hend
              omega
            · have := key _ _ _ rfl (by omega) hend
              omega
          · have := key _ _ _ rfl (by omega) hend
            omega
      rw [stringLoop, if_pos hgt]
      simp only [peek, hc, Option.bind_eq_bind, Option.bind_some, next_eq src hl]
      by_cases h0 : c = 0
      · rw [if_pos h0]
        exact .inr (.inl (back l.pos (by simp) hl (by omega)))
      · rw [if_neg h0]
        have hlt := rd_lt src hc h0
        by_cases h10 : c = 10
        · rw [if_pos (show c = ch '\n' from h10)]
          exact .inr (.inl (back l.pos (by simp) hl (by omega)))
        · rw [if_neg (show ¬ c = ch '\n' from h10)]
          by_cases hs : c = 92
          · rw [if_pos (show c = ch '\\' from hs)]
            subst hs
            obtain ⟨d, hd⟩ := rd_some src (show l.pos + 1 ≤ src.length by omega)
            simp only [adv1_pos, hd, Option.bind_some]
            by_cases d0 : d = 0
            · rw [if_pos d0]
              obtain ⟨l3, he3, ha⟩ := toEndQuote_adv src (Adv.one hlt).bound
              have := ha.le
              simp at this
              exact .inr (.inl ⟨l3, by rw [he3]; rfl, by omega, ha.bound⟩)
            · rw [if_neg d0]
              by_cases d10 : d = 10
              · rw [if_pos (show d = ch '\n' from d10)]
                exact .inr (.inl (back l.pos (by simp) hl (by omega)))
              · rw [if_neg (show ¬ d = ch '\n' from d10)]
                have hget : src[l.pos]? = some 92 := by rw [← rd_get src hlt, hc]
                have hlt2 := rd_lt src hd d0
                rcases appendEsc_cases src hget hd d0 d10 with ⟨he, hf⟩ | he | ⟨e, s, bytes, he, hdr, ⟨a, r, rfl, hr⟩, ht⟩
                · left; rw [he]; exact ⟨rfl, hf⟩
                · rw [he]
                  obtain ⟨l3, he3, ha⟩ := toEndQuote_adv src (Adv.one hlt).bound
                  have := ha.le
                  simp at this
                  exact .inr (.inl ⟨l3, by rw [Option.bind_some]; dsimp only; rw [he3]; rfl, by omega, ha.bound⟩)
                · rw [he, Option.bind_some]
                  dsimp only
                  have hlen := drop_len (show l.pos + 1 ≤ src.length by omega) hdr
                  simp only [List.length_cons] at hlen
                  rw [skip_eq src _ (by simp; omega), Option.bind_some]
                  have hend2 : stringEnd src (l.pos + 1 + (a :: r).length) = some end_ := by
                    rw [stringEnd_escape src hc hd d0 d10] at hend
                    obtain ⟨_, _, hdr2⟩ := drop_cons (s := r ++ s) hdr
                    rw [stringEnd_hex src r hr hdr2] at hend
                    rw [← hend]; congr 1
                    simp only [List.length_cons]; omega
                  have hrec := ih (src.length - (advN src (adv1 src l) (a :: r).length).pos) (by simp; omega)
                    (advN src (adv1 src l) (a :: r).length) end_ (dest ++ bytes) (by simp; omega) rfl
                    (by simpa using hend2)
                  rcases hrec with h | ⟨l', h1, h2, h3⟩ | ⟨body, bytes', rest, h1, h2, h3⟩
                  · exact .inl h
                  · exact .inr (.inl ⟨l', h1, by simp at h2; omega, h3⟩)
                  · refine .inr (.inr ⟨92 :: ((a :: r) ++ body), bytes ++ bytes', rest, ht _ _ h1, ?_, ?_⟩)
                    · rw [drop_rd hlt hc, hdr]
                      have hs2 := drop_append hdr
                      simp only [advN_pos, adv1_pos] at h2
                      rw [hs2] at h2
                      rw [h2]; simp
                    · rw [h3]
                      simp only [List.length_cons, List.length_append, List.append_assoc]
                      rw [advN_add]
                      rw [show r.length + 1 + body.length + 1 = (r.length + 1 + body.length) + 1 from rfl]
                      rfl
          · rw [if_neg (show ¬ c = ch '\\' from hs)]
            rw [stringEnd_plain src hc hq h10 h0 hs] at hend
            have hrec := ih (src.length - (adv1 src l).pos) (by simp; omega) (adv1 src l) end_ (dest ++ [c])
              (by simp; omega) rfl (by simpa using hend)
            rcases hrec with h | ⟨l', h1, h2, h3⟩ | ⟨body, bytes', rest, h1, h2, h3⟩
            · exact .inl h
            · exact .inr (.inl ⟨l', h1, by simp at h2; omega, h3⟩)
            · refine .inr (.inr ⟨c :: body, c :: bytes', rest, .plain c _ _ (by simp; omega) h1, ?_, ?_⟩)
              · rw [drop_rd hlt hc]
                simp only [adv1_pos] at h2
                rw [h2]; rfl
              · rw [h3]; simp [advN]

theorem escape_ne {e v : Nat} (h : (e, v) ∈ escapes) : e ≠ 0 ∧ e ≠ 10 ∧ v ≠ 120 ∧ v ≠ 117 ∧ v ≠ 85 ∧
    validEscape e = some v := by
  have : ∀ x ∈ escapes, x.1 ≠ 0 ∧ x.1 ≠ 10 ∧ x.2 ≠ 120 ∧ x.2 ≠ 117 ∧ x.2 ≠ 85 ∧ validEscape x.1 = some x.2 := by
    decide
  exact this _ h

/-- One escape, as the first loop and `append_esc_string_token` see it. -/
theorem escape_steps (src : Src) {p : Nat} {ds rest : List Nat} {d e : Nat} {bytes : List Nat} {n : Nat}
    (hs : src.drop p = 92 :: d :: (ds ++ rest)) (hd0 : d ≠ 0) (hd10 : d ≠ 10) (he : validEscape d = some e)
    (hx : ∀ c ∈ ds, IsHex c)
    (hn : (if e = ch 'x' then 2 else if e = ch 'u' then 4 else if e = ch 'U' then 8 else 0) = n)
    (hlen : ds.length = n) (hb : (n = 0 ∧ bytes = [e]) ∨ (n ≠ 0 ∧ bytes = putUtf8 (hexValue ds))) :
    stringEnd src p = stringEnd src (p + (2 + n)) ∧ appendEsc src (p + 1) = some (some (bytes, n + 1)) := by
  obtain ⟨_, h1, hs1⟩ := drop_cons hs
  obtain ⟨_, h2, hs2⟩ := drop_cons hs1
  constructor
  · rw [stringEnd_escape src h1 h2 hd0 hd10, stringEnd_hex src ds hx hs2, hlen]
    congr 1; omega
  · unfold appendEsc
    simp only [h2, Option.bind_eq_bind, Option.bind_some, he, hn]
    rcases hb with ⟨h0, rfl⟩ | ⟨h0, rfl⟩
    · rw [if_pos h0, h0]
    · rw [if_neg h0]
      have := hexAt_digits src ds 0 (p + 1 + 1) rest hx hs2
      rw [hlen] at this
      rw [this]; rfl

theorem noHex {v : Nat} (h1 : v ≠ 120) (h2 : v ≠ 117) (h3 : v ≠ 85) :
    (if v = ch 'x' then 2 else if v = ch 'u' then 4 else if v = ch 'U' then 8 else 0) = 0 := by
  rw [if_neg (show ¬ v = ch 'x' from h1), if_neg (show ¬ v = ch 'u' from h2), if_neg (show ¬ v = ch 'U' from h3)]

theorem stringEnd_text (src : Src) {body bytes : List Nat} (ht : Text put put body bytes) (hz : NoNul body) :
    ∀ (p : Nat) (rest : List Nat), src.drop p = body ++ 34 :: rest → stringEnd src p = some (p + body.length) := by
  induction ht with
  | nil =>
    intro p rest h
    obtain ⟨_, hc, _⟩ := drop_cons (s := rest) h
    rw [stringEnd]
    simp only [hc, Option.bind_eq_bind, Option.bind_some]
    rw [if_pos (by decide)]; rfl
  | plain c s t hc _ ih =>
    intro p rest h
    obtain ⟨_, hrd, hs⟩ := drop_cons (s := s ++ 34 :: rest) h
    simp at hc
    rw [stringEnd_plain src hrd hc.1 hc.2.2 (hz c (by simp)) hc.2.1,
      ih (fun x hx => hz x (by simp [hx])) _ rest hs]
    congr 1
    simp only [List.length_cons]; omega
  | escape e v s t he _ ih =>
    intro p rest h
    obtain ⟨h0, h10, h1, h2, h3, hv⟩ := escape_ne he
    have := escape_steps src (p := p) (ds := []) (rest := s ++ 34 :: rest) (d := e) (e := v) (bytes := [v]) (n := 0) h h0
      h10 hv (by simp) (noHex h1 h2 h3) rfl (.inl ⟨rfl, rfl⟩)
    rw [this.1, ih (fun x hx => hz x (by simp [hx])) (p + (2 + 0)) rest (drop_append (a := [92, e]) h)]
    congr 1
    simp only [List.length_cons]; omega
  | x d b s t hl hd hb _ ih =>
    cases hb
    intro p rest h
    have h' : src.drop p = 92 :: 120 :: (d ++ (s ++ 34 :: rest)) := by simpa using h
    have := escape_steps src (n := 2) h' (by decide) (by decide) (by rfl : validEscape 120 = some 120) hd rfl hl
      (.inr ⟨by decide, rfl⟩)
    have hd2 := drop_append (a := 92 :: 120 :: d) (b := s ++ 34 :: rest) h'
    simp only [List.length_cons, hl] at hd2
    rw [this.1, ih (fun x hx => hz x (by simp [hx])) _ rest (by rw [← hd2])]
    congr 1
    simp only [List.length_cons, List.length_append, hl]; omega
  | u d b s t hl hd hb _ ih =>
    cases hb
    intro p rest h
    have h' : src.drop p = 92 :: 117 :: (d ++ (s ++ 34 :: rest)) := by simpa using h
    have := escape_steps src (n := 4) h' (by decide) (by decide) (by rfl : validEscape 117 = some 117) hd rfl hl
      (.inr ⟨by decide, rfl⟩)
    have hd2 := drop_append (a := 92 :: 117 :: d) (b := s ++ 34 :: rest) h'
    simp only [List.length_cons, hl] at hd2
    rw [this.1, ih (fun x hx => hz x (by simp [hx])) _ rest (by rw [← hd2])]
    congr 1
    simp only [List.length_cons, List.length_append, hl]; omega
  | U d b s t hl hd hb _ ih =>
    cases hb
    intro p rest h
    have h' : src.drop p = 92 :: 85 :: (d ++ (s ++ 34 :: rest)) := by simpa using h
    have := escape_steps src (n := 8) h' (by decide) (by decide) (by rfl : validEscape 85 = some 85) hd rfl hl
      (.inr ⟨by decide, rfl⟩)
    have hd2 := drop_append (a := 92 :: 85 :: d) (b := s ++ 34 :: rest) h'
    simp only [List.length_cons, hl] at hd2
    rw [this.1, ih (fun x hx => hz x (by simp [hx])) _ rest (by rw [← hd2])]
    congr 1
    simp only [List.length_cons, List.length_append, hl]; omega

theorem stringLoop_escape (src : Src) {l : Lx} {end_ d n : Nat} {dest bytes t : List Nat} (hgt : l.pos < end_)
    (hs : src.drop l.pos = 92 :: d :: t) (hd0 : d ≠ 0) (hd10 : d ≠ 10) (hlen : l.pos + (n + 2) ≤ src.length)
    (ha : appendEsc src (l.pos + 1) = some (some (bytes, n + 1))) :
    stringLoop src end_ dest l = stringLoop src end_ (dest ++ bytes) (advN src l (n + 2)) := by
  obtain ⟨hlt, h1, hs1⟩ := drop_cons hs
  obtain ⟨_, h2, hs2⟩ := drop_cons hs1
  rw [stringLoop, if_pos hgt]
  simp only [peek, h1, Option.bind_eq_bind, Option.bind_some, next_eq src (show l.pos ≤ src.length by omega)]
  rw [if_neg (by decide), if_neg (by decide), if_pos (by decide)]
  simp only [adv1_pos, h2, Option.bind_some]
  rw [if_neg hd0, if_neg (show ¬ d = ch '\n' from hd10), ha]
  simp only [Option.bind_some]
  rw [skip_eq src _ (by simp; omega)]
  rfl

theorem stringLoop_text (src : Src) {body bytes : List Nat} (ht : Text put put body bytes) (hz : NoNul body) :
    ∀ (l : Lx) (rest dest : List Nat), l.pos ≤ src.length → src.drop l.pos = body ++ 34 :: rest →
      stringLoop src (l.pos + body.length) dest l = some (advN src l body.length, some (dest ++ bytes)) := by
  induction ht with
  | nil =>
    intro l rest dest _ h
    rw [stringLoop, if_neg (by simp)]
    simp [advN]
  | plain c s t hc _ ih =>
    intro l rest dest hl h
    obtain ⟨hlt, hrd, hs⟩ := drop_cons (s := s ++ 34 :: rest) h
    simp at hc
    rw [stringLoop, if_pos (by simp)]
    simp only [peek, hrd, Option.bind_eq_bind, Option.bind_some, next_eq src hl]
    rw [if_neg (hz c (by simp)), if_neg (show ¬ c = ch '\n' from hc.2.2), if_neg (show ¬ c = ch '\\' from hc.2.1)]
    have := ih (fun x hx => hz x (by simp [hx])) (adv1 src l) rest (dest ++ [c]) (by simp; omega) (by simpa using hs)
    rw [adv1_pos] at this
    rw [show l.pos + (c :: s).length = l.pos + 1 + s.length by simp only [List.length_cons]; omega, this]
    simp [advN]
  | escape e v s t he _ ih =>
    intro l rest dest hl h
    obtain ⟨h0, h10, h1, h2, h3, hv⟩ := escape_ne he
    have := escape_steps src (p := l.pos) (ds := []) (rest := s ++ 34 :: rest) (d := e) (e := v) (bytes := [v]) (n := 0) h
      h0 h10 hv (by simp) (noHex h1 h2 h3) rfl (.inl ⟨rfl, rfl⟩)
    have hlen := drop_len hl (a := [92, e]) h
    simp at hlen
    rw [stringLoop_escape src (by simp) h h0 h10 hlen this.2]
    have hr := ih (fun x hx => hz x (by simp [hx])) (advN src l 2) rest (dest ++ [v]) (by simp; omega)
      (by simpa using drop_append (a := [92, e]) h)
    rw [advN_pos] at hr
    rw [show l.pos + (92 :: e :: s).length = l.pos + 2 + s.length by simp only [List.length_cons]; omega, hr, advN_add]
    simp; congr 1; omega
  | x d b s t hlx hd hb _ ih =>
    cases hb
    intro l rest dest hl h
    have h' : src.drop l.pos = 92 :: 120 :: (d ++ (s ++ 34 :: rest)) := by simpa using h
    have := escape_steps src (n := 2) h' (by decide) (by decide) (by rfl : validEscape 120 = some 120) hd rfl hlx
      (.inr ⟨by decide, rfl⟩)
    have hlen := drop_len hl (a := 92 :: 120 :: d) (b := s ++ 34 :: rest) h'
    have hdr := drop_append (a := 92 :: 120 :: d) (b := s ++ 34 :: rest) h'
    simp [hlx] at hlen hdr
    rw [stringLoop_escape src (by simp) h' (by decide) (by decide) hlen this.2]
    have hr := ih (fun x hx => hz x (by simp [hx])) (advN src l (2 + 2)) rest (dest ++ putUtf8 (hexValue d))
      (by simp; omega) (by simpa using hdr)
    rw [advN_pos] at hr
    rw [show l.pos + (92 :: 120 :: (d ++ s)).length = l.pos + (2 + 2) + s.length by
      simp only [List.length_cons, List.length_append, hlx]; omega, hr, advN_add]
    simp [hlx]; congr 1; omega
  | u d b s t hlx hd hb _ ih =>
    cases hb
    intro l rest dest hl h
    have h' : src.drop l.pos = 92 :: 117 :: (d ++ (s ++ 34 :: rest)) := by simpa using h
    have := escape_steps src (n := 4) h' (by decide) (by decide) (by rfl : validEscape 117 = some 117) hd rfl hlx
      (.inr ⟨by decide, rfl⟩)
    have hlen := drop_len hl (a := 92 :: 117 :: d) (b := s ++ 34 :: rest) h'
    have hdr := drop_append (a := 92 :: 117 :: d) (b := s ++ 34 :: rest) h'
    simp [hlx] at hlen hdr
    rw [stringLoop_escape src (by simp) h' (by decide) (by decide) hlen this.2]
    have hr := ih (fun x hx => hz x (by simp [hx])) (advN src l (4 + 2)) rest (dest ++ putUtf8 (hexValue d))
      (by simp; omega) (by simpa using hdr)
    rw [advN_pos] at hr
    rw [show l.pos + (92 :: 117 :: (d ++ s)).length = l.pos + (4 + 2) + s.length by
      simp only [List.length_cons, List.length_append, hlx]; omega, hr, advN_add]
    simp [hlx]; congr 1; omega
  | U d b s t hlx hd hb _ ih =>
    cases hb
    intro l rest dest hl h
    have h' : src.drop l.pos = 92 :: 85 :: (d ++ (s ++ 34 :: rest)) := by simpa using h
    have := escape_steps src (n := 8) h' (by decide) (by decide) (by rfl : validEscape 85 = some 85) hd rfl hlx
      (.inr ⟨by decide, rfl⟩)
    have hlen := drop_len hl (a := 92 :: 85 :: d) (b := s ++ 34 :: rest) h'
    have hdr := drop_append (a := 92 :: 85 :: d) (b := s ++ 34 :: rest) h'
    simp [hlx] at hlen hdr
    rw [stringLoop_escape src (by simp) h' (by decide) (by decide) hlen this.2]
    have hr := ih (fun x hx => hz x (by simp [hx])) (advN src l (8 + 2)) rest (dest ++ putUtf8 (hexValue d))
      (by simp; omega) (by simpa using hdr)
    rw [advN_pos] at hr
    rw [show l.pos + (92 :: 85 :: (d ++ s)).length = l.pos + (8 + 2) + s.length by
      simp only [List.length_cons, List.length_append, hlx]; omega, hr, advN_add]
    simp [hlx]; congr 1; omega

/-- `scan_string` after the opening quote. -/
theorem scanString_cases (src : Src) {l : Lx} (hl : l.pos ≤ src.length) :
    (scanString src l = none ∧ HexOverrun src) ∨
    (∃ l', scanString src l = some (l', none) ∧ l.pos ≤ l'.pos ∧ l'.pos ≤ src.length) ∨
    (∃ body bytes rest, Text put put body bytes ∧ src.drop l.pos = body ++ 34 :: rest ∧
      scanString src l = some (advN src l (body.length + 1), some (.string bytes))) := by
  obtain ⟨e, he⟩ := stringEnd_some src _ l.pos hl rfl
  unfold scanString
  rw [he]
  simp only [Option.bind_eq_bind, Option.bind_some]
  rcases stringLoop_cases src _ l e [] hl rfl he with ⟨h, hf⟩ | ⟨l', h, h1, h2⟩ | ⟨body, bytes, rest, h1, h2, h3⟩
  · left; rw [h]; exact ⟨rfl, hf⟩
  · right; left; rw [h]; exact ⟨l', rfl, h1, h2⟩
  · right; right
    refine ⟨body, bytes, rest, h1, h2, ?_⟩
    have := drop_len hl h2
    rw [h3, Option.bind_some]
    dsimp only
    rw [next_eq src (by simpa using this)]
    simp [advN_adv1]

theorem scanString_text (src : Src) {l : Lx} (hl : l.pos ≤ src.length) {body bytes rest : List Nat}
    (ht : Text put put body bytes) (hz : NoNul body) (hs : src.drop l.pos = body ++ 34 :: rest) :
    scanString src l = some (advN src l (body.length + 1), some (.string bytes)) := by
  unfold scanString
  rw [stringEnd_text src ht hz _ rest hs]
  simp only [Option.bind_eq_bind, Option.bind_some]
  rw [stringLoop_text src ht hz l rest [] hl hs, Option.bind_some]
  dsimp only
  have := drop_len hl hs
  rw [next_eq src (by simpa using this)]
  simp [advN_adv1]

end C3.Lexer
