import Verif.Lexer.LemmasBlank

/-! # Every scan stays inside the text -/

set_option autoImplicit false

namespace C3.Lexer

open Spec (HexOverrun NoQuote OpenChar OpenRaw RawText IsHex)

/-- A scan from `l` that succeeds moves forward inside the text.  One that fails ends at `lo` or later, inside the text or,
if `over` holds, one behind the NUL.  It breaks off only if `fault` holds. -/
def Res {α : Type} (src : Src) (lo : Nat) (over fault : Prop) (l : Lx) (x : Option (Lx × Option α)) : Prop :=
  (x = none ∧ fault) ∨
  ∃ l' r, x = some (l', r) ∧ lo ≤ l'.pos ∧ (r.isSome = true → Adv src l l') ∧
    (l'.pos ≤ src.length ∨ (r = none ∧ l'.pos = src.length + 1 ∧ over))

section
variable {α β : Type} {src : Src} {lo : Nat} {over fault : Prop} {l : Lx}

theorem Res.ret {a : α} {l' : Lx} (h : Adv src l l') (hlo : lo ≤ l.pos) : Res src lo over fault l (some (l', some a)) :=
  .inr ⟨l', some a, rfl, by have := h.le; omega, fun _ => h, .inl h.bound⟩

theorem Res.err {l' : Lx} (hlo : lo ≤ l'.pos) (h : l'.pos ≤ src.length) :
    Res src lo over fault l (some (l', (none : Option α))) :=
  .inr ⟨l', none, rfl, hlo, by simp, .inl h⟩

theorem Res.adv {l1 : Lx} {x : Option (Lx × Option α)} (h : Adv src l l1) (hx : Res src lo over fault l1 x) :
    Res src lo over fault l x := by
  rcases hx with hx | ⟨l', r, hx, h1, h2, h3⟩
  · exact .inl hx
  · exact .inr ⟨l', r, hx, h1, fun hr => h.trans (h2 hr), h3⟩

theorem Res.mono {over' fault' : Prop} {x : Option (Lx × Option α)} (hx : Res src lo over fault l x)
    (ho : over → over') (hf : fault → fault') : Res src lo over' fault' l x := by
  rcases hx with ⟨hx, h⟩ | ⟨l', r, hx, h1, h2, h3⟩
  · exact .inl ⟨hx, hf h⟩
  · refine .inr ⟨l', r, hx, h1, h2, ?_⟩
    rcases h3 with h3 | ⟨h3, h4, h5⟩
    · exact .inl h3
    · exact .inr ⟨h3, h4, ho h5⟩

theorem Res.bind {x : Option (Lx × Option α)} {f : Lx × Option α → Option (Lx × Option β)}
    (hx : Res src lo over fault l x)
    (hnone : ∀ l', f (l', none) = some (l', none))
    (hsome : ∀ l' a, Adv src l l' → lo ≤ l'.pos → x = some (l', some a) → Res src lo over fault l' (f (l', some a))) :
    Res src lo over fault l (x.bind f) := by
  rcases hx with ⟨hx, h⟩ | ⟨l', r, hx, h1, h2, h3⟩
  · exact .inl ⟨by rw [hx]; rfl, h⟩
  · rw [hx, Option.bind_some]
    cases r with
    | none => rw [hnone]; exact .inr ⟨l', none, rfl, h1, by simp, by
        rcases h3 with h3 | ⟨_, h4, h5⟩
        · exact .inl h3
        · exact .inr ⟨rfl, h4, h5⟩⟩
    | some a => exact .adv (h2 rfl) (hsome l' a (h2 rfl) h1 hx)

end

/-! ## Names -/

theorem not_class_zero : isLower 0 = false ∧ isUpper 0 = false ∧ isDigit 0 = false ∧ isAlphanum_ 0 = false ∧
    isHex 0 = false ∧ isOct 0 = false ∧ isBinary 0 = false ∧ isLetter 0 = false ∧ isLetter_ 0 = false ∧
    isBase64 0 = false := by decide

theorem ne_zero_of {p : Nat → Bool} (h0 : p 0 = false) {c : Nat} (h : p c = true) : c ≠ 0 := by
  rintro rfl; rw [h0] at h; cases h

theorem identLoop_res (src : Src) (lo : Nat) (m : Nat) : ∀ (kind : Option Kind) (l : Lx), l.pos ≤ src.length →
    src.length - l.pos = m → lo ≤ l.pos → Res src lo False False l (identLoop src kind l) := by
  induction m using Nat.strongRecOn with
  | _ m ih =>
    intro kind l hl hm hlo
    obtain ⟨c, hc⟩ := rd_some src hl
    rw [identLoop]
    simp only [peek, hc, Option.bind_eq_bind, Option.bind_some]
    have step : c ≠ 0 → ∀ kind, Res src lo False False l ((next src l).bind fun l => identLoop src kind l) := by
      intro h0 kind
      have hlt := rd_lt src hc h0
      rw [next_eq src hl, Option.bind_some]
      exact .adv (Adv.one hlt) (ih _ (by simp; omega) kind _ (by simp; omega) rfl (by simp; omega))
    split
    · rename_i h; exact step (ne_zero_of not_class_zero.1 h) _
    · split
      · rename_i h; exact step (ne_zero_of not_class_zero.2.1 h) _
      · split
        · exact .err hlo hl
        · split
          · rename_i h
            refine step ?_ _
            rintro rfl; revert h; decide
          · exact .ret (Adv.refl hl) hlo

theorem scanIdent_res (src : Src) (keyword : List Nat → Bool) (pre : Nat) {lo : Nat} {l : Lx} (hl : l.pos ≤ src.length)
    (hlo : lo ≤ l.pos) : Res src lo False False l (scanIdent src keyword pre l) := by
  obtain ⟨l1, he, ha⟩ := skipWhile_adv src (fun c => c = ch '_') (by decide) hl
  unfold scanIdent
  rw [he]
  simp only [Option.bind_eq_bind, Option.bind_some]
  have hlo1 : lo ≤ l1.pos := by have := ha.le; omega
  refine .adv ha ((identLoop_res src lo _ none l1 ha.bound rfl hlo1).bind (fun _ => rfl) ?_)
  intro l2 r ha2 hlo2 _
  have hb := ha2.bound
  cases r with
  | none =>
    dsimp only
    split
    · exact .ret (Adv.refl hb) hlo2
    · exact .err hlo2 hb
  | some k =>
    dsimp only
    split
    · split <;> exact .ret (Adv.refl hb) hlo2
    · exact .ret (Adv.refl hb) hlo2

/-! ## Numbers -/

theorem suffixEnd_res (src : Src) (isFloat : Bool) {lo c : Nat} {l : Lx} (hc : rd src l.pos = some c) (hlo : lo ≤ l.pos) :
    Res src lo False False l (suffixEnd src isFloat c l) := by
  have hl := rd_le src hc
  unfold suffixEnd
  split
  · rename_i h
    have hlt := rd_lt src hc (ne_zero_of not_class_zero.2.2.2.1 h)
    simp only [next_eq src hl, Option.bind_eq_bind, Option.bind_some]
    exact .err (by simp; omega) (by simp; omega)
  · exact .ret (Adv.refl hl) hlo

theorem or32_ne {c x : Nat} (h : c ||| 32 = x) (hx : x ≠ 32) : c ≠ 0 := by
  rintro rfl; simp at h; omega

theorem numberSuffix_res (src : Src) (isFloat : Bool) {lo : Nat} {l : Lx} (hl : l.pos ≤ src.length) (hlo : lo ≤ l.pos)
    (h1 : 1 ≤ lo) (hprev : rd src (lo - 1) ≠ some (ch '_')) :
    Res src lo False False l (numberSuffix src isFloat l) := by
  unfold numberSuffix
  obtain ⟨b, hb⟩ := rd_some src (show l.pos - 1 ≤ src.length by omega)
  obtain ⟨c, hc⟩ := rd_some src hl
  rw [if_neg (by omega)]
  simp only [peek, hb, hc, Option.bind_eq_bind, Option.bind_some]
  split
  · rename_i e
    obtain ⟨l', he, hp, _⟩ := backtrack_pos src (l := l) (by omega) (by omega)
    rw [he, Option.bind_some]
    refine .err ?_ (by omega)
    rcases Nat.lt_or_ge lo l.pos with h | h
    · omega
    · have : l.pos = lo := by omega
      rw [this, e] at hb
      exact absurd hb hprev
  · split
    · exact .ret (Adv.refl hl) hlo
    · rename_i hal
      have hlt : l.pos < src.length := rd_lt src hc (by rintro rfl; exact hal (by decide))
      have digits : ∀ (f : Bool) {l1 : Lx}, Adv src l l1 → Res src lo False False l
          ((skipWhile src isDigit l1).bind fun l => (rd src l.pos).bind fun c => suffixEnd src f c l) := by
        intro f l1 ha
        obtain ⟨l2, he, ha2⟩ := skipWhile_adv src isDigit (by decide) ha.bound
        obtain ⟨c, hc⟩ := rd_some src ha2.bound
        rw [he, Option.bind_some, hc, Option.bind_some]
        have := (ha.trans ha2).le
        exact .adv (ha.trans ha2) (suffixEnd_res src f hc (by omega))
      have ha1 := Adv.one hlt
      obtain ⟨d, hd⟩ := rd_some src ha1.bound
      split
      · rw [next_eq src hl, Option.bind_some, hd, Option.bind_some]
        split
        · exact .err (by simp; omega) ha1.bound
        · exact .adv ha1 (suffixEnd_res src _ hd (by simp; omega))
      · split
        · split
          · exact .err hlo hl
          · rw [next_eq src hl, Option.bind_some, hd, Option.bind_some]
            split
            · rename_i hdl
              have hlt2 := rd_lt src hd (or32_ne hdl (by decide))
              obtain ⟨e, he⟩ := rd_some src (show (adv1 src (adv1 src l)).pos ≤ src.length by simp at hlt2 ⊢; omega)
              rw [next_eq src ha1.bound, Option.bind_some, he, Option.bind_some]
              exact .adv (ha1.trans (Adv.one hlt2)) (suffixEnd_res src _ he (by simp; omega))
            · exact digits _ ha1
        · split
          · split
            · exact .err hlo hl
            · rw [next_eq src hl, Option.bind_some]
              exact digits _ ha1
          · split
            · rw [next_eq src hl, Option.bind_some]
              exact digits _ ha1
            · exact suffixEnd_res src _ hc hlo

theorem digitLoop_eq (src : Src) (p : Nat → Bool) (h0 : p 0 = false) (m : Nat) : ∀ (l : Lx), l.pos ≤ src.length →
    src.length - l.pos = m → ∃ l' b, digitLoop src p l = some (l', b) ∧ Adv src l l' := by
  induction m using Nat.strongRecOn with
  | _ m ih =>
    intro l hl hm
    obtain ⟨c, hc⟩ := rd_some src hl
    rw [digitLoop]
    simp only [peek, hc, Option.bind_eq_bind, Option.bind_some]
    split
    · rename_i h
      have hlt := rd_lt src hc (ne_zero_of h0 h)
      obtain ⟨d, hd⟩ := rd_some src (Adv.one hlt).bound
      rw [next_eq src hl, Option.bind_some, hd, Option.bind_some]
      split
      · exact ⟨_, _, rfl, Adv.one hlt⟩
      · obtain ⟨l', b, he, ha⟩ := ih _ (by simp; omega) (adv1 src l) (by simp; omega) rfl
        exact ⟨l', b, he, (Adv.one hlt).trans ha⟩
    · exact ⟨_, _, rfl, Adv.refl hl⟩

theorem scanBased_res (src : Src) (p : Nat → Bool) (h0 : p 0 = false) {lo : Nat} {l : Lx} (hl : l.pos ≤ src.length)
    (hlo : lo ≤ l.pos) (h1 : 1 ≤ lo) (hprev : rd src (lo - 1) ≠ some (ch '_')) :
    Res src lo False False l (scanBased src p l) := by
  unfold scanBased
  obtain ⟨c, hc⟩ := rd_some src hl
  simp only [peek, hc, Option.bind_eq_bind, Option.bind_some]
  split
  · exact .err hlo hl
  · rename_i h
    have hlt := rd_lt src hc (ne_zero_of h0 (by simpa using h))
    obtain ⟨l2, b, he, ha2⟩ := digitLoop_eq src (fun c => p c || c = ch '_') (by simp [h0]; decide) _ (adv1 src l)
      (Adv.one hlt).bound rfl
    rw [next_eq src hl, Option.bind_some, he, Option.bind_some]
    have ha := (Adv.one hlt).trans ha2
    have := ha.le
    have hb := ha.bound
    dsimp only
    split
    · exact .err (by omega) hb
    · obtain ⟨d, hd⟩ := rd_some src hb
      rw [hd, Option.bind_some]
      split
      · exact .err (by omega) hb
      · refine .adv ha ((numberSuffix_res src false hb (by omega) h1 hprev).bind (fun _ => rfl) ?_)
        intro l3 f ha3 hlo3 _
        dsimp only
        split
        · exact .err hlo3 ha3.bound
        · exact .ret (Adv.refl ha3.bound) hlo3

theorem scanExponent_eq (src : Src) {l : Lx} (hl : l.pos < src.length) :
    ∃ l' b, scanExponent src l = some (l', b) ∧ l.pos ≤ l'.pos ∧ l'.pos ≤ src.length ∧ (b = true → Adv src l l') := by
  unfold scanExponent
  have ha := Adv.one hl
  obtain ⟨c, hc⟩ := rd_some src ha.bound
  rw [next_eq src (by omega)]
  simp only [peek, Option.bind_eq_bind, Option.bind_some, hc, next_eq src ha.bound]
  have fin : ∀ (c : Nat) (l1 : Lx), Adv src l l1 → rd src l1.pos = some c →
      ∃ l' b, (if (!isDigit c) = true then
          if c = 0 then (backtrack src (adv1 src l1)).bind fun l => some (l, false) else some (adv1 src l1, false)
        else (skipWhile src isDigit (adv1 src l1)).bind fun l => some (l, true)) = some (l', b) ∧
        l.pos ≤ l'.pos ∧ l'.pos ≤ src.length ∧ (b = true → Adv src l l') := by
    intro c l1 ha1 hc1
    have := ha1.le
    have hb1 := ha1.bound
    split
    · split
      · rename_i h0
        have hrd : rd src l1.pos ≠ some (ch '\n') := by rw [hc1, h0]; decide
        rw [backtrack_adv1 src hb1 hrd]
        exact ⟨l1, false, rfl, this, hb1, by simp⟩
      · rename_i h0
        have := rd_lt src hc1 h0
        exact ⟨_, false, rfl, by simp; omega, by simp; omega, by simp⟩
    · rename_i hd
      have hlt := rd_lt src hc1 (ne_zero_of not_class_zero.2.2.1 (by simpa using hd))
      obtain ⟨l2, he, ha2⟩ := skipWhile_adv src isDigit (by decide) (Adv.one hlt).bound
      have ha3 := (ha1.trans (Adv.one hlt)).trans ha2
      exact ⟨l2, true, by rw [he]; rfl, ha3.le, ha3.bound, fun _ => ha3⟩
  split
  · rename_i e
    have hlt : (adv1 src l).pos < src.length := rd_lt src hc (by rintro rfl; revert e; decide)
    have ha2 := Adv.one hlt
    obtain ⟨d, hd⟩ := rd_some src ha2.bound
    simp only [hd, Option.bind_some, next_eq src ha2.bound]
    exact fin d _ (ha.trans ha2) hd
  · exact fin c _ ha hc

theorem numberEnd_res (src : Src) (e1 e2 : Nat) (he1 : e1 ≠ 0) (he2 : e2 ≠ 0) (isFloat : Bool) {lo : Nat} {l : Lx}
    (hl : l.pos ≤ src.length) (hlo : lo ≤ l.pos) (h1 : 1 ≤ lo) (hprev : rd src (lo - 1) ≠ some (ch '_')) :
    Res src lo False False l (numberEnd src e1 e2 isFloat l) := by
  unfold numberEnd
  obtain ⟨c, hc⟩ := rd_some src hl
  simp only [peek, hc, Option.bind_eq_bind, Option.bind_some]
  have fin : ∀ (f : Bool) (l1 : Lx), Adv src l l1 → Res src lo False False l
      ((numberSuffix src f l1).bind fun x => match x.2 with
        | none => some (x.1, none)
        | some isFloat => some (x.1, some (if isFloat = true then Tok.real else Tok.integer))) := by
    intro f l1 ha
    have := ha.le
    refine .adv ha ((numberSuffix_res src f ha.bound (by omega) h1 hprev).bind (fun _ => rfl) ?_)
    intro l3 f ha3 hlo3 _
    exact .ret (Adv.refl ha3.bound) hlo3
  split
  · rename_i e
    have hlt : l.pos < src.length := rd_lt src hc (by rintro rfl; simp at e; omega)
    obtain ⟨l', b, he, h2, h3, h4⟩ := scanExponent_eq src hlt
    simp only [he, Option.bind_some]
    cases b with
    | false => exact .err (by omega) h3
    | true => exact fin true l' (h4 rfl)
  · exact fin isFloat l (Adv.refl hl)

theorem peekPair_some (src : Src) {l : Lx} (c : Nat) (hc : c ≠ 0) (p : Nat → Bool) (hl : l.pos ≤ src.length) :
    ∃ b, peekPair src l c p = some b ∧ (b = true → l.pos < src.length ∧ rd src l.pos = some c) := by
  unfold peekPair peek peekNext
  obtain ⟨d, hd⟩ := rd_some src hl
  simp only [hd, Option.bind_eq_bind, Option.bind_some]
  split
  · rename_i e
    have hlt := rd_lt src hd (by omega)
    obtain ⟨x, hx⟩ := rd_some src (show l.pos + 1 ≤ src.length by omega)
    rw [hx]
    exact ⟨p x, rfl, fun _ => ⟨hlt, by rw [e]⟩⟩
  · exact ⟨false, rfl, by simp⟩

theorem scanHex_res (src : Src) {lo : Nat} {l : Lx} (hl : l.pos ≤ src.length) (hlo : lo ≤ l.pos) (h1 : 1 ≤ lo)
    (hprev : rd src (lo - 1) ≠ some (ch '_')) : Res src lo False False l (scanHex src l) := by
  unfold scanHex
  obtain ⟨c, hc⟩ := rd_some src hl
  simp only [peek, hc, Option.bind_eq_bind, Option.bind_some]
  split
  · exact .err hlo hl
  · rename_i h
    have hlt := rd_lt src hc (ne_zero_of not_class_zero.2.2.2.2.1 (by simpa using h))
    obtain ⟨l2, b, he, ha2⟩ := digitLoop_eq src (fun c => isHex c || c = ch '_') (by decide) _ (adv1 src l)
      (Adv.one hlt).bound rfl
    rw [next_eq src hl, Option.bind_some, he, Option.bind_some]
    have ha := (Adv.one hlt).trans ha2
    have := ha.le
    have hb := ha.bound
    dsimp only
    split
    · exact .err (by omega) hb
    · obtain ⟨dot, hdot, hd⟩ := peekPair_some src (ch '.') (by decide) (fun d => d ≠ ch '.') hb
      rw [hdot, Option.bind_some]
      split
      · rename_i e
        have hlt2 := (hd e).1
        have ha3 := ha.trans (Adv.one hlt2)
        obtain ⟨x, hx⟩ := rd_some src ha3.bound
        rw [next_eq src hb, Option.bind_some, hx, Option.bind_some]
        split
        · exact .err (by simp; omega) ha3.bound
        · have fin : ∀ l4, Adv src l l4 → Res src lo False False l
              ((digitLoop src (fun c => isHex c || decide (c = ch '_')) l4).bind fun x =>
                if (!x.2) = true then some (x.1, none) else numberEnd src (ch 'p') (ch 'P') true x.1) := by
            intro l4 ha4
            obtain ⟨l5, b, he5, ha5⟩ := digitLoop_eq src (fun c => isHex c || c = ch '_') (by decide) _ l4 ha4.bound rfl
            rw [he5, Option.bind_some]
            have hle := (ha4.trans ha5).le
            dsimp only
            split
            · exact .err (by omega) ha5.bound
            · exact .adv (ha4.trans ha5) (numberEnd_res src _ _ (by decide) (by decide) _ ha5.bound (by omega) h1 hprev)
          split
          · rename_i hx'
            have hlt3 := rd_lt src hx (ne_zero_of not_class_zero.2.2.2.2.1 hx')
            rw [next_eq src ha3.bound, Option.bind_some]
            exact fin _ (ha3.trans (Adv.one hlt3))
          · exact fin _ ha3
      · exact .adv ha (numberEnd_res src _ _ (by decide) (by decide) _ hb (by omega) h1 hprev)

theorem digitLoop_first (src : Src) (p : Nat → Bool) (h0 : p 0 = false) {l : Lx} {c : Nat} (hc : rd src l.pos = some c)
    (hp : p c = true) : ∃ l' b, digitLoop src p l = some (l', b) ∧ Adv src l l' ∧ l.pos < l'.pos := by
  have hl := rd_le src hc
  have hlt := rd_lt src hc (ne_zero_of h0 hp)
  rw [digitLoop]
  obtain ⟨d, hd⟩ := rd_some src (Adv.one hlt).bound
  simp only [peek, hc, Option.bind_eq_bind, Option.bind_some, hp, if_true, next_eq src hl, hd]
  split
  · exact ⟨_, _, rfl, Adv.one hlt, by simp⟩
  · obtain ⟨l', b, he, ha⟩ := digitLoop_eq src p h0 _ (adv1 src l) (Adv.one hlt).bound rfl
    exact ⟨l', b, he, (Adv.one hlt).trans ha, by have := ha.le; simp at this; omega⟩

theorem scanDec_res (src : Src) {l : Lx} {c : Nat} (hc : rd src l.pos = some c) (hd : isDigit c = true) :
    Res src (l.pos + 1) False False l (scanDec src l) := by
  have hl := rd_le src hc
  have hprev : rd src (l.pos + 1 - 1) ≠ some (ch '_') := by
    rw [Nat.add_sub_cancel, hc]; intro e
    have := Option.some.inj e
    subst this; revert hd; decide
  unfold scanDec
  simp only [peek, hc, Option.bind_eq_bind, Option.bind_some, hd]
  rw [if_neg (by simp)]
  obtain ⟨l2, b, he, ha, hgt⟩ := digitLoop_first src (fun c => isDigit c || c = ch '_') (by decide) hc (by simp [hd])
  rw [he, Option.bind_some]
  have hb := ha.bound
  dsimp only
  split
  · exact .err (by omega) hb
  · obtain ⟨dot, hdot, hd⟩ := peekPair_some src (ch '.') (by decide) (fun d => d ≠ ch '.') hb
    rw [hdot, Option.bind_some]
    split
    · rename_i e
      have hlt2 := (hd e).1
      have ha3 := ha.trans (Adv.one hlt2)
      obtain ⟨x, hx⟩ := rd_some src ha3.bound
      rw [next_eq src hb, Option.bind_some, hx, Option.bind_some]
      split
      · exact .err (by simp; omega) ha3.bound
      · obtain ⟨l5, b, he5, ha5⟩ := digitLoop_eq src (fun c => isDigit c || c = ch '_') (by decide) _ _ ha3.bound rfl
        rw [he5, Option.bind_some]
        have hle := ha5.le
        simp at hle
        dsimp only
        split
        · exact .err (by omega) ha5.bound
        · exact .adv (ha3.trans ha5) (numberEnd_res src _ _ (by decide) (by decide) _ ha5.bound (by omega) (by omega) hprev)
    · exact .adv ha (numberEnd_res src _ _ (by decide) (by decide) _ hb (by omega) (by omega) hprev)

theorem scanDigit_res (src : Src) {l : Lx} {c : Nat} (hc : rd src l.pos = some c) (hd : isDigit c = true) :
    Res src (l.pos + 1) False False l (scanDigit src l) := by
  have hl := rd_le src hc
  have hlt := rd_lt src hc (ne_zero_of not_class_zero.2.2.1 hd)
  have hprev : rd src (l.pos + 1 - 1) ≠ some (ch '_') := by
    rw [Nat.add_sub_cancel, hc]; intro e
    have := Option.some.inj e
    subst this; revert hd; decide
  unfold scanDigit
  simp only [peek, peekNext, hc, Option.bind_eq_bind, Option.bind_some]
  split
  · obtain ⟨d, hd'⟩ := rd_some src (show l.pos + 1 ≤ src.length by omega)
    rw [hd', Option.bind_some]
    have two : d ≠ 0 → skip src l 2 = some (advN src l 2) ∧ Adv src l (advN src l 2) := by
      intro h0
      have := rd_lt src hd' h0
      exact ⟨skip_eq src 2 (by omega), ⟨2, by omega, rfl⟩⟩
    split
    · rename_i e
      obtain ⟨he, ha⟩ := two (by rintro rfl; revert e; decide)
      rw [he, Option.bind_some]
      exact .adv ha (scanHex_res src ha.bound (by simp) (by omega) hprev)
    · split
      · rename_i e
        obtain ⟨he, ha⟩ := two (by rintro rfl; revert e; decide)
        rw [he, Option.bind_some]
        exact .adv ha (scanBased_res src _ (by decide) ha.bound (by simp) (by omega) hprev)
      · split
        · rename_i e
          obtain ⟨he, ha⟩ := two (by rintro rfl; revert e; decide)
          rw [he, Option.bind_some]
          exact .adv ha (scanBased_res src _ (by decide) ha.bound (by simp) (by omega) hprev)
        · exact scanDec_res src hc hd
  · exact scanDec_res src hc hd

end C3.Lexer
