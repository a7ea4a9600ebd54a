import Verif.Lexer.LemmasRaw

/-! # Tokens -/

set_option autoImplicit false

namespace C3.Lexer

open Spec (RawText Raw HexOverrun NoQuote OpenChar OpenRaw Gap NoGap Located)

/-- A scan of a name from its first character passes that character. -/
theorem scanIdent_first (src : Src) (keyword : List Nat → Bool) (pre : Nat) {l : Lx} {c : Nat} (hc : rd src l.pos = some c)
    (h : isLetter_ c = true) : Res src (l.pos + 1) False False l (scanIdent src keyword pre l) := by
  have hl := rd_le src hc
  have hlt := rd_lt src hc (ne_zero_of not_class_zero.2.2.2.2.2.2.2.2.1 h)
  by_cases e : c = 95
  · have : scanIdent src keyword pre l = scanIdent src keyword pre (adv1 src l) := by
      unfold scanIdent
      rw [skipWhile]
      simp only [peek, hc, Option.bind_eq_bind, Option.bind_some]
      rw [if_pos (by simp [e, ch]), next_eq src hl, Option.bind_some]
    rw [this]
    exact .adv (Adv.one hlt) (scanIdent_res src keyword pre (by simp; omega) (by simp))
  · have : scanIdent src keyword pre l = scanIdent src keyword pre l := rfl
    unfold scanIdent
    have hs : skipWhile src (fun c => c = ch '_') l = some l := by
      rw [skipWhile]
      simp only [peek, hc, Option.bind_eq_bind, Option.bind_some]
      rw [if_neg]
      simpa using (show ¬ c = ch '_' from e)
    rw [hs]
    simp only [Option.bind_eq_bind, Option.bind_some]
    have hi : Res src (l.pos + 1) False False l (identLoop src none l) := by
      rw [identLoop]
      simp only [peek, hc, Option.bind_eq_bind, Option.bind_some, next_eq src hl]
      simp only [isLetter_, isLetter, Bool.or_eq_true, decide_eq_true_eq] at h
      split
      · exact .adv (Adv.one hlt) (identLoop_res src _ _ _ _ (by simp; omega) rfl (by simp))
      · split
        · exact .adv (Adv.one hlt) (identLoop_res src _ _ _ _ (by simp; omega) rfl (by simp))
        · exfalso
          rcases h with (h | h) | h
          · simp_all
          · simp_all
          · exact e h
    refine hi.bind (fun _ => rfl) ?_
    intro l' a ha hlo _
    have hr : ∀ t : Tok, Res src (l.pos + 1) False False l' (some (l', some t)) :=
      fun t => .ret (Adv.refl ha.bound) hlo
    cases a with
    | none =>
      dsimp only
      split
      · exact hr _
      · exact .err hlo ha.bound
    | some k =>
      dsimp only
      split
      · split
        · exact hr _
        · exact hr _
      · exact hr _

/-- `l'` is `l` moved forward, possibly into or out of a contract. -/
def Fwd (src : Src) (l l' : Lx) : Prop := ∃ b, Adv src { l with contracts := b } l'

theorem adv_mode {src : Src} {l l' : Lx} (h : Adv src l l') (b : Bool) :
    Adv src { l with contracts := b } { l' with contracts := b } := by
  obtain ⟨k, hk, rfl⟩ := h
  refine ⟨k, hk, ?_⟩
  clear hk
  induction k generalizing l with
  | zero => rfl
  | succ k ih =>
    have : adv1 src { l with contracts := b } = { adv1 src l with contracts := b } := by
      unfold adv1; dsimp only; split <;> rfl
    simp only [advN, this, ih]

theorem Adv.fwd {src : Src} {l l' : Lx} (h : Adv src l l') : Fwd src l l' := ⟨l.contracts, h⟩

theorem Fwd.le {src : Src} {a b : Lx} (h : Fwd src a b) : a.pos ≤ b.pos := by
  obtain ⟨m, h⟩ := h; exact h.le
theorem Fwd.bound {src : Src} {a b : Lx} (h : Fwd src a b) : b.pos ≤ src.length := by
  obtain ⟨m, h⟩ := h; exact h.bound
theorem Fwd.start {src : Src} {a b : Lx} (h : Fwd src a b) : b.start = a.start := by
  obtain ⟨m, h⟩ := h; exact h.start
theorem Fwd.startRow {src : Src} {a b : Lx} (h : Fwd src a b) : b.startRow = a.startRow := by
  obtain ⟨m, k, _, rfl⟩ := h; simp
theorem Fwd.startRowStart {src : Src} {a b : Lx} (h : Fwd src a b) : b.startRowStart = a.startRowStart := by
  obtain ⟨m, k, _, rfl⟩ := h; simp
theorem Fwd.located {src : Src} {l l' : Lx} (h : Fwd src l l') (hl : Located src l) : Located src l' := by
  obtain ⟨m, h⟩ := h; exact h.located hl

/-- `Res` for whole tokens. -/
def TokRes (src : Src) (lo : Nat) (over fault : Prop) (l : Lx) (x : Option (Lx × Option Tok)) : Prop :=
  (x = none ∧ fault) ∨
  ∃ l' r, x = some (l', r) ∧ lo ≤ l'.pos ∧ (r.isSome = true → Fwd src l l') ∧
    (l'.pos ≤ src.length ∨ (r = none ∧ l'.pos = src.length + 1 ∧ over))

section
variable {src : Src} {lo : Nat} {over fault : Prop} {l : Lx}

theorem Res.tok {x : Option (Lx × Option Tok)} (h : Res src lo over fault l x) : TokRes src lo over fault l x := by
  rcases h with h | ⟨l', r, h1, h2, h3, h4⟩
  · exact .inl h
  · exact .inr ⟨l', r, h1, h2, fun hr => (h3 hr).fwd, h4⟩

theorem TokRes.mono {over' fault' : Prop} {x : Option (Lx × Option Tok)} (hx : TokRes src lo over fault l x)
    (ho : over → over') (hf : fault → fault') : TokRes src lo over' fault' l x := by
  rcases hx with ⟨hx, h⟩ | ⟨l', r, hx, h1, h2, h3⟩
  · exact .inl ⟨hx, hf h⟩
  · refine .inr ⟨l', r, hx, h1, h2, ?_⟩
    rcases h3 with h3 | ⟨h3, h4, h5⟩
    · exact .inl h3
    · exact .inr ⟨h3, h4, ho h5⟩

theorem alternatives_res (hl : l.pos ≤ src.length) (hlo : lo ≤ l.pos) (s : String) (alts : List (Char × String))
    (h : ∀ a ∈ alts, ch a.1 ≠ 0) : Res src lo over fault l (alternatives src l s alts) := by
  induction alts with
  | nil => exact .ret (Adv.refl hl) hlo
  | cons a alts ih =>
    unfold alternatives
    rcases accept_eq src (ch a.1) (h a (by simp)) hl with ⟨_, hlt, he⟩ | ⟨_, he⟩
    · simp only [he, Option.bind_eq_bind, Option.bind_some, if_true]
      exact .ret (Adv.one hlt) hlo
    · simp only [he, Option.bind_eq_bind, Option.bind_some]
      rw [if_neg (by simp)]
      exact ih (fun b hb => h b (by simp [hb]))

theorem doubled_res (hl : l.pos ≤ src.length) (hlo : lo ≤ l.pos) (c : Char) (one two : String) (third : Char)
    (three : String) (alts : List (Char × String)) (hc : ch c ≠ 0) (ht : ch third ≠ 0) (h : ∀ a ∈ alts, ch a.1 ≠ 0) :
    Res src lo over fault l (doubled src l c one two third three alts) := by
  unfold doubled
  rcases accept_eq src (ch c) hc hl with ⟨_, hlt, he⟩ | ⟨_, he⟩
  · simp only [he, Option.bind_eq_bind, Option.bind_some, if_true]
    exact .adv (Adv.one hlt) (alternatives_res (by simp; omega) (by simp; omega) _ _ (by simpa using ht))
  · simp only [he, Option.bind_eq_bind, Option.bind_some]
    rw [if_neg (by simp)]
    exact alternatives_res hl hlo _ _ h

end

theorem base64Start_some (src : Src) {l : Lx} (hl : l.pos ≤ src.length) :
    ∃ b, base64Start src l = some b ∧ (b = true → l.pos + 3 ≤ src.length) := by
  unfold base64Start
  have h := peekPair_eq (src := src) (c := ch '6') (d := ch '4') (by decide) (by decide) hl
  rw [h]
  simp only [Option.bind_eq_bind, Option.bind_some]
  split
  · rename_i hp
    have hp' : [ch '6', ch '4'] <+: src.drop l.pos := by simpa using hp
    have := hp'.length_le
    simp at this
    obtain ⟨d, hd⟩ := rd_some src (show l.pos + 2 ≤ src.length by omega)
    rw [hd, Option.bind_some]
    refine ⟨_, rfl, ?_⟩
    intro hb
    have hd0 : d ≠ 0 := by
      rintro rfl; simp [ch] at hb
    have := rd_lt src hd hd0
    omega
  · exact ⟨false, rfl, by simp⟩

/-- `lexer_scan_token_inner` after the first character of the token, which is at `l`. -/
theorem scanTok_res (src : Src) (hz : NoNul src) (hcr : ∀ c ∈ src, c ≠ 13) (keyword : List Nat → Bool) {l : Lx} {c : Nat}
    (hc : rd src l.pos = some c) (h0 : c ≠ 0) (hst : l.start = l.pos) (hnl : c = 10 → l.contracts = true) :
    TokRes src (l.pos + 1) (OpenChar src ∨ OpenRaw src) (HexOverrun src) l (scanTok src keyword c (adv1 src l)) := by
  have hl := rd_le src hc
  have hlt := rd_lt src hc h0
  have ha := Adv.one hlt
  have hb := ha.bound
  have hget : src[l.pos]? = some c := by rw [← rd_get src hlt, hc]
  have ret : ∀ t : Tok, TokRes src (l.pos + 1) (OpenChar src ∨ OpenRaw src) (HexOverrun src) l
      (some (adv1 src l, some t)) := fun t => Res.tok (.adv ha (.ret (Adv.refl hb) (by simp)))
  have err : TokRes src (l.pos + 1) (OpenChar src ∨ OpenRaw src) (HexOverrun src) l
      (some (adv1 src l, none)) := Res.tok (.err (by simp) hb)
  have lift : ∀ {x : Option (Lx × Option Tok)}, Res src (l.pos + 1) False False (adv1 src l) x →
      TokRes src (l.pos + 1) (OpenChar src ∨ OpenRaw src) (HexOverrun src) l x :=
    fun hx => Res.tok (.adv ha (hx.mono False.elim False.elim))
  have alts : ∀ s as, (∀ a ∈ as, ch a.1 ≠ 0) → TokRes src (l.pos + 1) (OpenChar src ∨ OpenRaw src) (HexOverrun src) l
      (alternatives src (adv1 src l) s as) := fun s as h => lift (alternatives_res hb (by simp) s as h)
  have dbl : ∀ c one two third three as, ch c ≠ 0 → ch third ≠ 0 → (∀ a ∈ as, ch a.1 ≠ 0) →
      TokRes src (l.pos + 1) (OpenChar src ∨ OpenRaw src) (HexOverrun src) l
        (doubled src (adv1 src l) c one two third three as) :=
    fun c one two third three as h1 h2 h3 => lift (doubled_res hb (by simp) c one two third three as h1 h2 h3)
  have ident : ∀ pre, TokRes src (l.pos + 1) (OpenChar src ∨ OpenRaw src) (HexOverrun src) l
      (scanIdent src keyword pre (adv1 src l)) := fun pre => lift (scanIdent_res src keyword pre hb (by simp))
  have back : c ≠ 10 → backtrack src (adv1 src l) = some l := fun h =>
    backtrack_adv1 src hl (by rw [hc]; intro e; exact h (Option.some.inj e))
  have name : isLetter_ c = true → TokRes src (l.pos + 1) (OpenChar src ∨ OpenRaw src) (HexOverrun src) l
      (scanName src keyword (adv1 src l)) := by
    intro h
    unfold scanName
    rw [back (by rintro rfl; revert h; decide)]
    simp only [Option.bind_eq_bind, Option.bind_some]
    exact Res.tok ((scanIdent_first src keyword 0 hc h).mono False.elim False.elim)
  obtain ⟨d, hd⟩ := rd_some src hb
  unfold scanTok
  simp only [peek, hd, Option.bind_eq_bind, Option.bind_some]
  by_cases e : c = ch '\n'
  · rw [if_pos e, if_pos (by simpa using hnl e)]; exact ret _
  rw [if_neg e]; clear e
  by_cases e : c = ch '@'
  · rw [if_pos e]
    split
    · exact ident _
    · exact ret _
  rw [if_neg e]; clear e
  by_cases e : c = ch '\''
  · rw [if_pos e]
    refine Res.tok (.adv ha ?_)
    have := scanChar_res src hz hb
    rw [adv1_pos] at this
    refine this.mono (fun h => .inl ⟨l.pos, ?_, h⟩) id
    rw [hget, e]; rfl
  rw [if_neg e]; clear e
  by_cases e : c = ch '`'
  · rw [if_pos e]
    refine Res.tok (.adv ha ?_)
    have := scanRaw_res src hz hb (by simp [hst])
    rw [adv1_pos] at this
    refine this.mono (fun h => .inr ⟨l.pos, ?_, h⟩) False.elim
    rw [hget, e]; rfl
  rw [if_neg e]; clear e
  by_cases e : c = ch '"'
  · rw [if_pos e]
    rcases scanString_cases src hb with ⟨h1, h2⟩ | ⟨l', h1, h2, h3⟩ | ⟨s, t, r, _, h1, h3⟩
    · rw [h1]; exact .inl ⟨rfl, h2⟩
    · rw [h1]
      exact Res.tok (.adv ha (.err (by simpa using h2) h3))
    · rw [h3]
      have := congrArg List.length h1
      simp at this
      exact Res.tok (.adv ha (.ret ⟨_, by simp; omega, rfl⟩ (by simp)))
  rw [if_neg e]; clear e
  by_cases e : c = ch '#'
  · rw [if_pos e]; exact ident _
  rw [if_neg e]; clear e
  by_cases e : c = ch '$'
  · rw [if_pos e]
    rcases accept_eq src (ch '$') (by decide) hb with ⟨_, hlt2, he⟩ | ⟨_, he⟩
    · have ha2 := ha.trans (Adv.one hlt2)
      have hb2 := ha2.bound
      obtain ⟨d2, hd2⟩ := rd_some src hb2
      simp only [he, Option.bind_some, if_true, hd2]
      split
      · exact Res.tok (.adv ha (.ret (Adv.one hlt2) (by simp)))
      · exact Res.tok (.err (by simp) hb2)
    · simp only [he, Option.bind_some]
      rw [if_neg (by simp)]
      exact ident _
  rw [if_neg e]; clear e
  by_cases e : c = ch ','
  · rw [if_pos e]; exact ret _
  rw [if_neg e]; clear e
  by_cases e : c = ch ';'
  · rw [if_pos e]; exact ret _
  rw [if_neg e]; clear e
  by_cases e : c = ch '{'
  · rw [if_pos e]; exact ret _
  rw [if_neg e]; clear e
  by_cases e : c = ch '}'
  · rw [if_pos e]; exact ret _
  rw [if_neg e]; clear e
  by_cases e : c = ch '('
  · rw [if_pos e]; exact ret _
  rw [if_neg e]; clear e
  by_cases e : c = ch ')'
  · rw [if_pos e]; exact ret _
  rw [if_neg e]; clear e
  by_cases e : c = ch '['
  · rw [if_pos e]; exact alts _ _ (by decide)
  rw [if_neg e]; clear e
  by_cases e : c = ch ']'
  · rw [if_pos e]; exact ret _
  rw [if_neg e]; clear e
  by_cases e : c = ch '.'
  · rw [if_pos e]; exact dbl _ _ _ _ _ _ (by decide) (by decide) (by decide)
  rw [if_neg e]; clear e
  by_cases e : c = ch '~'
  · rw [if_pos e]; exact ret _
  rw [if_neg e]; clear e
  by_cases e : c = ch ':'
  · rw [if_pos e]; exact alts _ _ (by decide)
  rw [if_neg e]; clear e
  by_cases e : c = ch '!'
  · rw [if_pos e]; exact alts _ _ (by decide)
  rw [if_neg e]; clear e
  by_cases e : c = ch '/'
  · rw [if_pos e]; exact alts _ _ (by decide)
  rw [if_neg e]; clear e
  by_cases e : c = ch '*'
  · rw [if_pos e]
    cases hm : l.contracts with
    | false =>
      simp only [adv1_contracts, hm, Bool.false_eq_true, if_false]
      exact alts _ _ (by decide)
    | true =>
      simp only [adv1_contracts, hm, if_true]
      rcases accept_eq src (ch '>') (by decide) hb with ⟨_, hlt2, he⟩ | ⟨_, he⟩
      · simp only [he, Option.bind_some, if_true]
        exact .inr ⟨_, _, rfl, by simp, fun _ => ⟨false, adv_mode (ha.trans (Adv.one hlt2)) false⟩,
          .inl (ha.trans (Adv.one hlt2)).bound⟩
      · simp only [he, Option.bind_some]
        rw [if_neg (by simp)]
        exact alts _ _ (by decide)
  rw [if_neg e]; clear e
  by_cases e : c = ch '='
  · rw [if_pos e]; exact alts _ _ (by decide)
  rw [if_neg e]; clear e
  by_cases e : c = ch '^'
  · rw [if_pos e]; exact alts _ _ (by decide)
  rw [if_neg e]; clear e
  by_cases e : c = ch '?'
  · rw [if_pos e]; exact alts _ _ (by decide)
  rw [if_neg e]; clear e
  by_cases e : c = ch '<'
  · rw [if_pos e]
    rcases accept_eq src (ch '<') (by decide) hb with ⟨_, hlt2, he⟩ | ⟨_, he⟩
    · simp only [he, Option.bind_some, if_true]
      exact lift (.adv (Adv.one hlt2) (alternatives_res (Adv.one hlt2).bound (by simp) _ _ (by decide)))
    · simp only [he, Option.bind_some]
      rw [if_neg (by simp)]
      cases hm : l.contracts with
      | true =>
        simp only [adv1_contracts, hm, if_true, Bool.false_eq_true, if_false]
        exact alts _ _ (by decide)
      | false =>
        simp only [adv1_contracts, hm, Bool.false_eq_true, if_false]
        rcases accept_eq src (ch '*') (by decide) hb with ⟨_, hlt2, he⟩ | ⟨_, he⟩
        · simp only [he, Option.bind_some, if_true]
          have ha2 := ha.trans (Adv.one hlt2)
          obtain ⟨l', a, b, h1, h2⟩ := docStart_adv src hcr ha2.bound
          rw [h1]
          have ha3 := ha2.trans h2
          refine .inr ⟨_, _, rfl, ?_, fun _ => ⟨true, adv_mode ha3 true⟩, .inl ha3.bound⟩
          have := h2.le
          simp at this
          dsimp only; omega
        · simp only [he, Option.bind_some]
          rw [if_neg (by simp)]
          exact alts _ _ (by decide)
  rw [if_neg e]; clear e
  by_cases e : c = ch '>'
  · rw [if_pos e]; exact dbl _ _ _ _ _ _ (by decide) (by decide) (by decide)
  rw [if_neg e]; clear e
  by_cases e : c = ch '%'
  · rw [if_pos e]; exact alts _ _ (by decide)
  rw [if_neg e]; clear e
  by_cases e : c = ch '&'
  · rw [if_pos e]; exact dbl _ _ _ _ _ _ (by decide) (by decide) (by decide)
  rw [if_neg e]; clear e
  by_cases e : c = ch '|'
  · rw [if_pos e]; exact dbl _ _ _ _ _ _ (by decide) (by decide) (by decide)
  rw [if_neg e]; clear e
  by_cases e : c = ch '+'
  · rw [if_pos e]; exact dbl _ _ _ _ _ _ (by decide) (by decide) (by decide)
  rw [if_neg e]; clear e
  by_cases e : c = ch '-'
  · rw [if_pos e]; exact alts _ _ (by decide)
  rw [if_neg e]; clear e
  by_cases e : c = ch 'x'
  · rw [if_pos e]
    split
    · rename_i hq
      refine lift ?_
      have := scanHexArray_res src hcr hd (by rintro rfl; simp [ch] at hq)
      rw [adv1_pos] at this
      exact this
    · exact name (by rw [e]; decide)
  rw [if_neg e]; clear e
  by_cases e : c = ch 'b'
  · rw [if_pos e]
    obtain ⟨b, hb64, h3⟩ := base64Start_some src hb
    rw [hb64, Option.bind_some]
    cases b with
    | true =>
      have := scanBase64_res src hcr (h3 rfl)
      rw [adv1_pos] at this
      exact lift this
    | false => exact name (by rw [e]; decide)
  rw [if_neg e]; clear e
  split
  · rename_i hdig
    rw [back (by rintro rfl; revert hdig; decide), Option.bind_some]
    exact Res.tok ((scanDigit_res src hc hdig).mono False.elim False.elim)
  · split
    · rename_i h; exact name h
    · exact err

/-- Where a token may start: nothing can be skipped. -/
theorem noGap_first {src : Src} {m : Bool} {p c : Nat} (h : NoGap m (src.drop p)) (hc : rd src p = some c) (h0 : c ≠ 0) :
    c = 10 → m = true := by
  rintro rfl
  cases m with
  | true => rfl
  | false =>
    rw [drop_rd (rd_lt src hc h0) hc] at h
    exact absurd rfl (h.2 rfl).1

/-- `lexer_scan_token_inner`. -/
theorem scanToken_cases (src : Src) (hz : NoNul src) (hcr : ∀ c ∈ src, c ≠ 13) (keyword : List Nat → Bool) {l : Lx}
    (hl : l.pos ≤ src.length) :
    (scanToken src keyword l = none ∧ HexOverrun src) ∨
    ∃ l0, Adv src l l0 ∧ Gap l.contracts (src.drop l.pos) (src.drop l0.pos) ∧ NoGap l.contracts (src.drop l0.pos) ∧
      ((l0.pos = src.length ∧ scanToken src keyword l = some (begin_ l0, .eof)) ∨
       (∃ l1 t, scanToken src keyword l = some (l1, .tok t) ∧ Fwd src (begin_ l0) l1 ∧ l0.pos < l1.pos) ∨
       (∃ l1, scanToken src keyword l = some (l1, .bad) ∧ l0.pos < l1.pos ∧
         (l1.pos ≤ src.length ∨ (l1.pos = src.length + 1 ∧ (OpenChar src ∨ OpenRaw src))))) := by
  obtain ⟨l0, h1, ha, hg, hn⟩ := skipWhitespace_eq src hz hcr _ l hl rfl
  have hb := ha.bound
  obtain ⟨c, hc⟩ := rd_some src hb
  unfold scanToken
  simp only [h1, Option.bind_eq_bind, Option.bind_some, peek]
  rw [show (begin_ l0).pos = l0.pos from rfl, hc, Option.bind_some]
  by_cases h0 : c = 0
  · rw [if_pos h0]
    subst h0
    exact .inr ⟨l0, ha, hg, hn, .inl ⟨rd_zero hz hc, rfl⟩⟩
  · rw [if_neg h0, next_eq src (show (begin_ l0).pos ≤ src.length from hb), Option.bind_some]
    have hnl : c = 10 → (begin_ l0).contracts = true := by
      intro e
      show l0.contracts = true
      rw [ha.contracts]
      exact noGap_first hn hc h0 e
    rcases scanTok_res src hz hcr keyword (l := begin_ l0) hc h0 rfl hnl with ⟨h2, h3⟩ | ⟨l1, r, h2, h3, h4, h5⟩
    · left; rw [h2]; exact ⟨rfl, h3⟩
    · right
      refine ⟨l0, ha, hg, hn, .inr ?_⟩
      rw [h2, Option.bind_some]
      cases r with
      | some t => exact .inl ⟨l1, t, rfl, h4 rfl, h3⟩
      | none =>
        refine .inr ⟨l1, rfl, h3, ?_⟩
        rcases h5 with h5 | ⟨_, h5, h6⟩
        · exact .inl h5
        · exact .inr ⟨h5, h6⟩

theorem drain_cases (src : Src) (hz : NoNul src) (hcr : ∀ c ∈ src, c ≠ 13) (keyword : List Nat → Bool) (m : Nat) :
    ∀ (ok : Bool) (l : Lx), l.pos ≤ src.length → src.length - l.pos = m →
    (drain src keyword ok l = none ∧ (HexOverrun src ∨ OpenChar src ∨ OpenRaw src)) ∨
    ∃ l', drain src keyword ok l = some l' ∧ l'.pos = src.length := by
  induction m using Nat.strongRecOn with
  | _ m ih =>
    intro ok l hl hm
    have hskip : ∃ l0, (if ok = true then some l else skipWhile src (fun c => c ≠ 0 && c ≠ ch '\n') l) = some l0 ∧
        Adv src l l0 := by
      cases ok with
      | true => exact ⟨l, rfl, Adv.refl hl⟩
      | false => exact skipWhile_adv src _ (by simp) hl
    obtain ⟨l0, he, ha⟩ := hskip
    have hd : drain src keyword ok l = (scanToken src keyword l0).bind fun x => (peek src x.1).bind fun c =>
        if c = 0 then some x.1 else drain src keyword x.2.isTok x.1 := by
      rw [drain]
      cases ok with
      | true => simp only [if_true] at he; cases he; rfl
      | false =>
        simp only [Bool.false_eq_true, if_false] at he ⊢
        rw [he]; rfl
    rw [hd]
    have hle := ha.le
    have fin : ∀ (l1 : Lx) (o : Bool), l0.pos < l1.pos → l1.pos ≤ src.length →
        (((peek src l1).bind fun c => if c = 0 then some l1 else drain src keyword o l1) = none ∧
          (HexOverrun src ∨ OpenChar src ∨ OpenRaw src)) ∨
        ∃ l', ((peek src l1).bind fun c => if c = 0 then some l1 else drain src keyword o l1) = some l' ∧
          l'.pos = src.length := by
      intro l1 o hlt hb
      obtain ⟨c, hc⟩ := rd_some src hb
      simp only [peek, hc, Option.bind_some]
      by_cases h0 : c = 0
      · rw [if_pos h0]
        subst h0
        exact .inr ⟨l1, rfl, rd_zero hz hc⟩
      · rw [if_neg h0]
        exact ih (src.length - l1.pos) (by have := rd_lt src hc h0; omega) o l1 hb rfl
    rcases scanToken_cases src hz hcr keyword ha.bound with ⟨h1, h2⟩ | ⟨l1, ha1, -, -, h⟩
    · left; rw [h1]; exact ⟨rfl, .inl h2⟩
    · have hle1 := ha1.le
      rcases h with ⟨h2, h3⟩ | ⟨l2, t, h2, h3, h4⟩ | ⟨l2, h2, h3, h4⟩
      · rw [h3, Option.bind_some]
        right
        refine ⟨begin_ l1, ?_, h2⟩
        simp only [peek, show (begin_ l1).pos = src.length from h2, rd_end, Option.bind_some, if_true]
      · rw [h2, Option.bind_some]
        exact fin l2 _ (by omega) h3.bound
      · rw [h2, Option.bind_some]
        rcases h4 with h4 | ⟨h4, h5⟩
        · exact fin l2 _ (by omega) h4
        · left
          refine ⟨?_, .inr h5⟩
          simp only [peek, h4]
          rw [show rd src (src.length + 1) = none by unfold rd; rw [if_neg (by omega), if_neg (by omega)]]
          rfl

end C3.Lexer
