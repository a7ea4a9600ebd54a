import Verif.Lexer.Lemmas
import Verif.Lexer.Spec

/-! # Lines, comments and gaps -/

set_option autoImplicit false

namespace C3.Lexer

open Spec (Located row inLine str Inside Comment Gap NoGap)

theorem take_succ {src : Src} {p : Nat} (h : p < src.length) : src.take (p + 1) = src.take p ++ [src[p]] :=
  List.take_succ_eq_append_getElem h

theorem located_adv1 {src : Src} {l : Lx} (h : l.pos < src.length) (hl : Located src l) : Located src (adv1 src l) := by
  obtain ⟨_, hr, hs⟩ := hl
  unfold Located row inLine at *
  unfold adv1
  rw [List.getElem?_eq_getElem h]
  by_cases e : src[l.pos] = ch '\n'
  · rw [if_pos (by rw [e])]
    have e' : src[l.pos] = 10 := e
    simp only [take_succ h, List.count_append, List.reverse_append, e']
    refine ⟨h, ?_, ?_⟩
    · simp; omega
    · simp
  · rw [if_neg (by intro e'; exact e (Option.some.inj e'))]
    have e' : src[l.pos] ≠ 10 := e
    simp only [take_succ h, List.count_append, List.reverse_append]
    refine ⟨h, ?_, ?_⟩
    · simp [e']; omega
    · simp [e'] at *; omega

theorem located_advN {src : Src} (k : Nat) : ∀ {l : Lx}, l.pos + k ≤ src.length → Located src l →
    Located src (advN src l k) := by
  induction k with
  | zero => intro l _ hl; exact hl
  | succ k ih =>
    intro l h hl
    exact ih (by simp; omega) (located_adv1 (by omega) hl)

theorem Adv.located {src : Src} {l l' : Lx} (h : Adv src l l') (hl : Located src l) : Located src l' := by
  obtain ⟨k, hk, rfl⟩ := h
  exact located_advN k hk hl

/-! ## Reading from the rest of the text -/

theorem drop_cons {src : Src} {p c : Nat} {s : List Nat} (h : src.drop p = c :: s) :
    p < src.length ∧ rd src p = some c ∧ src.drop (p + 1) = s := by
  have hp : p < src.length := by
    rcases Nat.lt_or_ge p src.length with h' | h'
    · exact h'
    · rw [List.drop_eq_nil_of_le h'] at h; cases h
  rw [List.drop_eq_getElem_cons hp] at h
  injection h with h1 h2
  exact ⟨hp, by rw [rd_getElem src hp, h1], h2⟩

theorem drop_rd {src : Src} {p : Nat} (h : p < src.length) {c : Nat} (hc : rd src p = some c) :
    src.drop p = c :: src.drop (p + 1) := by
  rw [List.drop_eq_getElem_cons h]
  rw [rd_getElem src h] at hc
  rw [Option.some.inj hc]

theorem drop_append {src : Src} {p : Nat} {a b : List Nat} (h : src.drop p = a ++ b) :
    src.drop (p + a.length) = b := by
  rw [← List.drop_drop, h]; simp

theorem drop_len {src : Src} {p : Nat} {a b : List Nat} (hp : p ≤ src.length) (h : src.drop p = a ++ b) :
    p + a.length ≤ src.length := by
  have := congrArg List.length h
  simp at this; omega

theorem rd_drop {src : Src} {p : Nat} (hp : p ≤ src.length) : rd src p = some ((src.drop p).headD 0) := by
  rcases Nat.lt_or_ge p src.length with h | h
  · rw [rd_getElem src h, List.drop_eq_getElem_cons h]; rfl
  · have : p = src.length := by omega
    subst this; rw [rd_end]; simp

theorem peekPair_eq {src : Src} {l : Lx} {c d : Nat} (hc : c ≠ 0) (hd : d ≠ 0) (h : l.pos ≤ src.length) :
    peekPair src l c (fun x => x = d) = some (decide ([c, d] <+: src.drop l.pos)) := by
  unfold peekPair peek peekNext
  rw [rd_drop h]
  rcases hs : src.drop l.pos with _ | ⟨x, s⟩
  · simp; omega
  · obtain ⟨hlt, hx, hs'⟩ := drop_cons hs
    by_cases e : x = c
    · rw [rd_drop (show l.pos + 1 ≤ src.length by omega), hs']
      rcases s with _ | ⟨y, s⟩
      · simp [e]; omega
      · simp [e, List.cons_prefix_cons, eq_comm]
    · simp [e, List.cons_prefix_cons, Ne.symm e]

/-! ## Block comments -/

theorem str_open : str "/*" = [ch '/', ch '*'] := rfl
theorem str_close : str "*/" = [ch '*', ch '/'] := rfl

/-- One step of the loop. -/
theorem blockComment_step (src : Src) (d : Nat) {l : Lx} {c : Nat} {s : List Nat} (hs : src.drop l.pos = c :: s)
    (hc : c ≠ 0) :
    blockComment src d l =
      if str "*/" <+: c :: s then
        (if d - 1 = 0 then some (advN src l 2) else blockComment src (d - 1) (advN src l 2))
      else if str "/*" <+: c :: s then blockComment src (d + 1) (advN src l 2)
      else blockComment src d (adv1 src l) := by
  obtain ⟨hlt, hx, hs'⟩ := drop_cons hs
  have two : ∀ x y : Nat, [x, y] <+: c :: s → skip src l 2 = some (advN src l 2) := fun _ _ _ =>
    skip_eq src 2 (by omega)
  rw [blockComment]
  simp only [peek, hx, Option.bind_eq_bind, Option.bind_some, hc, if_false]
  rw [peekPair_eq (by decide) (by decide) (by omega), peekPair_eq (by decide) (by decide) (by omega), hs, ← str_open,
    ← str_close]
  simp only [Option.bind_some, decide_eq_true_eq]
  split
  · rename_i h
    rw [two _ _ h, Option.bind_some]
  · split
    · rename_i h
      rw [two _ _ h, Option.bind_some]
    · rw [next_eq src (by omega), Option.bind_some]

theorem no_open_close (s : List Nat) (h : str "/*" <+: s) : ¬ str "*/" <+: s := by
  intro h'
  rcases s with _ | ⟨x, s⟩
  · simp [str] at h
  · rw [str_open, List.cons_prefix_cons] at h
    rw [str_close, List.cons_prefix_cons] at h'
    have := h.1.trans h'.1.symm
    simp [ch] at this

/-- Text inside a comment is passed without changing the depth. -/
theorem blockComment_inside (src : Src) (hz : NoNul src) {b f : List Nat} (hb : Inside b f) :
    ∀ (d : Nat) (l : Lx), 0 < d → src.drop l.pos = b ++ f →
      blockComment src d l = blockComment src d (advN src l b.length) := by
  have nz : ∀ {p c : Nat} {s : List Nat}, src.drop p = c :: s → c ≠ 0 := by
    intro p c s h
    have : c ∈ src.drop p := by rw [h]; simp
    exact hz c (List.mem_of_mem_drop this)
  induction hb with
  | nil f => intro d l _ _; rfl
  | char c s f h1 h2 _ ih =>
    intro d l hd hs
    rw [blockComment_step src d (c := c) (s := s ++ f) (by simpa using hs) (nz (s := s ++ f) (by simpa using hs)),
      if_neg (by simpa using h2), if_neg (by simpa using h1)]
    have := (drop_cons (c := c) (s := s ++ f) (by simpa using hs)).2.2
    rw [ih d (adv1 src l) hd (by simpa using this)]
    rfl
  | nested b s f _ _ ihb ihs =>
    intro d l hd hs
    have hs0 : src.drop l.pos = ch '/' :: (ch '*' :: (b ++ (str "*/" ++ (s ++ f)))) := by
      rw [hs]; simp [str_open]
    rw [blockComment_step src d hs0 (nz hs0),
      if_neg (no_open_close _ (by simp [str_open])), if_pos (by simp [str_open])]
    have h2 := drop_append (a := [ch '/', ch '*']) (b := b ++ (str "*/" ++ (s ++ f))) hs0
    have h2' : src.drop (advN src l 2).pos = b ++ (str "*/" ++ (s ++ f)) := by simpa using h2
    rw [ihb (d + 1) _ (by omega) h2']
    have h3 := drop_append h2'
    have h3' : src.drop (advN src (advN src l 2) b.length).pos = ch '*' :: (ch '/' :: (s ++ f)) := by
      simpa [str_close] using h3
    rw [blockComment_step src (d + 1) h3' (nz h3'), if_pos (by simp [str_close]), if_neg (by omega)]
    have h4 := drop_append (a := [ch '*', ch '/']) (b := s ++ f) h3'
    rw [show d + 1 - 1 = d by omega, ihs d _ hd (by simpa using h4)]
    rw [advN_add, advN_add, advN_add]
    congr 2
    simp [str_open, str_close]; omega

/-- The comments still open at a depth are closed in turn. -/
inductive Closes : Nat → List Nat → List Nat → Prop where
  | one (b s : List Nat) : Inside b (str "*/" ++ s) → Closes 1 (b ++ (str "*/" ++ s)) s
  | more (d : Nat) (b s r : List Nat) : Inside b (str "*/" ++ s) → Closes d s r → Closes (d + 1) (b ++ (str "*/" ++ s)) r

theorem Closes.char {d : Nat} {s r : List Nat} (h : Closes d s r) {c : Nat} (h1 : ¬ str "/*" <+: c :: s)
    (h2 : ¬ str "*/" <+: c :: s) : Closes d (c :: s) r := by
  cases h with
  | one b _ hb => exact .one (c :: b) r (.char c b _ (by simpa using h1) (by simpa using h2) hb)
  | more d b s r hb hr => exact .more d (c :: b) s r (.char c b _ (by simpa using h1) (by simpa using h2) hb) hr

theorem Closes.open_ {d : Nat} {s r : List Nat} (h : Closes (d + 1) s r) (hd : 0 < d) : Closes d (str "/*" ++ s) r := by
  cases h with
  | one => omega
  | more _ b s r hb hr =>
    cases hr with
    | one b' _ hb' =>
      have := Closes.one _ r (Inside.nested b b' (str "*/" ++ r) hb hb')
      simpa using this
    | more d b' s' r hb' hr' =>
      have := Closes.more d _ s' r (Inside.nested b b' (str "*/" ++ s') hb hb') hr'
      simpa using this

/-- The loop ends where the open comments are closed, or at the end of the text. -/
theorem blockComment_total (src : Src) (hz : NoNul src) (m : Nat) : ∀ (d : Nat) (l : Lx), 0 < d → l.pos ≤ src.length →
    src.length - l.pos = m →
    ∃ l', blockComment src d l = some l' ∧ Adv src l l' ∧
      (Closes d (src.drop l.pos) (src.drop l'.pos) ∨ l'.pos = src.length) := by
  induction m using Nat.strongRecOn with
  | _ m ih =>
    intro d l hd hl hm
    rcases hs : src.drop l.pos with _ | ⟨c, s⟩
    · have hlen : l.pos = src.length := by have := congrArg List.length hs; simp at this; omega
      refine ⟨l, ?_, Adv.refl hl, .inr hlen⟩
      rw [blockComment]; simp [peek, hlen, rd_end]
    · obtain ⟨hlt, hc, hs'⟩ := drop_cons hs
      have hc0 : c ≠ 0 := by
        rintro rfl
        have : (0 : Nat) ∈ src.drop l.pos := by rw [hs]; simp
        exact hz 0 (List.mem_of_mem_drop this) rfl
      rw [blockComment_step src d hs hc0]
      have adv2 : ∀ x y, [x, y] <+: c :: s → Adv src l (advN src l 2) ∧ l.pos + 2 ≤ src.length ∧
          c :: s = x :: y :: src.drop (l.pos + 2) := by
        intro x y hp
        obtain ⟨t, ht⟩ := hp
        have hs2 : src.drop l.pos = [x, y] ++ t := by rw [hs, ht]
        have := drop_len hl hs2
        have h2 := drop_append hs2
        simp at this h2
        exact ⟨⟨2, this, rfl⟩, this, by rw [← ht, h2]; simp⟩
      by_cases h1 : str "*/" <+: c :: s
      · rw [if_pos h1]
        obtain ⟨hadv, hle, heq⟩ := adv2 (ch '*') (ch '/') h1
        by_cases h2 : d - 1 = 0
        · rw [if_pos h2]
          refine ⟨_, rfl, hadv, .inl ?_⟩
          have : d = 1 := by omega
          subst this
          simp only [advN_pos]
          rw [heq]
          exact Closes.one [] _ (.nil _)
        · rw [if_neg h2]
          obtain ⟨l', he, ha, hr⟩ := ih (src.length - (advN src l 2).pos) (by simp; omega) (d - 1) _ (by omega)
            (by simpa using hle) rfl
          refine ⟨l', he, hadv.trans ha, ?_⟩
          rcases hr with hr | hr
          · left
            rw [heq]
            have := Closes.more (d - 1) [] _ _ (.nil _) hr
            rw [show d - 1 + 1 = d by omega] at this
            simpa [str_close] using this
          · exact .inr hr
      · rw [if_neg h1]
        by_cases h2 : str "/*" <+: c :: s
        · rw [if_pos h2]
          obtain ⟨hadv, hle, heq⟩ := adv2 (ch '/') (ch '*') h2
          obtain ⟨l', he, ha, hr⟩ := ih (src.length - (advN src l 2).pos) (by simp; omega) (d + 1) _ (by omega)
            (by simpa using hle) rfl
          refine ⟨l', he, hadv.trans ha, ?_⟩
          rcases hr with hr | hr
          · left
            rw [heq]
            simpa [str_open] using hr.open_ hd
          · exact .inr hr
        · rw [if_neg h2]
          obtain ⟨l', he, ha, hr⟩ := ih (src.length - (adv1 src l).pos) (by simp; omega) d _ hd (by simp; omega) rfl
          refine ⟨l', he, (Adv.one hlt).trans ha, ?_⟩
          rcases hr with hr | hr
          · left
            rw [adv1_pos, hs'] at hr
            exact hr.char h2 h1
          · exact .inr hr

/-- The comment ends at the `*/` that balances it. -/
theorem blockComment_closed (src : Src) (hz : NoNul src) {l : Lx} {b r : List Nat} (hs : src.drop l.pos = b ++ r)
    (hb : Comment b r) : blockComment src 1 l = some (advN src l b.length) := by
  obtain ⟨t, rfl, ht⟩ := hb
  have hs' : src.drop l.pos = t ++ (str "*/" ++ r) := by simpa using hs
  rw [blockComment_inside src hz ht 1 l (by omega) hs']
  have h := drop_append hs'
  have h' : src.drop (advN src l t.length).pos = ch '*' :: (ch '/' :: r) := by simpa [str_close] using h
  rw [blockComment_step src 1 h' (by decide), if_pos (by simp [str_close]), if_pos rfl, advN_add]
  simp [str_close]

/-- A comment that is not closed goes to the end of the text. -/
theorem blockComment_open (src : Src) (hz : NoNul src) {l : Lx} (hl : l.pos ≤ src.length)
    (h : ¬ ∃ b r, src.drop l.pos = b ++ r ∧ Comment b r) :
    blockComment src 1 l = some (advN src l (src.length - l.pos)) := by
  obtain ⟨l', he, ha, hr⟩ := blockComment_total src hz _ 1 l (by omega) hl rfl
  rcases hr with hr | hr
  · exfalso
    generalize hd : src.drop l.pos = s at hr h
    generalize src.drop l'.pos = r at hr
    cases hr with
    | one b s hb => exact h ⟨b ++ str "*/", r, by simp, b, rfl, hb⟩
    | more d b s r hb hr => cases hr
  · rw [he, ha.eq, hr]

/-! ## Gaps -/

theorem lineComment_eq (src : Src) (hz : NoNul src) {l : Lx} (hl : l.pos ≤ src.length) :
    ∃ b l', (∀ c ∈ b, c ≠ 10) ∧ lineComment src l = some l' ∧ Adv src l l' ∧
      ((src.drop l.pos = b ++ 10 :: src.drop l'.pos) ∨ (src.drop l.pos = b ∧ l'.pos = src.length)) := by
  obtain ⟨k, hk, he, hall, c, hc, hp⟩ := skipWhile_eq src (fun c => c ≠ 0 && c ≠ ch '\n') (by simp) _ hl rfl
  have hadv : Adv src l (advN src l k) := ⟨k, hk, rfl⟩
  have hb : ∀ c ∈ (src.drop l.pos).take k, c ≠ 10 := by
    intro x hx
    obtain ⟨i, hi, rfl⟩ := List.getElem_of_mem hx
    obtain ⟨y, hy, hyp⟩ := hall i (by simp at hi; omega)
    rw [rd_getElem src (by simp at hi; omega)] at hy
    simp only [Option.some.injEq] at hy
    subst hy
    rw [Bool.and_eq_true] at hyp
    have := of_decide_eq_true hyp.2
    simpa [ch] using this
  have hsplit : src.drop l.pos = (src.drop l.pos).take k ++ src.drop (l.pos + k) := by
    rw [← List.drop_drop]; exact (List.take_append_drop k _).symm
  refine ⟨(src.drop l.pos).take k, ?_⟩
  unfold lineComment
  rw [he]
  simp only [Option.bind_eq_bind, Option.bind_some, peek, advN_pos, hc]
  by_cases e : c = ch '\n'
  · have hlt : l.pos + k < src.length := rd_lt src hc (by rw [e]; decide)
    refine ⟨adv1 src (advN src l k), hb, ?_, hadv.trans (Adv.one (by simpa using hlt)), .inl ?_⟩
    · rw [if_pos e, next_eq src (by simpa using hk)]
    · have := drop_rd hlt hc
      rw [e] at this
      simp only [adv1_pos, advN_pos]
      rw [show (10 : Nat) = ch '\n' from rfl, ← this]
      exact hsplit
  · refine ⟨advN src l k, hb, by rw [if_neg e], hadv, .inr ?_⟩
    have h0 : c = 0 := by
      simp at hp
      exact Decidable.byContradiction fun h0 => e (hp h0)
    subst h0
    have hend := rd_zero hz hc
    refine ⟨?_, by simpa using hend⟩
    rw [hend] at hsplit
    simpa using hsplit

/-- What `skip_whitespace` does. -/
theorem skipWhitespace_eq (src : Src) (hz : NoNul src) (hcr : ∀ c ∈ src, c ≠ 13) (m : Nat) : ∀ (l : Lx),
    l.pos ≤ src.length → src.length - l.pos = m →
    ∃ l', skipWhitespace src l = some l' ∧ Adv src l l' ∧ Gap l.contracts (src.drop l.pos) (src.drop l'.pos) ∧
      NoGap l.contracts (src.drop l'.pos) := by
  induction m using Nat.strongRecOn with
  | _ m ih =>
    intro l hl hm
    obtain ⟨c, hc⟩ := rd_some src hl
    have hdrop : ∀ {d}, rd src l.pos = some d → d ≠ 0 → src.drop l.pos = d :: src.drop (l.pos + 1) := fun hd h0 =>
      drop_rd (rd_lt src hd h0) hd
    rw [skipWhitespace]
    simp only [peek, peekNext, hc, Option.bind_eq_bind, Option.bind_some]
    by_cases e1 : c = ch '/'
    · rw [if_pos e1]
      have hlt : l.pos < src.length := rd_lt src hc (by rw [e1]; decide)
      have hs := hdrop hc (by rw [e1]; decide)
      rw [e1] at hs
      cases hcon : l.contracts with
      | true =>
        rw [if_pos rfl]
        refine ⟨l, rfl, Adv.refl hl, .done _, ?_⟩
        rw [hs]
        exact ⟨by simp [ch], by simp⟩
      | false =>
        rw [if_neg (by simp)]
        obtain ⟨d, hd⟩ := rd_some src (show l.pos + 1 ≤ src.length by omega)
        rw [hd, Option.bind_some]
        have hskip : d ≠ 0 → skip src l 2 = some (advN src l 2) ∧ Adv src l (advN src l 2) ∧
            src.drop l.pos = ch '/' :: d :: src.drop (l.pos + 2) := by
          intro h0
          have h2 : l.pos + 1 < src.length := rd_lt src hd h0
          refine ⟨skip_eq src 2 (by omega), ⟨2, by omega, rfl⟩, ?_⟩
          rw [hs, drop_rd h2 hd]
        by_cases e2 : d = ch '/'
        · rw [if_pos e2]
          obtain ⟨hk, ha, hs2⟩ := hskip (by rw [e2]; decide)
          obtain ⟨b, l1, hb, he, ha1, hcase⟩ := lineComment_eq src hz ha.bound
          rw [hk, Option.bind_some, he, Option.bind_some]
          have := ha1.le
          simp at this
          obtain ⟨l2, he2, ha2, hg, hn⟩ := ih (src.length - l1.pos) (by omega) l1 ha1.bound rfl
          have hcon1 : l1.contracts = false := by rw [ha1.contracts, ha.contracts, hcon]
          rw [hcon1] at hg hn
          refine ⟨l2, he2, (ha.trans ha1).trans ha2, ?_, hn⟩
          rw [hs2, e2]
          simp only [advN_pos] at hcase
          rcases hcase with hcase | ⟨hcase, hend⟩
          · rw [hcase]
            exact .line b _ _ rfl hb hg
          · have : l2.pos = src.length := by have := ha2.le; have := ha2.bound; omega
            rw [hcase, this]
            simpa [str, ch] using Gap.lineEnd (contracts := false) b rfl hb
        · rw [if_neg e2]
          by_cases e3 : d = ch '*'
          · rw [if_pos e3]
            obtain ⟨hk, ha, hs2⟩ := hskip (by rw [e3]; decide)
            rw [hk, Option.bind_some]
            by_cases hex : ∃ b r, src.drop (advN src l 2).pos = b ++ r ∧ Comment b r
            · obtain ⟨b, r, hbr, hcom⟩ := hex
              rw [blockComment_closed src hz hbr hcom, Option.bind_some]
              have hle := drop_len ha.bound hbr
              have ha1 : Adv src (advN src l 2) (advN src (advN src l 2) b.length) := ⟨_, hle, rfl⟩
              obtain ⟨l2, he2, ha2, hg, hn⟩ := ih (src.length - (advN src (advN src l 2) b.length).pos)
                (by simp; omega) _ ha1.bound rfl
              have hr := drop_append hbr
              simp only [advN_pos, advN_contracts, hcon] at hg hn hr hbr
              refine ⟨l2, he2, (ha.trans ha1).trans ha2, ?_, hn⟩
              rw [hs2, e3, hbr]
              rw [hr] at hg
              exact .block b r _ rfl hcom hg
            · rw [blockComment_open src hz ha.bound hex, Option.bind_some]
              have hb2 := ha.bound
              have ha1 : Adv src (advN src l 2) (advN src (advN src l 2) (src.length - (advN src l 2).pos)) :=
                ⟨_, by omega, rfl⟩
              simp only [advN_pos] at hb2
              obtain ⟨l2, he2, ha2, hg, hn⟩ := ih
                (src.length - (advN src (advN src l 2) (src.length - (advN src l 2).pos)).pos)
                (by simp; omega) _ ha1.bound rfl
              have hend : l2.pos = src.length := by
                have := ha2.le; have := ha2.bound; simp only [advN_pos] at *; omega
              simp only [advN_contracts, hcon] at hn
              refine ⟨l2, he2, (ha.trans ha1).trans ha2, ?_, hn⟩
              rw [hs2, e3, hend]
              simp only [advN_pos] at hex
              have := Gap.blockEnd (contracts := false) _ rfl hex
              rw [str_open] at this
              simpa using this
          · rw [if_neg e3]
            refine ⟨l, rfl, Adv.refl hl, .done _, ?_⟩
            rw [hs]
            refine ⟨by simp [ch], fun _ => ⟨by simp [ch], ?_, ?_⟩⟩
            · rintro ⟨t, ht⟩
              have h' : src.drop (l.pos + 1) = ch '/' :: t := by
                have := (List.cons.inj ht).2; exact this.symm
              exact e2 (Option.some.inj (hd.symm.trans (drop_cons h').2.1))
            · rintro ⟨t, ht⟩
              have h' : src.drop (l.pos + 1) = ch '*' :: t := by
                have := (List.cons.inj ht).2; exact this.symm
              exact e3 (Option.some.inj (hd.symm.trans (drop_cons h').2.1))
    · rw [if_neg e1]
      have hno : ∀ (t : List Nat) (d : Nat), (∀ s, src.drop l.pos = d :: s → False) → ¬ d :: t <+: src.drop l.pos := by
        rintro t d hd ⟨u, hu⟩
        exact hd _ hu.symm
      have head : ∀ d s, src.drop l.pos = d :: s → d = c := fun d s h =>
        Option.some.inj ((drop_cons h).2.1.symm.trans hc)
      have hslash : ∀ s, src.drop l.pos = ch '/' :: s → False := fun s h => e1 (head _ _ h).symm
      by_cases e2 : c = ch '\n' ∧ l.contracts = true
      · rw [if_pos (by simp [e2])]
        refine ⟨l, rfl, Adv.refl hl, .done _, ?_⟩
        rw [hdrop hc (by rw [e2.1]; decide), e2.1]
        exact ⟨by simp [ch], by simp [e2.2]⟩
      · rw [if_neg (by simpa using e2)]
        by_cases e3 : c = ch '\n' ∨ c = ch ' ' ∨ c = ch '\t' ∨ c = 12
        · have h0 : c ≠ 0 := by rcases e3 with rfl | rfl | rfl | rfl <;> decide
          rw [if_pos (by simpa [or_assoc] using e3), next_eq src hl, Option.bind_some]
          have hlt := rd_lt src hc h0
          obtain ⟨l2, he2, ha2, hg, hn⟩ := ih (src.length - (adv1 src l).pos) (by simp; omega) _ (by simp; omega) rfl
          simp only [adv1_pos, adv1_contracts] at hg hn
          refine ⟨l2, he2, (Adv.one hlt).trans ha2, ?_, hn⟩
          rw [hdrop hc h0]
          rcases e3 with e3 | e3
          · subst e3
            exact .newline _ _ (by simpa using e2) hg
          · exact .space c _ _ (by rcases e3 with rfl | rfl | rfl <;> simp [ch]) hg
        · rw [if_neg (by simpa [or_assoc] using e3), if_neg]
          · simp only [not_or] at e3
            refine ⟨l, rfl, Adv.refl hl, .done _, ?_, fun _ => ⟨?_, hno _ _ hslash, hno _ _ hslash⟩⟩
            · intro d hd he
              rw [List.head?_eq_some_iff] at he
              obtain ⟨s, hs⟩ := he
              have := head d s hs
              subst this
              simp at hd
              rcases hd with rfl | rfl | rfl
              · exact e3.2.1 rfl
              · exact e3.2.2.1 rfl
              · exact e3.2.2.2 rfl
            · intro he
              rw [List.head?_eq_some_iff] at he
              obtain ⟨s, hs⟩ := he
              exact e3.1 (head _ s hs).symm
          · rintro rfl
            exact hcr 13 (by
              have := hdrop hc (by decide)
              exact List.mem_of_mem_drop (by rw [this]; simp [ch])) rfl

end C3.Lexer
