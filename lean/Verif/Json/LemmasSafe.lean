import Verif.Json.Lemmas

/-! # The parser ends and stays inside the text and the memory, but for a cut escape -/

set_option autoImplicit false

namespace C3.Json

/-- Nowhere `\u` with less than three bytes behind it. -/
def NoCut (s : List Nat) : Prop := ¬ ∃ a t, s = a ++ 92 :: 117 :: t ∧ t.length < 3

theorem NoCut.suffix {s t : List Nat} (h : NoCut s) (ht : t <:+ s) : NoCut t := by
  rintro ⟨a, b, rfl, hb⟩
  obtain ⟨c, rfl⟩ := ht
  exact h ⟨c ++ a, b, by simp, hb⟩

def Ok (p : P) : Prop := p.tok = .error ↔ p.err = true

def Settled (s : List Nat) (p : P) : Prop := p.cur <:+ s ∧ Ok p

theorem settled_fail (s : List Nat) : Settled s fail := ⟨List.nil_suffix, by simp [Ok, fail]⟩

theorem Settled.trans {s t : List Nat} {p : P} (h : Settled t p) (ht : t <:+ s) : Settled s p := ⟨h.1.trans ht, h.2⟩

theorem string_settled (n : Nat) : ∀ (room : Nat) (out s : List Nat), s.length ≤ n → out.length + measure s < room → NoCut s →
    ∃ p, string room out s = some p ∧ Settled s p ∧ p.tok ≠ .eof := by
  induction n using Nat.strongRecOn with
  | _ n ih =>
    intro room out s hl hm hc
    cases s with
    | nil => exact ⟨fail, by simp [string], settled_fail _, by simp [fail]⟩
    | cons c s =>
      rw [string.eq_def]
      simp only
      by_cases h1 : c = ch '"'
      · rw [if_pos h1, push_eq (by omega)]
        exact ⟨_, rfl, ⟨List.suffix_cons _ _, by simp [Ok]⟩, by simp⟩
      by_cases h2 : c = ch '\\'
      · rw [show ch '\\' = 92 from rfl] at h2
        subst h2
        rw [if_neg (by decide), if_neg (by decide)]
        cases s with
        | nil => exact ⟨fail, rfl, settled_fail _, by simp [fail]⟩
        | cons e s =>
          simp only
          by_cases h3 : e = ch 'u'
          · rw [show ch 'u' = 117 from rfl] at h3
            subst h3
            rw [if_pos (by decide)]
            match s, hl, hm, hc with
            | [], _, _, hc => exact absurd ⟨[], [], rfl, by simp⟩ hc
            | [x], _, _, hc => exact absurd ⟨[], [x], rfl, by simp⟩ hc
            | [x, y], _, _, hc => exact absurd ⟨[], [x, y], rfl, by simp⟩ hc
            | [x, y, z], _, _, hc => exact ⟨fail, rfl, settled_fail _, by simp [fail]⟩
            | a :: b :: x :: d :: s, hl, hm, hc =>
              simp only
              split
              · rename_i hh
                simp only [Bool.and_eq_true] at hh
                rw [measure_hex hh.1.1.1 hh.1.1.2 hh.1.2 hh.2] at hm
                rw [push_eq (by omega)]
                simp only [List.length_cons] at hl
                have hs : s <:+ 92 :: 117 :: a :: b :: x :: d :: s := ⟨[92, 117, a, b, x, d], rfl⟩
                obtain ⟨p, g1, g2, g3⟩ := ih s.length (by omega) room (out ++ [(nibble a * 4096 + nibble b * 256 + nibble x * 16 + nibble d) % 256]) s (Nat.le_refl _)
                  (by simp; omega) (hc.suffix hs)
                exact ⟨p, by simpa using g1, g2.trans hs, g3⟩
              · exact ⟨fail, rfl, settled_fail _, by simp [fail]⟩
          · rw [if_neg h3]
            rw [measure_escape] at hm
            split
            · rename_i v hv
              rw [push_eq (by omega)]
              simp only [List.length_cons] at hl
              have hs : s <:+ 92 :: e :: s := ⟨[92, e], rfl⟩
              obtain ⟨p, g1, g2, g3⟩ := ih s.length (by omega) room (out ++ [v]) s (Nat.le_refl _) (by simp; omega) (hc.suffix hs)
              exact ⟨p, by simpa using g1, g2.trans hs, g3⟩
            · exact ⟨fail, rfl, settled_fail _, by simp [fail]⟩
      · rw [measure_plain h1 h2] at hm
        rw [if_neg h1, if_pos h2, push_eq (by omega)]
        simp only [List.length_cons] at hl
        have hs : s <:+ c :: s := List.suffix_cons _ _
        obtain ⟨p, g1, g2, g3⟩ := ih s.length (by omega) room (out ++ [c]) s (Nat.le_refl _) (by simp; omega) (hc.suffix hs)
        exact ⟨p, by simpa using g1, g2.trans hs, g3⟩

theorem skipLine_suffix (s : List Nat) : skipLine s <:+ s := by
  induction s with
  | nil => exact List.nil_suffix
  | cons c s ih =>
    unfold skipLine
    split
    · exact List.suffix_rfl
    · exact ih.trans (List.suffix_cons _ _)

theorem skipBlock_suffix (s : List Nat) : skipBlock s <:+ s := by
  fun_induction skipBlock s with
  | case1 => exact List.nil_suffix
  | case2 => exact List.nil_suffix
  | case3 c d s h => exact ⟨[c, d], rfl⟩
  | case4 c d s h ih => exact ih.trans (List.suffix_cons _ _)

theorem skipSpace_suffix (s : List Nat) : skipSpace s <:+ s := by
  fun_induction skipSpace s with
  | case1 => exact List.nil_suffix
  | case2 _ ih => exact ih.trans ((skipLine_suffix _).trans ⟨[_, _], rfl⟩)
  | case3 _ _ ih => exact ih.trans ((skipBlock_suffix _).trans ⟨[_, _], rfl⟩)
  | case4 => exact List.suffix_rfl
  | case5 => exact List.suffix_rfl
  | case6 _ _ _ _ ih => exact ih.trans (List.suffix_cons _ _)
  | case7 => exact List.suffix_rfl

theorem digits_suffix (s : List Nat) : ∀ v, (digits v s).2 <:+ s := by
  induction s with
  | nil => intro v; exact List.nil_suffix
  | cons c s ih =>
    intro v
    unfold digits
    split
    · exact (ih _).trans (List.suffix_cons _ _)
    · exact List.suffix_rfl

theorem decimals_suffix (s : List Nat) : ∀ v d, (decimals v d s).2 <:+ s := by
  induction s with
  | nil => intro v d; exact List.nil_suffix
  | cons c s ih =>
    intro v d
    unfold decimals
    split
    · exact (ih _ _).trans (List.suffix_cons _ _)
    · exact List.suffix_rfl

/-- `json_parse_number` behind the sign and the first digits. -/
def numberTail (value : Rat) (s : List Nat) : P :=
  match s with
  | c :: s' =>
    if c = ch '.' then
      let (d, s) := decimals 0 10 s'
      ⟨.num (value + d), s, false⟩
    else ⟨.num value, c :: s', false⟩
  | [] => ⟨.num value, [], false⟩

theorem numberTail_spec (value : Rat) (s : List Nat) :
    (numberTail value s).cur <:+ s ∧ (∃ q, (numberTail value s).tok = .num q) ∧ (numberTail value s).err = false := by
  unfold numberTail
  split
  · split
    · exact ⟨(decimals_suffix _ _ _).trans (List.suffix_cons _ _), ⟨_, rfl⟩, rfl⟩
    · exact ⟨List.suffix_rfl, ⟨_, rfl⟩, rfl⟩
  · exact ⟨List.nil_suffix, ⟨_, rfl⟩, rfl⟩

theorem number_minus (s : List Nat) : number (45 :: s) = numberTail (digits 0 s).1 (digits 0 s).2 := by
  unfold number
  simp only [show (45 : Nat) = ch '-' from rfl, if_true]
  rfl

theorem number_plus {c : Nat} (h : c ≠ 45) (s : List Nat) :
    number (c :: s) = numberTail (digits 0 (c :: s)).1 (digits 0 (c :: s)).2 := by
  unfold number
  simp only [show ¬ c = ch '-' from h, if_false]
  rfl

theorem number_settled {c : Nat} (h : c = 45 ∨ isDigit c = true) (s : List Nat) :
    (number (c :: s)).cur <:+ s ∧ Ok (number (c :: s)) ∧ (number (c :: s)).tok ≠ .eof := by
  have key : ∃ v t, number (c :: s) = numberTail v t ∧ t <:+ s := by
    by_cases hc : c = 45
    · subst hc
      exact ⟨_, _, number_minus s, digits_suffix _ _⟩
    · refine ⟨_, _, number_plus hc s, ?_⟩
      unfold digits
      rw [if_pos (h.resolve_left hc)]
      exact digits_suffix _ _
  obtain ⟨v, t, e, ht⟩ := key
  obtain ⟨h1, ⟨q, h2⟩, h3⟩ := numberTail_spec v t
  rw [e]
  exact ⟨h1.trans ht, by simp [Ok, h2, h3], by simp [h2]⟩

/-- Either the end, or an error, or something was read. -/
def Good (s : List Nat) (x : Option P) : Prop :=
  ∃ p, x = some p ∧ Settled s p ∧ (p.tok ≠ .eof → p.tok ≠ .error → p.cur.length < s.length)

theorem good_ite {s : List Nat} {c : Prop} [Decidable c] {x y : Option P} (hx : c → Good s x) (hy : Good s y) :
    Good s (if c then x else y) := by
  split
  · exact hx ‹_›
  · exact hy

theorem good_fail (s : List Nat) : Good s (some fail) := ⟨fail, rfl, settled_fail _, by simp [fail]⟩

theorem lex_settled {s : List Nat} (h : NoCut s) : Good s (lex s) := by
  have hs := skipSpace_suffix s
  unfold lex
  generalize skipSpace s = t at hs
  cases t with
  | nil => exact ⟨_, rfl, ⟨hs, by simp [Ok]⟩, by simp⟩
  | cons c t =>
    have hl : t.length < s.length := by have := hs.length_le; rw [List.length_cons] at this; omega
    have hd : ∀ n, t.drop n <:+ s := fun n => (List.drop_suffix n t).trans ((List.suffix_cons _ _).trans hs)
    have sym : ∀ tok : Tok, tok ≠ .error → Good s (some ⟨tok, t, false⟩) := fun tok ht =>
      ⟨_, rfl, ⟨hd 0, by simp [Ok, ht]⟩, fun _ _ => hl⟩
    have word : ∀ (tok : Tok) (n : Nat) (b : Bool), tok ≠ .error →
        Good s (if b = true then some ⟨tok, t.drop n, false⟩ else some fail) := fun tok n b ht =>
      good_ite (fun _ => ⟨_, rfl, ⟨hd n, by simp [Ok, ht]⟩, fun _ _ => by simp; omega⟩) (good_fail s)
    refine good_ite (fun _ => sym _ Tok.noConfusion) (good_ite (fun _ => sym _ Tok.noConfusion)
      (good_ite (fun _ => sym _ Tok.noConfusion) (good_ite (fun _ => sym _ Tok.noConfusion)
      (good_ite (fun _ => sym _ Tok.noConfusion) (good_ite (fun _ => sym _ Tok.noConfusion)
      (good_ite (fun _ => ?_) (good_ite (fun hc => ?_)
      (good_ite (fun _ => word _ 3 _ Tok.noConfusion) (good_ite (fun _ => word _ 4 _ Tok.noConfusion)
      (good_ite (fun _ => word _ 3 _ Tok.noConfusion) (good_fail s)))))))))))
    · obtain ⟨p, h1, h2, h3⟩ := string_settled t.length (measure t + 1) [] t (Nat.le_refl _) (by simp) (h.suffix (hd 0))
      exact ⟨p, h1, h2.trans (hd 0), fun _ _ => Nat.lt_of_le_of_lt h2.1.length_le hl⟩
    · have hc' : c = 45 ∨ isDigit c = true := by
        rw [Bool.or_eq_true] at hc
        rcases hc with hc | hc
        · exact Or.inl (of_decide_eq_true hc)
        · exact Or.inr hc
      obtain ⟨h1, h2, h3⟩ := number_settled hc' t
      exact ⟨_, rfl, ⟨h1.trans (hd 0), h2⟩, fun _ _ => Nat.lt_of_le_of_lt h1.length_le hl⟩

/-- What is still to do. -/
def todo (p : P) : Nat := 2 * p.cur.length + if p.tok = .eof ∨ p.tok = .error then 0 else 1

/-- `q` comes after `p`. -/
def After (p q : P) : Prop := q.cur <:+ p.cur ∧ todo q ≤ todo p ∧ Ok q

theorem After.trans {p q r : P} (h : After p q) (h' : After q r) : After p r :=
  ⟨h'.1.trans h.1, Nat.le_trans h'.2.1 h.2.1, h'.2.2⟩

theorem After.self {p : P} (h : Ok p) : After p p := ⟨List.suffix_rfl, Nat.le_refl _, h⟩

theorem after_fail (p : P) : After p fail := ⟨List.nil_suffix, by simp [todo, fail], by simp [Ok, fail]⟩

theorem lex_after {p : P} (h1 : p.tok ≠ .eof) (h2 : p.tok ≠ .error) (hc : NoCut p.cur) :
    ∃ q, lex p.cur = some q ∧ After p q ∧ todo q < todo p := by
  obtain ⟨q, g1, g2, g3⟩ := lex_settled hc
  have : todo q < todo p := by
    have := g2.1.length_le
    have hp : todo p = 2 * p.cur.length + 1 := by unfold todo; rw [if_neg (by simp [h1, h2])]
    rw [hp]
    unfold todo
    split
    · omega
    · rename_i h
      rw [not_or] at h
      have := g3 h.1 h.2
      omega
  exact ⟨q, g1, ⟨g2.1, Nat.le_of_lt this, g2.2⟩, this⟩

theorem consume_after {p : P} {t : Tok} (h1 : t ≠ .eof) (h2 : t ≠ .error) (hc : NoCut p.cur) (ho : Ok p) :
    ∃ q b, consume p t = some (q, b) ∧ After p q ∧ (b = true → todo q < todo p) := by
  unfold consume
  split
  · rename_i h
    obtain ⟨q, g1, g2, g3⟩ := lex_after (by rw [h]; exact h1) (by rw [h]; exact h2) hc
    rw [g1]
    exact ⟨q, true, rfl, g2, fun _ => g3⟩
  · exact ⟨p, false, rfl, After.self ho, by simp⟩

theorem parse_after (m : Nat) : ∀ p, todo p = m → Ok p → NoCut p.cur →
    (∃ v q, parse p = some (v, q) ∧ After p q) ∧ (∀ els, ∃ v q, arrayLoop els p = some (v, q) ∧ After p q) ∧
    (∀ ms, ∃ v q, objectLoop ms p = some (v, q) ∧ After p q) := by
  induction m using Nat.strongRecOn with
  | _ m ih =>
    intro p hm ho hc
    have step : ∀ q, After p q → todo q < todo p → NoCut q.cur ∧ _ := fun q ha hq =>
      ⟨hc.suffix ha.1, ih (todo q) (by omega) q rfl ha.2.2 (hc.suffix ha.1)⟩
    have word : ∀ v : Obj, p.tok ≠ .eof → p.tok ≠ .error →
        ∃ v' q, ((lex p.cur).bind fun q => some (v, q)) = some (v', q) ∧ After p q := fun v h1 h2 => by
      obtain ⟨q, g1, g2, _⟩ := lex_after h1 h2 hc
      exact ⟨v, q, by rw [g1]; rfl, g2⟩
    have hparse : ∃ v q, parse p = some (v, q) ∧ After p q := by
      rw [parse]
      split
      · exact ⟨_, _, rfl, After.self ho⟩
      · rename_i herr
        split
        · exact ⟨_, _, rfl, After.self ho⟩
        · rename_i h
          exact absurd (ho.1 h) herr
        · rename_i h
          rw [parseObject]
          obtain ⟨q, g1, g2, g3⟩ := lex_after (by simp [h]) (by simp [h]) hc
          have : consume p .lbrace = some (q, true) := by simp [consume, h, g1]
          rw [this]
          simp only [Option.bind_eq_bind, Option.bind_some, Bool.not_true, Bool.false_eq_true, if_false]
          obtain ⟨hq, _, _, hobj⟩ := step q g2 g3
          obtain ⟨r, b, k1, k2, k3⟩ := consume_after (t := .rbrace) (by simp) (by simp) hq g2.2.2
          rw [k1]
          cases b with
          | true => exact ⟨_, r, rfl, g2.trans k2⟩
          | false =>
            simp only [Option.bind_some, Bool.false_eq_true, if_false]
            obtain ⟨_, _, _, hobj⟩ := step r (g2.trans k2) (Nat.lt_of_le_of_lt k2.2.1 g3)
            obtain ⟨v, u, e, ha⟩ := hobj []
            exact ⟨v, u, e, (g2.trans k2).trans ha⟩
        · rename_i h
          rw [parseArray]
          obtain ⟨q, g1, g2, g3⟩ := lex_after (by simp [h]) (by simp [h]) hc
          have : consume p .lbracket = some (q, true) := by simp [consume, h, g1]
          rw [this]
          simp only [Option.bind_eq_bind, Option.bind_some, Bool.not_true, Bool.false_eq_true, if_false]
          obtain ⟨hq, _, _, hobj⟩ := step q g2 g3
          obtain ⟨r, b, k1, k2, k3⟩ := consume_after (t := .rbracket) (by simp) (by simp) hq g2.2.2
          rw [k1]
          cases b with
          | true => exact ⟨_, r, rfl, g2.trans k2⟩
          | false =>
            simp only [Option.bind_some, Bool.false_eq_true, if_false]
            obtain ⟨_, _, harr, _⟩ := step r (g2.trans k2) (Nat.lt_of_le_of_lt k2.2.1 g3)
            obtain ⟨v, u, e, ha⟩ := harr []
            exact ⟨v, u, e, (g2.trans k2).trans ha⟩
        · exact ⟨_, _, rfl, after_fail p⟩
        · exact ⟨_, _, rfl, after_fail p⟩
        · exact ⟨_, _, rfl, after_fail p⟩
        · exact ⟨_, _, rfl, after_fail p⟩
        · rename_i h; exact word _ (by simp [h]) (by simp [h])
        · rename_i h; exact word _ (by simp [h]) (by simp [h])
        · rename_i h; exact word _ (by simp [h]) (by simp [h])
        · rename_i h; exact word _ (by simp [h]) (by simp [h])
        · rename_i h; exact word _ (by simp [h]) (by simp [h])
    refine ⟨hparse, ?_, ?_⟩
    · intro els
      rw [arrayLoop]
      obtain ⟨v, q, e, ha⟩ := hparse
      rw [e]
      simp only [Option.bind_eq_bind, Option.bind_some]
      split
      · exact ⟨_, _, rfl, ha⟩
      · obtain ⟨r, b, k1, k2, k3⟩ := consume_after (t := .rbracket) (by simp) (by simp) (hc.suffix ha.1) ha.2.2
        rw [k1]
        have a2 := ha.trans k2
        cases b with
        | true => exact ⟨_, r, rfl, a2⟩
        | false =>
          simp only [Option.bind_some, Bool.false_eq_true, if_false]
          obtain ⟨r', b, k1', k2', k3'⟩ := consume_after (t := .comma) (by simp) (by simp) (hc.suffix a2.1) a2.2.2
          rw [k1']
          have a3 := a2.trans k2'
          cases b with
          | false => exact ⟨_, _, rfl, after_fail p⟩
          | true =>
            simp only [Option.bind_some, Bool.not_true, Bool.false_eq_true, if_false]
            obtain ⟨r'', b, l1, l2, l3⟩ := consume_after (t := .rbracket) (by simp) (by simp) (hc.suffix a3.1) a3.2.2
            rw [l1]
            have a4 := a3.trans l2
            cases b with
            | true => exact ⟨_, _, rfl, a4⟩
            | false =>
              simp only [Option.bind_some, Bool.false_eq_true, if_false]
              have h1 := k3' rfl
              have h2 := a2.2.1
              have h3 := l2.2.1
              obtain ⟨_, _, harr, _⟩ := step r'' a4 (by omega)
              obtain ⟨v', u, e', ha'⟩ := harr (els ++ [v])
              exact ⟨v', u, e', a4.trans ha'⟩
    · intro ms
      rw [objectLoop]
      split
      · rename_i key h
        obtain ⟨q, g1, g2, g3⟩ := lex_after (by simp [h]) (by simp [h]) hc
        rw [g1]
        simp only [Option.bind_eq_bind, Option.bind_some]
        obtain ⟨r, b, k1, k2, k3⟩ := consume_after (t := .colon) (by simp) (by simp) (hc.suffix g2.1) g2.2.2
        rw [k1]
        have a2 := g2.trans k2
        cases b with
        | false => exact ⟨_, _, rfl, after_fail p⟩
        | true =>
          simp only [Option.bind_some, Bool.not_true, Bool.false_eq_true, if_false]
          have hr := k2.2.1
          obtain ⟨_, ⟨v, q', e, ha⟩, _, _⟩ := step r a2 (by omega)
          rw [e]
          have a3 := a2.trans ha
          simp only [Option.bind_some]
          split
          · exact ⟨_, _, rfl, a3⟩
          · obtain ⟨r1, b, l1, l2, l3⟩ := consume_after (t := .rbrace) (by simp) (by simp) (hc.suffix a3.1) a3.2.2
            rw [l1]
            have a4 := a3.trans l2
            cases b with
            | true => exact ⟨_, _, rfl, a4⟩
            | false =>
              simp only [Option.bind_some, Bool.false_eq_true, if_false]
              obtain ⟨r2, b, o1, o2, o3⟩ := consume_after (t := .comma) (by simp) (by simp) (hc.suffix a4.1) a4.2.2
              rw [o1]
              have a5 := a4.trans o2
              cases b with
              | false => exact ⟨_, _, rfl, after_fail p⟩
              | true =>
                simp only [Option.bind_some, Bool.not_true, Bool.false_eq_true, if_false]
                obtain ⟨r3, b, t1, t2, t3⟩ := consume_after (t := .rbrace) (by simp) (by simp) (hc.suffix a5.1) a5.2.2
                rw [t1]
                have a6 := a5.trans t2
                cases b with
                | true => exact ⟨_, _, rfl, a6⟩
                | false =>
                  simp only [Option.bind_some, Bool.false_eq_true, if_false]
                  have h1 := o3 rfl
                  have h2 := a4.2.1
                  have h3 := t2.2.1
                  obtain ⟨_, _, _, hobj⟩ := step r3 a6 (by omega)
                  obtain ⟨v', u, e', ha'⟩ := hobj (ms ++ [(key, v)])
                  exact ⟨v', u, e', a6.trans ha'⟩
      · exact ⟨_, _, rfl, after_fail p⟩

theorem load_total {s : List Nat} (h : NoCut s) : ∃ r, load s = some r := by
  obtain ⟨p, h1, h2, _⟩ := lex_settled h
  obtain ⟨⟨v, q, e, _⟩, _⟩ := parse_after _ p rfl h2.2 (h.suffix h2.1)
  exact ⟨_, by rw [load, h1]; simp [e]; rfl⟩

end C3.Json
