import Verif.Lexer.PropsText

/-! # Operators -/

set_option autoImplicit false
set_option linter.unusedSimpArgs false

namespace C3.Lexer

open Spec (NoGap str ops Longest)

theorem accept_rd (src : Src) {l : Lx} {d : Nat} (c : Nat) (hl : l.pos ≤ src.length) (h : rd src l.pos = some d) :
    accept src l c = some (if d = c then (adv1 src l, true) else (l, false)) := by
  unfold accept peek
  simp only [h, Option.bind_eq_bind, Option.bind_some, next_eq src hl]
  by_cases e : d = c
  · simp [e]
  · simp [e]

/-- The rest of an operator after its first character, as `alternatives` and `doubled` see it. -/
theorem alternatives_rd (src : Src) {l : Lx} {d : Nat} (hl : l.pos ≤ src.length) (h : rd src l.pos = some d)
    (s : String) (alts : List (Char × String)) :
    alternatives src l s alts = some (match alts.find? (fun a => d = ch a.1) with
      | some a => (adv1 src l, some (.sym a.2))
      | none => (l, some (.sym s))) := by
  induction alts with
  | nil => rfl
  | cons a alts ih =>
    simp only [alternatives, accept_rd src _ hl h, Option.bind_eq_bind, Option.bind_some]
    by_cases e : d = ch a.1
    · simp [e]
    · simp [e, ih]

theorem scanToken_sym (src : Src) (hz : NoNul src) (hcr : ∀ c ∈ src, c ≠ 13) (keyword : List Nat → Bool) {l : Lx} {c : Nat}
    {s : List Nat} {op : String} {k : Nat} (hs : src.drop l.pos = c :: s) (hn : NoGap l.contracts (src.drop l.pos))
    (h : scanTok src keyword c (adv1 src (begin_ l)) = some (advN src (begin_ l) k, some (.sym op))) :
    scanToken src keyword l = some (advN src (begin_ l) k, .tok (.sym op)) := by
  rw [scanToken_at src hz hcr keyword hs (hs ▸ hn), h]
  rfl

/-- The operator read is the longest one in the table that fits.  Outside contracts `<*` is no operator but opens one, in
contracts `*>` closes it. -/
theorem C45_longest (src : Src) (hz : NoNul src) (hcr : ∀ c ∈ src, c ≠ 13) (keyword : List Nat → Bool) (l : Lx)
    (op : String) (hn : NoGap l.contracts (src.drop l.pos)) (hop : Longest op (src.drop l.pos))
    (hopen : l.contracts = false → ¬ str "<*" <+: src.drop l.pos)
    (hclose : l.contracts = true → ¬ str "*>" <+: src.drop l.pos) :
    ∃ l', l'.pos = l.pos + (str op).length ∧ l'.contracts = l.contracts ∧
      scanToken src keyword l = some (l', .tok (.sym op)) := by
  obtain ⟨hop, ⟨r, hr⟩, hmax⟩ := hop
  refine ⟨advN src (begin_ l) (str op).length, by simp [begin_], by simp [begin_], ?_⟩
  have hlen : l.pos + (str op).length ≤ src.length := by
    have := congrArg List.length hr
    simp at this
    have : 0 < (str op).length := by
      have : ∀ o ∈ ops, 0 < (str o).length := by decide
      exact this op hop
    omega
  obtain ⟨d, hd⟩ := rd_some src hlen
  have hdr : src.drop (l.pos + (str op).length) = r := drop_append hr.symm
  have hnext : ∀ x, x ≠ 0 → d = x → str op ++ [x] <+: src.drop l.pos := by
    rintro x hx rfl
    have hlt := rd_lt src hd hx
    rw [rd_getElem src hlt] at hd
    have : r = d :: src.drop (l.pos + (str op).length + 1) := by
      rw [← hdr, List.drop_eq_getElem_cons hlt, Option.some.inj hd]
    exact ⟨src.drop (l.pos + (str op).length + 1), by rw [← hr, this]; simp⟩
  have hd' : ∀ o ∈ ops, ∀ x, x ≠ 0 → str o = str op ++ [x] → d ≠ x := by
    intro o ho x hx he e
    have := hmax o ho (by rw [he]; exact hnext x hx e)
    rw [he] at this
    simp at this
    omega
  have ho : ∀ x, x ≠ 0 → str "<*" = str op ++ [x] → l.contracts = false → d ≠ x := by
    intro x hx he hm e
    exact hopen hm (by rw [he]; exact hnext x hx e)
  have hc : ∀ x, x ≠ 0 → str "*>" = str op ++ [x] → l.contracts = true → d ≠ x := by
    intro x hx he hm e
    exact hclose hm (by rw [he]; exact hnext x hx e)
  clear hmax hnext hopen hclose
  have h1 : 1 ≤ (str op).length → (adv1 src (begin_ l)).pos ≤ src.length := by intro h; simp [begin_]; omega
  have h2 : 2 ≤ (str op).length → (adv1 src (adv1 src (begin_ l))).pos ≤ src.length := by intro h; simp [begin_]; omega
  have q0 : (begin_ l).contracts = l.contracts := rfl
  have q1 : (adv1 src (begin_ l)).pos = l.pos + 1 := by simp [begin_]
  have q2 : (adv1 src (adv1 src (begin_ l))).pos = l.pos + 1 + 1 := by simp [begin_]
  simp only [ops, List.mem_cons, List.not_mem_nil, or_false] at hop
  rcases hop with rfl | rfl | rfl | rfl | rfl | rfl | rfl | rfl | rfl | rfl | rfl | rfl | rfl | rfl | rfl | rfl | rfl | rfl |
    rfl | rfl | rfl | rfl | rfl | rfl | rfl | rfl | rfl | rfl | rfl | rfl | rfl | rfl | rfl | rfl | rfl | rfl |
    rfl | rfl | rfl | rfl | rfl | rfl | rfl | rfl | rfl | rfl | rfl | rfl | rfl | rfl | rfl | rfl | rfl | rfl |
    rfl | rfl | rfl
  · have hs : src.drop l.pos = 44 :: r := hr.symm
    have g1 : rd src (adv1 src (begin_ l)).pos = some d := by rw [q1]; exact hd
    refine scanToken_sym src hz hcr keyword hs hn (op := ",") (k := 1) ?_
    simp [scanTok, ch, doubled, accept_rd src _ (h1 (by decide)) g1, alternatives_rd src (h1 (by decide)) g1, advN]
  · have hs : src.drop l.pos = 59 :: r := hr.symm
    have g1 : rd src (adv1 src (begin_ l)).pos = some d := by rw [q1]; exact hd
    refine scanToken_sym src hz hcr keyword hs hn (op := ";") (k := 1) ?_
    simp [scanTok, ch, doubled, accept_rd src _ (h1 (by decide)) g1, alternatives_rd src (h1 (by decide)) g1, advN]
  · have hs : src.drop l.pos = 123 :: r := hr.symm
    have g1 : rd src (adv1 src (begin_ l)).pos = some d := by rw [q1]; exact hd
    refine scanToken_sym src hz hcr keyword hs hn (op := "{") (k := 1) ?_
    simp [scanTok, ch, doubled, accept_rd src _ (h1 (by decide)) g1, alternatives_rd src (h1 (by decide)) g1, advN]
  · have hs : src.drop l.pos = 125 :: r := hr.symm
    have g1 : rd src (adv1 src (begin_ l)).pos = some d := by rw [q1]; exact hd
    refine scanToken_sym src hz hcr keyword hs hn (op := "}") (k := 1) ?_
    simp [scanTok, ch, doubled, accept_rd src _ (h1 (by decide)) g1, alternatives_rd src (h1 (by decide)) g1, advN]
  · have hs : src.drop l.pos = 40 :: r := hr.symm
    have g1 : rd src (adv1 src (begin_ l)).pos = some d := by rw [q1]; exact hd
    refine scanToken_sym src hz hcr keyword hs hn (op := "(") (k := 1) ?_
    simp [scanTok, ch, doubled, accept_rd src _ (h1 (by decide)) g1, alternatives_rd src (h1 (by decide)) g1, advN]
  · have hs : src.drop l.pos = 41 :: r := hr.symm
    have g1 : rd src (adv1 src (begin_ l)).pos = some d := by rw [q1]; exact hd
    refine scanToken_sym src hz hcr keyword hs hn (op := ")") (k := 1) ?_
    simp [scanTok, ch, doubled, accept_rd src _ (h1 (by decide)) g1, alternatives_rd src (h1 (by decide)) g1, advN]
  · have hs : src.drop l.pos = 91 :: r := hr.symm
    have e0 := hd' "[<" (by decide) 60 (by decide) rfl
    have g1 : rd src (adv1 src (begin_ l)).pos = some d := by rw [q1]; exact hd
    refine scanToken_sym src hz hcr keyword hs hn (op := "[") (k := 1) ?_
    simp [scanTok, ch, doubled, e0, accept_rd src _ (h1 (by decide)) g1, alternatives_rd src (h1 (by decide)) g1, advN]
  · have hs : src.drop l.pos = 91 :: 60 :: r := hr.symm
    have g1 : rd src (adv1 src (begin_ l)).pos = some 60 := by rw [q1]; exact (drop_cons (drop_cons hs).2.2).2.1
    have g2 : rd src (adv1 src (adv1 src (begin_ l))).pos = some d := by rw [q2]; exact hd
    refine scanToken_sym src hz hcr keyword hs hn (op := "[<") (k := 2) ?_
    simp [scanTok, ch, doubled, accept_rd src _ (h1 (by decide)) g1, alternatives_rd src (h1 (by decide)) g1, accept_rd src _ (h2 (by decide)) g2, alternatives_rd src (h2 (by decide)) g2, advN]
  · have hs : src.drop l.pos = 93 :: r := hr.symm
    have g1 : rd src (adv1 src (begin_ l)).pos = some d := by rw [q1]; exact hd
    refine scanToken_sym src hz hcr keyword hs hn (op := "]") (k := 1) ?_
    simp [scanTok, ch, doubled, accept_rd src _ (h1 (by decide)) g1, alternatives_rd src (h1 (by decide)) g1, advN]
  · have hs : src.drop l.pos = 46 :: r := hr.symm
    have e0 := hd' ".." (by decide) 46 (by decide) rfl
    have g1 : rd src (adv1 src (begin_ l)).pos = some d := by rw [q1]; exact hd
    refine scanToken_sym src hz hcr keyword hs hn (op := ".") (k := 1) ?_
    simp [scanTok, ch, doubled, e0, accept_rd src _ (h1 (by decide)) g1, alternatives_rd src (h1 (by decide)) g1, advN]
  · have hs : src.drop l.pos = 46 :: 46 :: r := hr.symm
    have e0 := hd' "..." (by decide) 46 (by decide) rfl
    have g1 : rd src (adv1 src (begin_ l)).pos = some 46 := by rw [q1]; exact (drop_cons (drop_cons hs).2.2).2.1
    have g2 : rd src (adv1 src (adv1 src (begin_ l))).pos = some d := by rw [q2]; exact hd
    refine scanToken_sym src hz hcr keyword hs hn (op := "..") (k := 2) ?_
    simp [scanTok, ch, doubled, e0, accept_rd src _ (h1 (by decide)) g1, alternatives_rd src (h1 (by decide)) g1, accept_rd src _ (h2 (by decide)) g2, alternatives_rd src (h2 (by decide)) g2, advN]
  · have hs : src.drop l.pos = 46 :: 46 :: 46 :: r := hr.symm
    have g1 : rd src (adv1 src (begin_ l)).pos = some 46 := by rw [q1]; exact (drop_cons (drop_cons hs).2.2).2.1
    have g2 : rd src (adv1 src (adv1 src (begin_ l))).pos = some 46 := by
      rw [q2]; exact (drop_cons (drop_cons (drop_cons hs).2.2).2.2).2.1
    refine scanToken_sym src hz hcr keyword hs hn (op := "...") (k := 3) ?_
    simp [scanTok, ch, doubled, accept_rd src _ (h1 (by decide)) g1, alternatives_rd src (h1 (by decide)) g1, accept_rd src _ (h2 (by decide)) g2, alternatives_rd src (h2 (by decide)) g2, advN]
  · have hs : src.drop l.pos = 126 :: r := hr.symm
    have g1 : rd src (adv1 src (begin_ l)).pos = some d := by rw [q1]; exact hd
    refine scanToken_sym src hz hcr keyword hs hn (op := "~") (k := 1) ?_
    simp [scanTok, ch, doubled, accept_rd src _ (h1 (by decide)) g1, alternatives_rd src (h1 (by decide)) g1, advN]
  · have hs : src.drop l.pos = 58 :: r := hr.symm
    have e0 := hd' "::" (by decide) 58 (by decide) rfl
    have g1 : rd src (adv1 src (begin_ l)).pos = some d := by rw [q1]; exact hd
    refine scanToken_sym src hz hcr keyword hs hn (op := ":") (k := 1) ?_
    simp [scanTok, ch, doubled, e0, accept_rd src _ (h1 (by decide)) g1, alternatives_rd src (h1 (by decide)) g1, advN]
  · have hs : src.drop l.pos = 58 :: 58 :: r := hr.symm
    have g1 : rd src (adv1 src (begin_ l)).pos = some 58 := by rw [q1]; exact (drop_cons (drop_cons hs).2.2).2.1
    have g2 : rd src (adv1 src (adv1 src (begin_ l))).pos = some d := by rw [q2]; exact hd
    refine scanToken_sym src hz hcr keyword hs hn (op := "::") (k := 2) ?_
    simp [scanTok, ch, doubled, accept_rd src _ (h1 (by decide)) g1, alternatives_rd src (h1 (by decide)) g1, accept_rd src _ (h2 (by decide)) g2, alternatives_rd src (h2 (by decide)) g2, advN]
  · have hs : src.drop l.pos = 33 :: r := hr.symm
    have e0 := hd' "!!" (by decide) 33 (by decide) rfl
    have e1 := hd' "!=" (by decide) 61 (by decide) rfl
    have g1 : rd src (adv1 src (begin_ l)).pos = some d := by rw [q1]; exact hd
    refine scanToken_sym src hz hcr keyword hs hn (op := "!") (k := 1) ?_
    simp [scanTok, ch, doubled, e0, e1, accept_rd src _ (h1 (by decide)) g1, alternatives_rd src (h1 (by decide)) g1, advN]
  · have hs : src.drop l.pos = 33 :: 33 :: r := hr.symm
    have g1 : rd src (adv1 src (begin_ l)).pos = some 33 := by rw [q1]; exact (drop_cons (drop_cons hs).2.2).2.1
    have g2 : rd src (adv1 src (adv1 src (begin_ l))).pos = some d := by rw [q2]; exact hd
    refine scanToken_sym src hz hcr keyword hs hn (op := "!!") (k := 2) ?_
    simp [scanTok, ch, doubled, accept_rd src _ (h1 (by decide)) g1, alternatives_rd src (h1 (by decide)) g1, accept_rd src _ (h2 (by decide)) g2, alternatives_rd src (h2 (by decide)) g2, advN]
  · have hs : src.drop l.pos = 33 :: 61 :: r := hr.symm
    have g1 : rd src (adv1 src (begin_ l)).pos = some 61 := by rw [q1]; exact (drop_cons (drop_cons hs).2.2).2.1
    have g2 : rd src (adv1 src (adv1 src (begin_ l))).pos = some d := by rw [q2]; exact hd
    refine scanToken_sym src hz hcr keyword hs hn (op := "!=") (k := 2) ?_
    simp [scanTok, ch, doubled, accept_rd src _ (h1 (by decide)) g1, alternatives_rd src (h1 (by decide)) g1, accept_rd src _ (h2 (by decide)) g2, alternatives_rd src (h2 (by decide)) g2, advN]
  · have hs : src.drop l.pos = 47 :: r := hr.symm
    have e0 := hd' "/=" (by decide) 61 (by decide) rfl
    have g1 : rd src (adv1 src (begin_ l)).pos = some d := by rw [q1]; exact hd
    refine scanToken_sym src hz hcr keyword hs hn (op := "/") (k := 1) ?_
    simp [scanTok, ch, doubled, e0, accept_rd src _ (h1 (by decide)) g1, alternatives_rd src (h1 (by decide)) g1, advN]
  · have hs : src.drop l.pos = 47 :: 61 :: r := hr.symm
    have g1 : rd src (adv1 src (begin_ l)).pos = some 61 := by rw [q1]; exact (drop_cons (drop_cons hs).2.2).2.1
    have g2 : rd src (adv1 src (adv1 src (begin_ l))).pos = some d := by rw [q2]; exact hd
    refine scanToken_sym src hz hcr keyword hs hn (op := "/=") (k := 2) ?_
    simp [scanTok, ch, doubled, accept_rd src _ (h1 (by decide)) g1, alternatives_rd src (h1 (by decide)) g1, accept_rd src _ (h2 (by decide)) g2, alternatives_rd src (h2 (by decide)) g2, advN]
  · have hs : src.drop l.pos = 42 :: r := hr.symm
    have e0 := hd' "*=" (by decide) 61 (by decide) rfl
    have g1 : rd src (adv1 src (begin_ l)).pos = some d := by rw [q1]; exact hd
    refine scanToken_sym src hz hcr keyword hs hn (op := "*") (k := 1) ?_
    have hm := hc 62 (by decide) rfl
    cases hb : l.contracts with
    | false =>
      simp [q0, hb, scanTok, ch, doubled, e0, accept_rd src _ (h1 (by decide)) g1, alternatives_rd src (h1 (by decide)) g1, advN]
    | true =>
      have e9 := hm hb
      simp [q0, hb, scanTok, ch, doubled, e0, accept_rd src _ (h1 (by decide)) g1, alternatives_rd src (h1 (by decide)) g1, e9, advN]
  · have hs : src.drop l.pos = 42 :: 61 :: r := hr.symm
    have g1 : rd src (adv1 src (begin_ l)).pos = some 61 := by rw [q1]; exact (drop_cons (drop_cons hs).2.2).2.1
    have g2 : rd src (adv1 src (adv1 src (begin_ l))).pos = some d := by rw [q2]; exact hd
    refine scanToken_sym src hz hcr keyword hs hn (op := "*=") (k := 2) ?_
    simp [scanTok, ch, doubled, accept_rd src _ (h1 (by decide)) g1, alternatives_rd src (h1 (by decide)) g1, accept_rd src _ (h2 (by decide)) g2, alternatives_rd src (h2 (by decide)) g2, advN]
  · have hs : src.drop l.pos = 61 :: r := hr.symm
    have e0 := hd' "=>" (by decide) 62 (by decide) rfl
    have e1 := hd' "==" (by decide) 61 (by decide) rfl
    have g1 : rd src (adv1 src (begin_ l)).pos = some d := by rw [q1]; exact hd
    refine scanToken_sym src hz hcr keyword hs hn (op := "=") (k := 1) ?_
    simp [scanTok, ch, doubled, e0, e1, accept_rd src _ (h1 (by decide)) g1, alternatives_rd src (h1 (by decide)) g1, advN]
  · have hs : src.drop l.pos = 61 :: 62 :: r := hr.symm
    have g1 : rd src (adv1 src (begin_ l)).pos = some 62 := by rw [q1]; exact (drop_cons (drop_cons hs).2.2).2.1
    have g2 : rd src (adv1 src (adv1 src (begin_ l))).pos = some d := by rw [q2]; exact hd
    refine scanToken_sym src hz hcr keyword hs hn (op := "=>") (k := 2) ?_
    simp [scanTok, ch, doubled, accept_rd src _ (h1 (by decide)) g1, alternatives_rd src (h1 (by decide)) g1, accept_rd src _ (h2 (by decide)) g2, alternatives_rd src (h2 (by decide)) g2, advN]
  · have hs : src.drop l.pos = 61 :: 61 :: r := hr.symm
    have g1 : rd src (adv1 src (begin_ l)).pos = some 61 := by rw [q1]; exact (drop_cons (drop_cons hs).2.2).2.1
    have g2 : rd src (adv1 src (adv1 src (begin_ l))).pos = some d := by rw [q2]; exact hd
    refine scanToken_sym src hz hcr keyword hs hn (op := "==") (k := 2) ?_
    simp [scanTok, ch, doubled, accept_rd src _ (h1 (by decide)) g1, alternatives_rd src (h1 (by decide)) g1, accept_rd src _ (h2 (by decide)) g2, alternatives_rd src (h2 (by decide)) g2, advN]
  · have hs : src.drop l.pos = 94 :: r := hr.symm
    have e0 := hd' "^=" (by decide) 61 (by decide) rfl
    have g1 : rd src (adv1 src (begin_ l)).pos = some d := by rw [q1]; exact hd
    refine scanToken_sym src hz hcr keyword hs hn (op := "^") (k := 1) ?_
    simp [scanTok, ch, doubled, e0, accept_rd src _ (h1 (by decide)) g1, alternatives_rd src (h1 (by decide)) g1, advN]
  · have hs : src.drop l.pos = 94 :: 61 :: r := hr.symm
    have g1 : rd src (adv1 src (begin_ l)).pos = some 61 := by rw [q1]; exact (drop_cons (drop_cons hs).2.2).2.1
    have g2 : rd src (adv1 src (adv1 src (begin_ l))).pos = some d := by rw [q2]; exact hd
    refine scanToken_sym src hz hcr keyword hs hn (op := "^=") (k := 2) ?_
    simp [scanTok, ch, doubled, accept_rd src _ (h1 (by decide)) g1, alternatives_rd src (h1 (by decide)) g1, accept_rd src _ (h2 (by decide)) g2, alternatives_rd src (h2 (by decide)) g2, advN]
  · have hs : src.drop l.pos = 63 :: r := hr.symm
    have e0 := hd' "??" (by decide) 63 (by decide) rfl
    have e1 := hd' "?:" (by decide) 58 (by decide) rfl
    have g1 : rd src (adv1 src (begin_ l)).pos = some d := by rw [q1]; exact hd
    refine scanToken_sym src hz hcr keyword hs hn (op := "?") (k := 1) ?_
    simp [scanTok, ch, doubled, e0, e1, accept_rd src _ (h1 (by decide)) g1, alternatives_rd src (h1 (by decide)) g1, advN]
  · have hs : src.drop l.pos = 63 :: 63 :: r := hr.symm
    have g1 : rd src (adv1 src (begin_ l)).pos = some 63 := by rw [q1]; exact (drop_cons (drop_cons hs).2.2).2.1
    have g2 : rd src (adv1 src (adv1 src (begin_ l))).pos = some d := by rw [q2]; exact hd
    refine scanToken_sym src hz hcr keyword hs hn (op := "??") (k := 2) ?_
    simp [scanTok, ch, doubled, accept_rd src _ (h1 (by decide)) g1, alternatives_rd src (h1 (by decide)) g1, accept_rd src _ (h2 (by decide)) g2, alternatives_rd src (h2 (by decide)) g2, advN]
  · have hs : src.drop l.pos = 63 :: 58 :: r := hr.symm
    have g1 : rd src (adv1 src (begin_ l)).pos = some 58 := by rw [q1]; exact (drop_cons (drop_cons hs).2.2).2.1
    have g2 : rd src (adv1 src (adv1 src (begin_ l))).pos = some d := by rw [q2]; exact hd
    refine scanToken_sym src hz hcr keyword hs hn (op := "?:") (k := 2) ?_
    simp [scanTok, ch, doubled, accept_rd src _ (h1 (by decide)) g1, alternatives_rd src (h1 (by decide)) g1, accept_rd src _ (h2 (by decide)) g2, alternatives_rd src (h2 (by decide)) g2, advN]
  · have hs : src.drop l.pos = 60 :: r := hr.symm
    have e0 := hd' "<<" (by decide) 60 (by decide) rfl
    have e1 := hd' "<=" (by decide) 61 (by decide) rfl
    have g1 : rd src (adv1 src (begin_ l)).pos = some d := by rw [q1]; exact hd
    refine scanToken_sym src hz hcr keyword hs hn (op := "<") (k := 1) ?_
    have hm := ho 42 (by decide) rfl
    cases hb : l.contracts with
    | false =>
      have e9 := hm hb
      simp [q0, hb, scanTok, ch, doubled, e0, e1, accept_rd src _ (h1 (by decide)) g1, alternatives_rd src (h1 (by decide)) g1, e9, advN]
    | true =>
      simp [q0, hb, scanTok, ch, doubled, e0, e1, accept_rd src _ (h1 (by decide)) g1, alternatives_rd src (h1 (by decide)) g1, advN]
  · have hs : src.drop l.pos = 60 :: 60 :: r := hr.symm
    have e0 := hd' "<<=" (by decide) 61 (by decide) rfl
    have g1 : rd src (adv1 src (begin_ l)).pos = some 60 := by rw [q1]; exact (drop_cons (drop_cons hs).2.2).2.1
    have g2 : rd src (adv1 src (adv1 src (begin_ l))).pos = some d := by rw [q2]; exact hd
    refine scanToken_sym src hz hcr keyword hs hn (op := "<<") (k := 2) ?_
    simp [scanTok, ch, doubled, e0, accept_rd src _ (h1 (by decide)) g1, alternatives_rd src (h1 (by decide)) g1, accept_rd src _ (h2 (by decide)) g2, alternatives_rd src (h2 (by decide)) g2, advN]
  · have hs : src.drop l.pos = 60 :: 60 :: 61 :: r := hr.symm
    have g1 : rd src (adv1 src (begin_ l)).pos = some 60 := by rw [q1]; exact (drop_cons (drop_cons hs).2.2).2.1
    have g2 : rd src (adv1 src (adv1 src (begin_ l))).pos = some 61 := by
      rw [q2]; exact (drop_cons (drop_cons (drop_cons hs).2.2).2.2).2.1
    refine scanToken_sym src hz hcr keyword hs hn (op := "<<=") (k := 3) ?_
    simp [scanTok, ch, doubled, accept_rd src _ (h1 (by decide)) g1, alternatives_rd src (h1 (by decide)) g1, accept_rd src _ (h2 (by decide)) g2, alternatives_rd src (h2 (by decide)) g2, advN]
  · have hs : src.drop l.pos = 60 :: 61 :: r := hr.symm
    have g1 : rd src (adv1 src (begin_ l)).pos = some 61 := by rw [q1]; exact (drop_cons (drop_cons hs).2.2).2.1
    have g2 : rd src (adv1 src (adv1 src (begin_ l))).pos = some d := by rw [q2]; exact hd
    refine scanToken_sym src hz hcr keyword hs hn (op := "<=") (k := 2) ?_
    simp [scanTok, ch, doubled, accept_rd src _ (h1 (by decide)) g1, alternatives_rd src (h1 (by decide)) g1, accept_rd src _ (h2 (by decide)) g2, alternatives_rd src (h2 (by decide)) g2, advN]
  · have hs : src.drop l.pos = 62 :: r := hr.symm
    have e0 := hd' ">>" (by decide) 62 (by decide) rfl
    have e1 := hd' ">]" (by decide) 93 (by decide) rfl
    have e2 := hd' ">=" (by decide) 61 (by decide) rfl
    have g1 : rd src (adv1 src (begin_ l)).pos = some d := by rw [q1]; exact hd
    refine scanToken_sym src hz hcr keyword hs hn (op := ">") (k := 1) ?_
    simp [scanTok, ch, doubled, e0, e1, e2, accept_rd src _ (h1 (by decide)) g1, alternatives_rd src (h1 (by decide)) g1, advN]
  · have hs : src.drop l.pos = 62 :: 62 :: r := hr.symm
    have e0 := hd' ">>=" (by decide) 61 (by decide) rfl
    have g1 : rd src (adv1 src (begin_ l)).pos = some 62 := by rw [q1]; exact (drop_cons (drop_cons hs).2.2).2.1
    have g2 : rd src (adv1 src (adv1 src (begin_ l))).pos = some d := by rw [q2]; exact hd
    refine scanToken_sym src hz hcr keyword hs hn (op := ">>") (k := 2) ?_
    simp [scanTok, ch, doubled, e0, accept_rd src _ (h1 (by decide)) g1, alternatives_rd src (h1 (by decide)) g1, accept_rd src _ (h2 (by decide)) g2, alternatives_rd src (h2 (by decide)) g2, advN]
  · have hs : src.drop l.pos = 62 :: 62 :: 61 :: r := hr.symm
    have g1 : rd src (adv1 src (begin_ l)).pos = some 62 := by rw [q1]; exact (drop_cons (drop_cons hs).2.2).2.1
    have g2 : rd src (adv1 src (adv1 src (begin_ l))).pos = some 61 := by
      rw [q2]; exact (drop_cons (drop_cons (drop_cons hs).2.2).2.2).2.1
    refine scanToken_sym src hz hcr keyword hs hn (op := ">>=") (k := 3) ?_
    simp [scanTok, ch, doubled, accept_rd src _ (h1 (by decide)) g1, alternatives_rd src (h1 (by decide)) g1, accept_rd src _ (h2 (by decide)) g2, alternatives_rd src (h2 (by decide)) g2, advN]
  · have hs : src.drop l.pos = 62 :: 93 :: r := hr.symm
    have g1 : rd src (adv1 src (begin_ l)).pos = some 93 := by rw [q1]; exact (drop_cons (drop_cons hs).2.2).2.1
    have g2 : rd src (adv1 src (adv1 src (begin_ l))).pos = some d := by rw [q2]; exact hd
    refine scanToken_sym src hz hcr keyword hs hn (op := ">]") (k := 2) ?_
    simp [scanTok, ch, doubled, accept_rd src _ (h1 (by decide)) g1, alternatives_rd src (h1 (by decide)) g1, accept_rd src _ (h2 (by decide)) g2, alternatives_rd src (h2 (by decide)) g2, advN]
  · have hs : src.drop l.pos = 62 :: 61 :: r := hr.symm
    have g1 : rd src (adv1 src (begin_ l)).pos = some 61 := by rw [q1]; exact (drop_cons (drop_cons hs).2.2).2.1
    have g2 : rd src (adv1 src (adv1 src (begin_ l))).pos = some d := by rw [q2]; exact hd
    refine scanToken_sym src hz hcr keyword hs hn (op := ">=") (k := 2) ?_
    simp [scanTok, ch, doubled, accept_rd src _ (h1 (by decide)) g1, alternatives_rd src (h1 (by decide)) g1, accept_rd src _ (h2 (by decide)) g2, alternatives_rd src (h2 (by decide)) g2, advN]
  · have hs : src.drop l.pos = 37 :: r := hr.symm
    have e0 := hd' "%=" (by decide) 61 (by decide) rfl
    have g1 : rd src (adv1 src (begin_ l)).pos = some d := by rw [q1]; exact hd
    refine scanToken_sym src hz hcr keyword hs hn (op := "%") (k := 1) ?_
    simp [scanTok, ch, doubled, e0, accept_rd src _ (h1 (by decide)) g1, alternatives_rd src (h1 (by decide)) g1, advN]
  · have hs : src.drop l.pos = 37 :: 61 :: r := hr.symm
    have g1 : rd src (adv1 src (begin_ l)).pos = some 61 := by rw [q1]; exact (drop_cons (drop_cons hs).2.2).2.1
    have g2 : rd src (adv1 src (adv1 src (begin_ l))).pos = some d := by rw [q2]; exact hd
    refine scanToken_sym src hz hcr keyword hs hn (op := "%=") (k := 2) ?_
    simp [scanTok, ch, doubled, accept_rd src _ (h1 (by decide)) g1, alternatives_rd src (h1 (by decide)) g1, accept_rd src _ (h2 (by decide)) g2, alternatives_rd src (h2 (by decide)) g2, advN]
  · have hs : src.drop l.pos = 38 :: r := hr.symm
    have e0 := hd' "&&" (by decide) 38 (by decide) rfl
    have e1 := hd' "&=" (by decide) 61 (by decide) rfl
    have g1 : rd src (adv1 src (begin_ l)).pos = some d := by rw [q1]; exact hd
    refine scanToken_sym src hz hcr keyword hs hn (op := "&") (k := 1) ?_
    simp [scanTok, ch, doubled, e0, e1, accept_rd src _ (h1 (by decide)) g1, alternatives_rd src (h1 (by decide)) g1, advN]
  · have hs : src.drop l.pos = 38 :: 38 :: r := hr.symm
    have e0 := hd' "&&&" (by decide) 38 (by decide) rfl
    have g1 : rd src (adv1 src (begin_ l)).pos = some 38 := by rw [q1]; exact (drop_cons (drop_cons hs).2.2).2.1
    have g2 : rd src (adv1 src (adv1 src (begin_ l))).pos = some d := by rw [q2]; exact hd
    refine scanToken_sym src hz hcr keyword hs hn (op := "&&") (k := 2) ?_
    simp [scanTok, ch, doubled, e0, accept_rd src _ (h1 (by decide)) g1, alternatives_rd src (h1 (by decide)) g1, accept_rd src _ (h2 (by decide)) g2, alternatives_rd src (h2 (by decide)) g2, advN]
  · have hs : src.drop l.pos = 38 :: 38 :: 38 :: r := hr.symm
    have g1 : rd src (adv1 src (begin_ l)).pos = some 38 := by rw [q1]; exact (drop_cons (drop_cons hs).2.2).2.1
    have g2 : rd src (adv1 src (adv1 src (begin_ l))).pos = some 38 := by
      rw [q2]; exact (drop_cons (drop_cons (drop_cons hs).2.2).2.2).2.1
    refine scanToken_sym src hz hcr keyword hs hn (op := "&&&") (k := 3) ?_
    simp [scanTok, ch, doubled, accept_rd src _ (h1 (by decide)) g1, alternatives_rd src (h1 (by decide)) g1, accept_rd src _ (h2 (by decide)) g2, alternatives_rd src (h2 (by decide)) g2, advN]
  · have hs : src.drop l.pos = 38 :: 61 :: r := hr.symm
    have g1 : rd src (adv1 src (begin_ l)).pos = some 61 := by rw [q1]; exact (drop_cons (drop_cons hs).2.2).2.1
    have g2 : rd src (adv1 src (adv1 src (begin_ l))).pos = some d := by rw [q2]; exact hd
    refine scanToken_sym src hz hcr keyword hs hn (op := "&=") (k := 2) ?_
    simp [scanTok, ch, doubled, accept_rd src _ (h1 (by decide)) g1, alternatives_rd src (h1 (by decide)) g1, accept_rd src _ (h2 (by decide)) g2, alternatives_rd src (h2 (by decide)) g2, advN]
  · have hs : src.drop l.pos = 124 :: r := hr.symm
    have e0 := hd' "||" (by decide) 124 (by decide) rfl
    have e1 := hd' "|=" (by decide) 61 (by decide) rfl
    have g1 : rd src (adv1 src (begin_ l)).pos = some d := by rw [q1]; exact hd
    refine scanToken_sym src hz hcr keyword hs hn (op := "|") (k := 1) ?_
    simp [scanTok, ch, doubled, e0, e1, accept_rd src _ (h1 (by decide)) g1, alternatives_rd src (h1 (by decide)) g1, advN]
  · have hs : src.drop l.pos = 124 :: 124 :: r := hr.symm
    have e0 := hd' "|||" (by decide) 124 (by decide) rfl
    have g1 : rd src (adv1 src (begin_ l)).pos = some 124 := by rw [q1]; exact (drop_cons (drop_cons hs).2.2).2.1
    have g2 : rd src (adv1 src (adv1 src (begin_ l))).pos = some d := by rw [q2]; exact hd
    refine scanToken_sym src hz hcr keyword hs hn (op := "||") (k := 2) ?_
    simp [scanTok, ch, doubled, e0, accept_rd src _ (h1 (by decide)) g1, alternatives_rd src (h1 (by decide)) g1, accept_rd src _ (h2 (by decide)) g2, alternatives_rd src (h2 (by decide)) g2, advN]
  · have hs : src.drop l.pos = 124 :: 124 :: 124 :: r := hr.symm
    have g1 : rd src (adv1 src (begin_ l)).pos = some 124 := by rw [q1]; exact (drop_cons (drop_cons hs).2.2).2.1
    have g2 : rd src (adv1 src (adv1 src (begin_ l))).pos = some 124 := by
      rw [q2]; exact (drop_cons (drop_cons (drop_cons hs).2.2).2.2).2.1
    refine scanToken_sym src hz hcr keyword hs hn (op := "|||") (k := 3) ?_
    simp [scanTok, ch, doubled, accept_rd src _ (h1 (by decide)) g1, alternatives_rd src (h1 (by decide)) g1, accept_rd src _ (h2 (by decide)) g2, alternatives_rd src (h2 (by decide)) g2, advN]
  · have hs : src.drop l.pos = 124 :: 61 :: r := hr.symm
    have g1 : rd src (adv1 src (begin_ l)).pos = some 61 := by rw [q1]; exact (drop_cons (drop_cons hs).2.2).2.1
    have g2 : rd src (adv1 src (adv1 src (begin_ l))).pos = some d := by rw [q2]; exact hd
    refine scanToken_sym src hz hcr keyword hs hn (op := "|=") (k := 2) ?_
    simp [scanTok, ch, doubled, accept_rd src _ (h1 (by decide)) g1, alternatives_rd src (h1 (by decide)) g1, accept_rd src _ (h2 (by decide)) g2, alternatives_rd src (h2 (by decide)) g2, advN]
  · have hs : src.drop l.pos = 43 :: r := hr.symm
    have e0 := hd' "++" (by decide) 43 (by decide) rfl
    have e1 := hd' "+=" (by decide) 61 (by decide) rfl
    have g1 : rd src (adv1 src (begin_ l)).pos = some d := by rw [q1]; exact hd
    refine scanToken_sym src hz hcr keyword hs hn (op := "+") (k := 1) ?_
    simp [scanTok, ch, doubled, e0, e1, accept_rd src _ (h1 (by decide)) g1, alternatives_rd src (h1 (by decide)) g1, advN]
  · have hs : src.drop l.pos = 43 :: 43 :: r := hr.symm
    have e0 := hd' "+++" (by decide) 43 (by decide) rfl
    have g1 : rd src (adv1 src (begin_ l)).pos = some 43 := by rw [q1]; exact (drop_cons (drop_cons hs).2.2).2.1
    have g2 : rd src (adv1 src (adv1 src (begin_ l))).pos = some d := by rw [q2]; exact hd
    refine scanToken_sym src hz hcr keyword hs hn (op := "++") (k := 2) ?_
    simp [scanTok, ch, doubled, e0, accept_rd src _ (h1 (by decide)) g1, alternatives_rd src (h1 (by decide)) g1, accept_rd src _ (h2 (by decide)) g2, alternatives_rd src (h2 (by decide)) g2, advN]
  · have hs : src.drop l.pos = 43 :: 43 :: 43 :: r := hr.symm
    have g1 : rd src (adv1 src (begin_ l)).pos = some 43 := by rw [q1]; exact (drop_cons (drop_cons hs).2.2).2.1
    have g2 : rd src (adv1 src (adv1 src (begin_ l))).pos = some 43 := by
      rw [q2]; exact (drop_cons (drop_cons (drop_cons hs).2.2).2.2).2.1
    refine scanToken_sym src hz hcr keyword hs hn (op := "+++") (k := 3) ?_
    simp [scanTok, ch, doubled, accept_rd src _ (h1 (by decide)) g1, alternatives_rd src (h1 (by decide)) g1, accept_rd src _ (h2 (by decide)) g2, alternatives_rd src (h2 (by decide)) g2, advN]
  · have hs : src.drop l.pos = 43 :: 61 :: r := hr.symm
    have g1 : rd src (adv1 src (begin_ l)).pos = some 61 := by rw [q1]; exact (drop_cons (drop_cons hs).2.2).2.1
    have g2 : rd src (adv1 src (adv1 src (begin_ l))).pos = some d := by rw [q2]; exact hd
    refine scanToken_sym src hz hcr keyword hs hn (op := "+=") (k := 2) ?_
    simp [scanTok, ch, doubled, accept_rd src _ (h1 (by decide)) g1, alternatives_rd src (h1 (by decide)) g1, accept_rd src _ (h2 (by decide)) g2, alternatives_rd src (h2 (by decide)) g2, advN]
  · have hs : src.drop l.pos = 45 :: r := hr.symm
    have e0 := hd' "->" (by decide) 62 (by decide) rfl
    have e1 := hd' "--" (by decide) 45 (by decide) rfl
    have e2 := hd' "-=" (by decide) 61 (by decide) rfl
    have g1 : rd src (adv1 src (begin_ l)).pos = some d := by rw [q1]; exact hd
    refine scanToken_sym src hz hcr keyword hs hn (op := "-") (k := 1) ?_
    simp [scanTok, ch, doubled, e0, e1, e2, accept_rd src _ (h1 (by decide)) g1, alternatives_rd src (h1 (by decide)) g1, advN]
  · have hs : src.drop l.pos = 45 :: 62 :: r := hr.symm
    have g1 : rd src (adv1 src (begin_ l)).pos = some 62 := by rw [q1]; exact (drop_cons (drop_cons hs).2.2).2.1
    have g2 : rd src (adv1 src (adv1 src (begin_ l))).pos = some d := by rw [q2]; exact hd
    refine scanToken_sym src hz hcr keyword hs hn (op := "->") (k := 2) ?_
    simp [scanTok, ch, doubled, accept_rd src _ (h1 (by decide)) g1, alternatives_rd src (h1 (by decide)) g1, accept_rd src _ (h2 (by decide)) g2, alternatives_rd src (h2 (by decide)) g2, advN]
  · have hs : src.drop l.pos = 45 :: 45 :: r := hr.symm
    have g1 : rd src (adv1 src (begin_ l)).pos = some 45 := by rw [q1]; exact (drop_cons (drop_cons hs).2.2).2.1
    have g2 : rd src (adv1 src (adv1 src (begin_ l))).pos = some d := by rw [q2]; exact hd
    refine scanToken_sym src hz hcr keyword hs hn (op := "--") (k := 2) ?_
    simp [scanTok, ch, doubled, accept_rd src _ (h1 (by decide)) g1, alternatives_rd src (h1 (by decide)) g1, accept_rd src _ (h2 (by decide)) g2, alternatives_rd src (h2 (by decide)) g2, advN]
  · have hs : src.drop l.pos = 45 :: 61 :: r := hr.symm
    have g1 : rd src (adv1 src (begin_ l)).pos = some 61 := by rw [q1]; exact (drop_cons (drop_cons hs).2.2).2.1
    have g2 : rd src (adv1 src (adv1 src (begin_ l))).pos = some d := by rw [q2]; exact hd
    refine scanToken_sym src hz hcr keyword hs hn (op := "-=") (k := 2) ?_
    simp [scanTok, ch, doubled, accept_rd src _ (h1 (by decide)) g1, alternatives_rd src (h1 (by decide)) g1, accept_rd src _ (h2 (by decide)) g2, alternatives_rd src (h2 (by decide)) g2, advN]

/-- `a >>= b`: the operator is `>>=`, not `>` or `>>`. -/
example : Longest ">>=" (str ">>= b") := by
  refine ⟨by decide, by decide, ?_⟩
  intro o ho h
  have : ∀ o ∈ ops, (str o).length ≤ (str ">>=").length := by decide
  exact this o ho

/-- In a contract, `*>` ends it. -/
theorem C45_close (src : Src) (hz : NoNul src) (hcr : ∀ c ∈ src, c ≠ 13) (keyword : List Nat → Bool) (l : Lx)
    (r : List Nat) (hm : l.contracts = true) (hs : src.drop l.pos = str "*>" ++ r) :
    ∃ l', l'.pos = l.pos + 2 ∧ l'.contracts = false ∧ scanToken src keyword l = some (l', .tok .docsEnd) := by
  have hs : src.drop l.pos = 42 :: 62 :: r := hs
  obtain ⟨hlt, _, hs1⟩ := drop_cons hs
  obtain ⟨hlt1, h1, _⟩ := drop_cons hs1
  refine ⟨{ adv1 src (adv1 src (begin_ l)) with contracts := false }, by simp [begin_], rfl, ?_⟩
  have g1 : rd src (adv1 src (begin_ l)).pos = some 62 := by simpa [begin_] using h1
  have h : scanTok src keyword 42 (adv1 src (begin_ l)) =
      some ({ adv1 src (adv1 src (begin_ l)) with contracts := false }, some .docsEnd) := by
    have q0 : (begin_ l).contracts = true := hm
    simp [scanTok, ch, q0, accept_rd src _ (show (adv1 src (begin_ l)).pos ≤ src.length by simp [begin_]; omega) g1]
  rw [scanToken_at src hz hcr keyword hs (by simp [NoGap, str]), h]
  rfl

/-- The text `*> fn` in a contract. -/
example : (str "*> fn").drop 0 = str "*>" ++ str " fn" := rfl

/-- Outside contracts, `<*` opens one: the next token carries the free text behind it, and a contract is open. -/
theorem C45_open (src : Src) (hz : NoNul src) (hcr : ∀ c ∈ src, c ≠ 13) (keyword : List Nat → Bool) (l : Lx)
    (r : List Nat) (hm : l.contracts = false) (hs : src.drop l.pos = str "<*" ++ r) :
    ∃ l' a n, l'.contracts = true ∧ l.pos + 2 ≤ l'.pos ∧ l'.pos ≤ src.length ∧
      scanToken src keyword l = some (l', .tok (.docsStart a n)) := by
  have hs : src.drop l.pos = 60 :: 42 :: r := hs
  obtain ⟨hlt, _, hs1⟩ := drop_cons hs
  obtain ⟨hlt1, h1, _⟩ := drop_cons hs1
  have g1 : rd src (adv1 src (begin_ l)).pos = some 42 := by simpa [begin_] using h1
  have h : scanTok src keyword 60 (adv1 src (begin_ l)) = docStart src (adv1 src (adv1 src (begin_ l))) := by
    have q0 : (begin_ l).contracts = false := hm
    simp [scanTok, ch, q0, accept_rd src _ (show (adv1 src (begin_ l)).pos ≤ src.length by simp [begin_]; omega) g1]
  rw [scanToken_at src hz hcr keyword hs (by simp [NoGap, str]), h]
  obtain ⟨l', a, b, h2, h3⟩ := docStart_adv src hcr (l := adv1 src (adv1 src (begin_ l))) (by simp [begin_]; omega)
  refine ⟨{ l' with contracts := true }, a, b, rfl, ?_, h3.bound, by rw [h2]; rfl⟩
  have := h3.le
  simp [begin_] at this
  exact this

/-- The text `<* f *>`. -/
example : (str "<* f *>").drop 0 = str "<*" ++ str " f *>" := rfl

end C3.Lexer
