import Verif.Lexer.PropsText

/-! # Names -/

set_option autoImplicit false

namespace C3.Lexer

open Spec (NoGap str lower upper digit letter nameChar Word NoWord nameKind NameEnd)

theorem lower_eq (c : Nat) : isLower c = lower c := rfl
theorem upper_eq (c : Nat) : isUpper c = upper c := rfl
theorem digit_eq (c : Nat) : isDigit c = digit c := rfl
theorem letter_eq (c : Nat) : isLetter c = letter c := rfl

theorem not_nameChar {c : Nat} (h : nameChar c = false) :
    lower c = false ∧ upper c = false ∧ digit c = false ∧ c ≠ 95 := by
  simp [nameChar, letter] at h
  exact ⟨h.1.1.1, h.1.1.2, h.1.2, h.2⟩

/-- Reading at the end of a name. -/
theorem rd_stop {src : Src} {p : Nat} {r : List Nat} {q : Nat → Bool} (h0 : q 0 = false) (hp : p ≤ src.length)
    (hs : src.drop p = r) (hr : ∀ c ∈ r.head?, q c = false) : ∃ c, rd src p = some c ∧ q c = false := by
  cases r with
  | nil =>
    have : src.length ≤ p := by simpa using hs
    exact ⟨0, by rw [show p = src.length by omega, rd_end], h0⟩
  | cons c r =>
    obtain ⟨_, h, _⟩ := drop_cons hs
    exact ⟨c, h, hr c (by simp)⟩

theorem skipWhile_run (src : Src) (q : Nat → Bool) (h0 : q 0 = false) {v : List Nat} (hv : ∀ c ∈ v.head?, q c = false)
    (u : List Nat) : ∀ (l : Lx), l.pos ≤ src.length → (∀ c ∈ u, q c = true) → src.drop l.pos = u ++ v →
    skipWhile src q l = some (advN src l u.length) := by
  induction u with
  | nil =>
    intro l hl _ hs
    obtain ⟨c, hc, hq⟩ := rd_stop h0 hl hs hv
    rw [skipWhile]
    simp [peek, hc, hq, advN]
  | cons a u ih =>
    intro l hl hu hs
    obtain ⟨hlt, hc, hs'⟩ := drop_cons (s := u ++ v) hs
    rw [skipWhile]
    simp only [peek, hc, Option.bind_eq_bind, Option.bind_some, hu a (by simp), if_true, next_eq src (Nat.le_of_lt hlt)]
    rw [ih _ (by simp only [adv1_pos]; omega) (fun c h => hu c (by simp [h])) (by simpa using hs')]
    rfl

/-- What a character of a name does to its kind. -/
def kindStep (k : Option Kind) (c : Nat) : Option Kind :=
  if lower c then some (lowerKind k) else if upper c then some (upperKind k) else k

theorem identLoop_run (src : Src) {r : List Nat} (hr : NameEnd r) (w : List Nat) : ∀ (k : Option Kind) (l : Lx),
    l.pos ≤ src.length → (∀ c ∈ w, nameChar c = true) → (k = none → ∀ c ∈ w.head?, letter c = true) →
    src.drop l.pos = w ++ r → identLoop src k l = some (advN src l w.length, some (w.foldl kindStep k)) := by
  induction w with
  | nil =>
    intro k l hl _ _ hs
    obtain ⟨c, hc, hq⟩ := rd_stop (by decide) hl hs hr
    obtain ⟨h1, h2, h3, h4⟩ := not_nameChar hq
    rw [identLoop]
    simp only [peek, hc, Option.bind_eq_bind, Option.bind_some, lower_eq, upper_eq, digit_eq, h1, h2, h3]
    simp [show ¬ c = ch '_' from h4, advN]
  | cons a w ih =>
    intro k l hl hw hk hs
    obtain ⟨hlt, hc, hs'⟩ := drop_cons (s := w ++ r) hs
    rw [identLoop]
    simp only [peek, hc, Option.bind_eq_bind, Option.bind_some, next_eq src (Nat.le_of_lt hlt), lower_eq, upper_eq, digit_eq]
    have hl' : (adv1 src l).pos ≤ src.length := by simp only [adv1_pos]; omega
    have hs'' : src.drop (adv1 src l).pos = w ++ r := by simpa using hs'
    have hw' : ∀ c ∈ w, nameChar c = true := fun c h => hw c (by simp [h])
    have ha := hw a (by simp)
    by_cases h1 : lower a = true
    · rw [if_pos h1, ih (some (lowerKind k)) _ hl' hw' (by simp) hs'']
      simp [kindStep, h1, advN]
    · rw [if_neg h1]
      by_cases h2 : upper a = true
      · rw [if_pos h2, ih (some (upperKind k)) _ hl' hw' (by simp) hs'']
        simp [kindStep, h1, h2, advN]
      · rw [if_neg h2]
        have hk' : k ≠ none := by
          intro e
          have := hk e a (by simp)
          simp [letter, h1, h2] at this
        have h3 : (digit a || decide (a = ch '_')) = true := by
          simp only [nameChar, letter] at ha
          simp only [Bool.not_eq_true] at h1 h2
          simp only [h1, h2, Bool.or_eq_true, Bool.false_or, decide_eq_true_eq] at ha ⊢
          exact ha
        rw [if_neg (by cases k with | none => exact absurd rfl hk' | some _ => simp), if_pos h3,
          ih k _ hl' hw' (by intro e; exact absurd e hk') hs'']
        simp [kindStep, h1, h2, advN]

theorem fold_some (w : List Nat) :
    w.foldl kindStep (some .normal) = some .normal ∧ w.foldl kindStep (some .type) = some .type ∧
    w.foldl kindStep (some .const) = some (if w.any lower then .type else .const) := by
  induction w with
  | nil => simp
  | cons a w ih =>
    obtain ⟨h1, h2, h3⟩ := ih
    by_cases ha : lower a = true
    · simp [kindStep, ha, lowerKind, h1, h2]
    · by_cases hb : upper a = true
      · simp [kindStep, ha, hb, upperKind, h1, h2, h3]
      · simp [kindStep, ha, hb, h1, h2, h3]

theorem fold_word {u r : List Nat} {c : Nat} (hu : ∀ x ∈ u, x = 95) (hc : letter c = true) :
    (c :: r).foldl kindStep none = some (nameKind (u ++ c :: r)) := by
  have hf : (u ++ c :: r).filter letter = c :: r.filter letter := by
    rw [List.filter_append, List.filter_eq_nil_iff.2 (by intro x hx; rw [hu x hx]; decide)]
    simp [hc]
  have hul : u.any lower = false := by
    rw [List.any_eq_false]; intro x hx; rw [hu x hx]; decide
  unfold nameKind
  rw [hf]
  simp only [List.head?_cons, Option.any_some, List.any_append, hul, List.any_cons, Bool.false_or, List.foldl_cons]
  obtain ⟨h1, h2, h3⟩ := fold_some r
  by_cases ha : lower c = true
  · simp [kindStep, ha, lowerKind, h1]
  · have hb : upper c = true := by
      simp only [letter] at hc; simp only [Bool.not_eq_true] at ha; simpa [ha] using hc
    simp [kindStep, ha, hb, upperKind, h3]

/-- `scanIdent` from the first underscore or letter on. -/
theorem scanIdent_word (src : Src) (keyword : List Nat → Bool) (pre : Nat) {w r : List Nat} {l : Lx}
    (hl : l.pos ≤ src.length) (hw : Word w) (hr : NameEnd r) (hs : src.drop l.pos = w ++ r) :
    scanIdent src keyword pre l =
      some (advN src l w.length, some
        (if keyword (text src (advN src l w.length)) then
          if l.contracts && text src (advN src l w.length) = "return".toList.map ch then
            .name 0 .normal (text src (advN src l w.length))
          else .keyword (text src (advN src l w.length))
        else .name pre (nameKind w) (text src (advN src l w.length)))) := by
  obtain ⟨u, c, t, rfl, hu, hc, ht⟩ := hw
  have hs' : src.drop l.pos = u ++ (c :: (t ++ r)) := by simpa using hs
  have hc95 : c ≠ 95 := by rintro rfl; simp [letter, lower, upper] at hc
  have hcn : nameChar c = true := by simp [nameChar, hc]
  unfold scanIdent
  rw [skipWhile_run src (fun c => c = ch '_') (by decide) (v := c :: (t ++ r)) (by
    simp only [List.head?_cons, Option.mem_def, Option.some.injEq]
    rintro x rfl
    exact decide_eq_false hc95) u l hl (by intro x hx; simp [hu x hx, ch]) hs']
  simp only [Option.bind_eq_bind, Option.bind_some]
  have hd := drop_append hs'
  have hlt : (advN src l u.length).pos ≤ src.length := by
    have := (drop_cons hd).1; simp only [advN_pos]; omega
  rw [identLoop_run src hr (c :: t) none _ hlt (by
      intro x hx
      rcases List.mem_cons.1 hx with rfl | hx
      · exact hcn
      · exact ht x hx) (by simp [hc]) (by simpa using hd), fold_word hu hc]
  simp only [Option.bind_some, advN_add]
  have hlen : u.length + (c :: t).length = (u ++ c :: t).length := by simp
  rw [hlen, advN_contracts]
  split
  · split <;> rfl
  · rfl

theorem text_eq (src : Src) {l : Lx} {w r : List Nat} (hs : src.drop l.pos = w ++ r) :
    text src (advN src (begin_ l) w.length) = w := by
  unfold text
  simp only [advN_start, advN_pos]
  simp [begin_, hs]

/-- A name, without a prefix, that is not the start of a hex or base64 literal, is the longest run of letters, digits and
underscores.  Keywords give their own token; otherwise it is an identifier, a type name or a constant, by its letters.
In contracts the keyword `return` is an identifier. -/
theorem C16_name (src : Src) (hz : NoNul src) (hcr : ∀ c ∈ src, c ≠ 13) (keyword : List Nat → Bool) (l : Lx)
    (w r : List Nat) (hw : Word w) (hr : NameEnd r) (hs : src.drop l.pos = w ++ r)
    (hq : w = str "x" ∨ w = str "b64" → ∀ c ∈ r.head?, c ∉ [34, 39, 96]) :
    ∃ l', l'.pos = l.pos + w.length ∧ scanToken src keyword l = some (l', .tok
      (if keyword w then
        if l.contracts = true ∧ w = str "return" then .name 0 .normal w else .keyword w
      else .name 0 (nameKind w) w)) := by
  refine ⟨advN src (begin_ l) w.length, by simp [begin_], ?_⟩
  have hw' := hw
  obtain ⟨u, c, t, hw2, hu, hc, ht⟩ := hw
  have hfirst : ∃ c' s, w = c' :: s ∧ isLetter_ c' = true ∧ ∀ x ∈ s, nameChar x = true := by
    cases u with
    | nil => exact ⟨c, t, hw2, by simp [isLetter_, letter_eq, hc], ht⟩
    | cons a u =>
      refine ⟨a, u ++ c :: t, hw2, by simp [isLetter_, hu a (by simp), ch], ?_⟩
      intro x hx
      rcases List.mem_append.1 hx with hx | hx
      · rw [hu x (by simp [hx])]; decide
      · rcases List.mem_cons.1 hx with rfl | hx
        · simp [nameChar, hc]
        · exact ht x hx
  obtain ⟨c', s, hcs, hl_, hsn⟩ := hfirst
  have hs1 : src.drop l.pos = c' :: (s ++ r) := by rw [hs, hcs]; rfl
  obtain ⟨hlt, hrd, hs2⟩ := drop_cons hs1
  have hrange : (97 ≤ c' ∧ c' ≤ 122) ∨ (65 ≤ c' ∧ c' ≤ 90) ∨ c' = 95 := by
    simp only [isLetter_, letter_eq, letter, lower, upper, ch, Bool.or_eq_true, Bool.and_eq_true, decide_eq_true_eq] at hl_
    rcases hl_ with h | h
    · omega
    · exact .inr (.inr (of_decide_eq_true h))
  have hng : NoGap l.contracts (c' :: (s ++ r)) := by
    refine ⟨?_, fun _ => ⟨?_, ?_, ?_⟩⟩
    · simp; omega
    · simp; omega
    · simp [str]; omega
    · simp [str]; omega
  rw [scanToken_at src hz hcr keyword hs1 hng]
  have hname : scanName src keyword (adv1 src (begin_ l)) = scanIdent src keyword 0 (begin_ l) := by
    unfold scanName
    rw [backtrack_adv1 src (l := begin_ l) (by simp [begin_]; omega) (by
      simp only [begin_, hrd]; simp [ch]; omega)]
    rfl
  have htok : scanTok src keyword c' (adv1 src (begin_ l)) = scanName src keyword (adv1 src (begin_ l)) := by
    have hd1 : src.drop (adv1 src (begin_ l)).pos = s ++ r := by simpa [begin_] using hs2
    have hp1 : (adv1 src (begin_ l)).pos ≤ src.length := by simp [begin_]; omega
    unfold scanTok
    have hne : ∀ d : Char, isLetter_ (ch d) = false → ¬ c' = ch d := by
      rintro d h rfl; rw [h] at hl_; cases hl_
    rw [if_neg (hne '\n' rfl), if_neg (hne '@' rfl), if_neg (hne '\'' rfl), if_neg (hne '`' rfl), if_neg (hne '"'
      rfl), if_neg (hne '#' rfl), if_neg (hne '$' rfl), if_neg (hne ',' rfl), if_neg (hne ';' rfl), if_neg (hne
      '{' rfl), if_neg (hne '}' rfl), if_neg (hne '(' rfl), if_neg (hne ')' rfl), if_neg (hne '[' rfl), if_neg
      (hne ']' rfl), if_neg (hne '.' rfl), if_neg (hne '~' rfl), if_neg (hne ':' rfl), if_neg (hne '!' rfl),
      if_neg (hne '/' rfl), if_neg (hne '*' rfl), if_neg (hne '=' rfl), if_neg (hne '^' rfl), if_neg (hne '?'
      rfl), if_neg (hne '<' rfl), if_neg (hne '>' rfl), if_neg (hne '%' rfl), if_neg (hne '&' rfl), if_neg (hne
      '|' rfl), if_neg (hne '+' rfl), if_neg (hne '-' rfl)]
    by_cases hx : c' = ch 'x'
    · rw [if_pos hx]
      obtain ⟨d, hd⟩ := rd_some src hp1
      simp only [peek, hd, Option.bind_eq_bind, Option.bind_some]
      rw [if_neg]
      intro hqq
      have hqq : d = 34 ∨ d = 39 ∨ d = 96 := by
        simp only [Bool.or_eq_true, decide_eq_true_eq, or_assoc] at hqq; exact hqq
      cases s with
      | cons a s =>
        have := (drop_cons (s := s ++ r) hd1).2.1
        rw [hd] at this
        cases this
        have := hsn d (by simp)
        simp [nameChar, letter, lower, upper, digit] at this
        omega
      | nil =>
        subst hx
        cases r with
        | nil =>
          have : rd src (adv1 src (begin_ l)).pos = some 0 := by
            have : src.length ≤ (adv1 src (begin_ l)).pos := by simpa using hd1
            rw [show (adv1 src (begin_ l)).pos = src.length by omega, rd_end]
          rw [hd] at this
          cases this
          omega
        | cons a r =>
          have := (drop_cons (s := r) hd1).2.1
          rw [hd] at this
          cases this
          exact hq (.inl hcs) d (by simp) (by simp; omega)
    · rw [if_neg hx]
      by_cases hb : c' = ch 'b'
      · rw [if_pos hb]
        have : base64Start src (adv1 src (begin_ l)) = some false := by
          obtain ⟨b, hb1, hb2⟩ := base64Start_some src hp1
          cases b with
          | false => exact hb1
          | true =>
            exfalso
            have h3 := hb2 rfl
            unfold base64Start at hb1
            rw [peekPair_eq (src := src) (c := ch '6') (d := ch '4') (by decide) (by decide) hp1] at hb1
            simp only [Option.bind_eq_bind, Option.bind_some] at hb1
            split at hb1
            · rename_i h64
              obtain ⟨d, hd⟩ := rd_some src (show (adv1 src (begin_ l)).pos + 2 ≤ src.length by omega)
              simp only [hd, Option.bind_some, Option.some.injEq] at hb1
              have hb1 : d = 34 ∨ d = 39 ∨ d = 96 := by
                simp only [Bool.or_eq_true, decide_eq_true_eq, or_assoc] at hb1; exact hb1
              replace h64 := of_decide_eq_true h64
              obtain ⟨z, hz'⟩ := h64
              rw [hd1] at hz'
              have hzd : src.drop ((adv1 src (begin_ l)).pos + 2) = z :=
                drop_append (src := src) (p := (adv1 src (begin_ l)).pos) (a := [ch '6', ch '4']) (by rw [hd1, ← hz'])
              have hzq : ∃ z', z = d :: z' := by
                cases z with
                | nil =>
                  have h : src.length ≤ (adv1 src (begin_ l)).pos + 2 := by simpa using hzd
                  rw [show (adv1 src (begin_ l)).pos + 2 = src.length by omega, rd_end] at hd
                  cases hd
                  omega
                | cons a z' =>
                  have := (drop_cons hzd).2.1
                  rw [hd] at this
                  cases this
                  exact ⟨z', rfl⟩
              obtain ⟨z', rfl⟩ := hzq
              match s, hsn, hcs, hz' with
              | [], _, _, hz' => rw [← show _ = r from hz'] at hr; exact absurd (hr 54 (by rfl)) (by decide)
              | [a], _, _, hz' =>
                have hz' : ch '6' :: ch '4' :: d :: z' = a :: r := hz'
                injection hz' with _ hz'
                rw [← hz'] at hr; exact absurd (hr 52 (by rfl)) (by decide)
              | [a, b], _, hcs, hz' =>
                have hz' : ch '6' :: ch '4' :: d :: z' = a :: b :: r := hz'
                injection hz' with e1 hz'
                injection hz' with e2 hz3
                subst e1 e2 hb
                exact hq (.inr hcs) d (by rw [← hz3]; simp) (by simp; omega)
              | a :: b :: c2 :: s', hsn, _, hz' =>
                have hz' : ch '6' :: ch '4' :: d :: z' = a :: b :: c2 :: (s' ++ r) := hz'
                injection hz' with e1 hz'
                injection hz' with e2 hz'
                injection hz' with e3 hz'
                subst e3
                have := hsn d (by simp)
                simp [nameChar, letter, lower, upper, digit] at this
                omega
            · cases hb1
        simp only [this, Option.bind_eq_bind, Option.bind_some, Bool.false_eq_true, if_false]
      · rw [if_neg hb, if_neg (by rw [digit_eq, digit]; simp; omega), if_pos hl_]
  rw [htok, hname, scanIdent_word src keyword 0 (by simp [begin_]; omega) hw' hr (by simpa [begin_] using hs),
    text_eq src hs]
  simp only [Option.bind_some]
  have : (begin_ l).contracts = l.contracts := rfl
  simp only [this, Bool.and_eq_true, decide_eq_true_eq]
  rfl

/-- `Foo1` is a type name, `_FOO` a constant, `fooBar` an identifier. -/
example : Word (str "Foo1") ∧ nameKind (str "Foo1") = .type ∧ Word (str "_FOO") ∧ nameKind (str "_FOO") = .const ∧
    Word (str "fooBar") ∧ nameKind (str "fooBar") = .normal :=
  ⟨⟨[], 70, str "oo1", rfl, by simp, rfl, by decide⟩, by decide, ⟨[95], 70, str "OO", rfl, by decide, rfl, by decide⟩,
    by decide, ⟨[], 102, str "ooBar", rfl, by simp, rfl, by decide⟩, by decide⟩

theorem prefixed_noGap {m : Bool} {p : Nat} (hp : p ∈ [64, 35, 36, 95]) (s : List Nat) : NoGap m (p :: s) := by
  simp at hp
  rcases hp with rfl | rfl | rfl | rfl <;> simp [NoGap, str]

/-- After a prefix `scanTok` scans a name. -/
theorem scanTok_prefix (src : Src) (keyword : List Nat → Bool) {p : Nat} {l : Lx} (hp : p ∈ [64, 35, 36])
    (hl : l.pos ≤ src.length) (hat : p = 64 → ∃ c, rd src l.pos = some c ∧ isLetter_ c = true)
    (hd : p = 36 → rd src l.pos ≠ some 36) : scanTok src keyword p l = scanIdent src keyword p l := by
  simp at hp
  rcases hp with rfl | rfl | rfl
  · obtain ⟨c, h1, h2⟩ := hat rfl
    simp [scanTok, ch, peek, h1, h2]
  · simp [scanTok, ch]
  · rcases accept_eq src (ch '$') (by decide) hl with ⟨h, _⟩ | ⟨_, he⟩
    · exact absurd h (hd rfl)
    · unfold scanTok
      rw [if_neg (by decide), if_neg (by decide), if_neg (by decide), if_neg (by decide), if_neg (by decide),
        if_neg (by decide), if_pos (by decide)]
      simp only [he, Option.bind_eq_bind, Option.bind_some]
      rfl

theorem word_first {w : List Nat} (hw : Word w) : ∃ c s, w = c :: s ∧ isLetter_ c = true ∧ c ≠ 36 := by
  obtain ⟨u, c, t, rfl, hu, hc, _⟩ := hw
  cases u with
  | nil =>
    refine ⟨c, t, rfl, by simp [isLetter_, letter_eq, hc], ?_⟩
    rintro rfl
    exact absurd hc (by decide)
  | cons a u => exact ⟨a, u ++ c :: t, rfl, by simp [isLetter_, hu a (by simp), ch], by rw [hu a (by simp)]; decide⟩

/-- The same with one of the prefixes `@`, `#`, `$`, which belongs to the text of the name. -/
theorem C16_prefixed (src : Src) (hz : NoNul src) (hcr : ∀ c ∈ src, c ≠ 13) (keyword : List Nat → Bool) (l : Lx)
    (p : Nat) (w r : List Nat) (hp : p ∈ str "@#$") (hw : Word w) (hr : NameEnd r) (hs : src.drop l.pos = p :: (w ++ r)) :
    ∃ l', l'.pos = l.pos + 1 + w.length ∧ scanToken src keyword l = some (l', .tok
      (if keyword (p :: w) then .keyword (p :: w) else .name p (nameKind w) (p :: w))) := by
  have hp : p ∈ [64, 35, 36] := hp
  refine ⟨advN src (adv1 src (begin_ l)) w.length, by simp [begin_], ?_⟩
  obtain ⟨hlt, _, hs1⟩ := drop_cons hs
  have hs2 : src.drop (adv1 src (begin_ l)).pos = w ++ r := by simpa [begin_] using hs1
  have hl1 : (adv1 src (begin_ l)).pos ≤ src.length := by simp [begin_]; omega
  obtain ⟨c, s, rfl, hc, hc36⟩ := word_first hw
  obtain ⟨_, hrd, _⟩ := drop_cons (s := s ++ r) hs2
  rw [scanToken_at src hz hcr keyword hs (prefixed_noGap (by simp at hp ⊢; omega) _),
    scanTok_prefix src keyword hp hl1 (fun _ => ⟨c, hrd, hc⟩) (fun _ => by rw [hrd]; simpa using hc36),
    scanIdent_word src keyword p hl1 hw hr hs2]
  have ht : text src (advN src (adv1 src (begin_ l)) (c :: s).length) = p :: c :: s := by
    have := text_eq src (l := l) (w := p :: c :: s) (r := r) hs
    simpa [advN] using this
  rw [ht]
  simp only [Option.bind_some]
  have hret : ¬ (p :: c :: s = "return".toList.map ch) := by
    intro e
    have : p = ch 'r' := (List.cons.inj e).1
    rw [this] at hp
    exact absurd hp (by decide)
  simp only [decide_eq_false hret, Bool.and_false, Bool.false_eq_true, if_false]

/-- `$foo`. -/
example : 36 ∈ str "@#$" ∧ Word (str "foo") ∧ NameEnd (str " = 1") :=
  ⟨by decide, ⟨[], 102, str "oo", rfl, by simp, rfl, by decide⟩, by simp [NameEnd, str]; decide⟩

theorem scanIdent_noword (src : Src) (keyword : List Nat → Bool) (pre : Nat) {w r : List Nat} {l : Lx}
    (hl : l.pos ≤ src.length) (hw : NoWord w) (hr : NameEnd r) (hs : src.drop l.pos = w ++ r)
    (h1 : ¬ (pre = 0 ∧ l.pos + w.length = l.start + 1 ∧ ∀ x ∈ w, x = 95)) :
    ∃ l', scanIdent src keyword pre l = some (l', none) := by
  obtain ⟨u, v, rfl, hu, hv⟩ := hw
  have hs' : src.drop l.pos = u ++ (v ++ r) := by simpa using hs
  have hstop : ∀ c ∈ (v ++ r).head?, decide (c = ch '_') = false := by
    intro c hc
    cases v with
    | nil => exact decide_eq_false (not_nameChar (hr c hc)).2.2.2
    | cons a v =>
      have := hv a (by simp)
      simp at hc
      subst hc
      refine decide_eq_false ?_
      rintro rfl
      exact absurd this (by decide)
  have hd := drop_append hs'
  have hlt : (advN src l u.length).pos ≤ src.length := by
    have := congrArg List.length hs'
    simp at this
    simp only [advN_pos]; omega
  unfold scanIdent
  rw [skipWhile_run src (fun c => c = ch '_') (by decide) (v := v ++ r) hstop u l hl (by intro x hx; simp [hu x hx, ch]) hs']
  simp only [Option.bind_eq_bind, Option.bind_some]
  cases v with
  | nil =>
    rw [identLoop_run src hr [] none _ hlt (by simp) (by simp) (by simpa using hd)]
    refine ⟨advN src l u.length, ?_⟩
    simp only [List.foldl_nil, Option.bind_some, List.length_nil, advN]
    rw [if_neg]
    intro h
    simp at h
    exact h1 ⟨h.1, by simp; omega, by simpa using hu⟩
  | cons a v =>
    obtain ⟨_, hrd, _⟩ := drop_cons (s := v ++ r) hd
    have ha := hv a (by simp)
    rw [identLoop]
    have hr1 : lower a = false ∧ upper a = false := by
      simp [digit] at ha
      simp [lower, upper]; omega
    refine ⟨advN src l u.length, ?_⟩
    simp only [peek, advN_pos, hrd, Option.bind_eq_bind, Option.bind_some, lower_eq, upper_eq, digit_eq, hr1, ha]
    simp

/-- A name with a digit before its first letter, or without a letter, is an error, except for `_`.  (`@` without a letter
or underscore behind it and `$$` are other tokens.) -/
theorem C16_rejected (src : Src) (hz : NoNul src) (hcr : ∀ c ∈ src, c ≠ 13) (keyword : List Nat → Bool) (l : Lx)
    (w r : List Nat) (hw : NoWord w) (hr : NameEnd r) :
    (∀ p, src.drop l.pos = p :: (w ++ r) →
      (p = 64 ∧ w.head? = some 95) ∨ p = 35 ∨ (p = 36 ∧ ¬ (w = [] ∧ r.head? = some 36)) →
      ∃ l', scanToken src keyword l = some (l', .bad)) ∧
    (src.drop l.pos = w ++ r → w.head? = some 95 → w ≠ [95] → ∃ l', scanToken src keyword l = some (l', .bad)) := by
  constructor
  · intro p hs hc
    obtain ⟨hlt, _, hs1⟩ := drop_cons hs
    have hs2 : src.drop (adv1 src (begin_ l)).pos = w ++ r := by simpa [begin_] using hs1
    have hl1 : (adv1 src (begin_ l)).pos ≤ src.length := by simp [begin_]; omega
    have hp : p ∈ [64, 35, 36] := by simp; omega
    obtain ⟨l', hl'⟩ := scanIdent_noword src keyword p hl1 hw hr hs2 (by simp at hp; omega)
    refine ⟨l', ?_⟩
    rw [scanToken_at src hz hcr keyword hs (prefixed_noGap (by simp at hp ⊢; omega) _),
      scanTok_prefix src keyword hp hl1 ?_ ?_, hl']
    · rfl
    · intro e
      have hw0 : w.head? = some 95 := by
        rcases hc with ⟨_, h⟩ | h | ⟨h, _⟩
        · exact h
        · omega
        · omega
      obtain ⟨a, w', rfl⟩ : ∃ a w', w = a :: w' := by cases w with | nil => simp at hw0 | cons a w' => exact ⟨a, w', rfl⟩
      simp at hw0
      subst hw0
      exact ⟨95, (drop_cons (s := w' ++ r) hs2).2.1, by decide⟩
    · intro e h36
      have hn : ¬ (w = [] ∧ r.head? = some 36) := by
        rcases hc with ⟨h, _⟩ | h | ⟨_, h⟩
        · omega
        · omega
        · exact h
      have hat : (w ++ r).head? = some 36 := by
        rw [← hs2]
        have := rd_lt src h36 (by decide)
        rw [rd_getElem src this] at h36
        rw [List.head?_drop, List.getElem?_eq_getElem this, h36]
      cases w with
      | nil => exact hn ⟨rfl, hat⟩
      | cons a w' =>
        simp at hat
        subst hat
        obtain ⟨u, v, e, hu, hv⟩ := hw
        cases u with
        | nil =>
          have e : 36 :: w' = v := e
          exact absurd (hv 36 (by rw [← e]; rfl)) (by decide)
        | cons b u =>
          have := hu b (by simp)
          simp at e
          omega
  · intro hs hw0 hne
    obtain ⟨w', rfl⟩ : ∃ w', w = 95 :: w' := by
      cases w with
      | nil => simp at hw0
      | cons a w' => simp at hw0; exact ⟨w', by rw [hw0]⟩
    obtain ⟨hlt, hrd, hs1⟩ := drop_cons (s := w' ++ r) hs
    obtain ⟨l', hl'⟩ := scanIdent_noword src keyword 0 (l := begin_ l) (by simp [begin_]; omega) hw hr hs (by
      rintro ⟨_, h, _⟩
      have h : l.pos + (w'.length + 1) = l.pos + 1 := h
      exact hne (by rw [List.eq_nil_of_length_eq_zero (show w'.length = 0 by omega)]))
    refine ⟨l', ?_⟩
    rw [scanToken_at src hz hcr keyword (s := w' ++ r) hs (prefixed_noGap (by simp) _)]
    have : scanTok src keyword 95 (adv1 src (begin_ l)) = scanIdent src keyword 0 (begin_ l) := by
      have hname : scanName src keyword (adv1 src (begin_ l)) = scanIdent src keyword 0 (begin_ l) := by
        unfold scanName
        rw [backtrack_adv1 src (l := begin_ l) (by simp [begin_]; omega) (by
          simp only [begin_, hrd]; simp [ch])]
        rfl
      rw [← hname]
      simp [scanTok, ch, isDigit, isLetter_]
    rw [this, hl']
    rfl

/-- `__1a` and `#`. -/
example : NoWord (str "__1a") ∧ (str "__1a").head? = some 95 ∧ NoWord [] ∧ NameEnd (str ";") :=
  ⟨⟨[95, 95], str "1a", rfl, by decide, by simp [str]; decide⟩, rfl, ⟨[], [], rfl, by simp, by simp⟩,
    by simp [NameEnd, str]; decide⟩

/-- `_` alone is a token of its own. -/
theorem C16_underscore (src : Src) (hz : NoNul src) (hcr : ∀ c ∈ src, c ≠ 13) (keyword : List Nat → Bool) (l : Lx)
    (r : List Nat) (hr : NameEnd r) (hs : src.drop l.pos = 95 :: r) :
    ∃ l', l'.pos = l.pos + 1 ∧ scanToken src keyword l = some (l', .tok (.sym "_")) := by
  obtain ⟨hlt, hrd, hs1⟩ := drop_cons hs
  refine ⟨adv1 src (begin_ l), by simp [begin_], ?_⟩
  rw [scanToken_at src hz hcr keyword hs (prefixed_noGap (by simp) _)]
  have : scanTok src keyword 95 (adv1 src (begin_ l)) = scanIdent src keyword 0 (begin_ l) := by
    have hname : scanName src keyword (adv1 src (begin_ l)) = scanIdent src keyword 0 (begin_ l) := by
      unfold scanName
      rw [backtrack_adv1 src (l := begin_ l) (by simp [begin_]; omega) (by
        simp only [begin_, hrd]; simp [ch])]
      rfl
    rw [← hname]
    simp [scanTok, ch, isDigit, isLetter_]
  rw [this]
  unfold scanIdent
  rw [skipWhile_run src (fun c => c = ch '_') (by decide) (v := r)
    (fun c hc => decide_eq_false (not_nameChar (hr c hc)).2.2.2) [95] (begin_ l) (by simp [begin_]; omega)
    (by simp [ch]) hs]
  have hd : src.drop (advN src (begin_ l) 1).pos = [] ++ r := by simpa [begin_] using hs1
  simp only [Option.bind_eq_bind, Option.bind_some, List.length_singleton]
  rw [identLoop_run src hr [] none _ (by simp [begin_]; omega) (by simp) (by simp) hd]
  simp [advN, begin_]

example : NameEnd (str " = f();") := by simp [NameEnd, str]; decide

end C3.Lexer
