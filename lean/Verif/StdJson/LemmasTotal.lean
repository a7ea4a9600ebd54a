import Verif.StdJson.LemmasParse

/-! Tokens take bytes, so that the bound of `go` is never reached; what the results are like. -/

set_option autoImplicit false

namespace C3.StdJson
open C3.Utf (Byte Char32)

variable {D : Type} {td : List Byte → Option D}

theorem read_length (l : List Byte) : (read_next l).2.length ≤ l.length := by
  cases l with
  | nil => simp [read_next]
  | cons c r => simp only [read_next]; split <;> simp

theorem skip_length (l : List Byte) : (skip l).length ≤ l.length := by
  induction l with
  | nil => simp [skip]
  | cons c r ih => unfold skip; split <;> simp; omega

theorem lexHex_length (i : Nat) (val : Char32) (l : List Byte) {v : Char32} {l' : List Byte}
    (h : lexHex i val l = .ok (v, l')) : l'.length ≤ l.length := by
  induction i generalizing val l with
  | zero => simp only [lexHex, Except.ok.injEq, Prod.mk.injEq] at h; exact Nat.le_of_eq (congrArg _ h.2.symm)
  | succ i ih =>
    simp only [lexHex] at h
    split at h
    · simp at h
    · have := ih _ _ h; have := read_length l; omega

theorem lexString_length (n : Nat) (l s : List Byte) {s' l' : List Byte} (h : lexStringLoop n l s = .ok (s', l')) :
    l'.length ≤ l.length := by
  induction n generalizing l s with
  | zero => simp [lexStringLoop] at h
  | succ n ih =>
    have r1 := read_length l
    have r2 := read_length (read_next l).2
    simp only [lexStringLoop] at h
    split at h; · simp at h
    split at h; · simp at h
    split at h
    · simp only [Except.ok.injEq, Prod.mk.injEq] at h; rw [← h.2]; exact r1
    split at h
    · have := ih _ _ h; omega
    split at h; · simp at h
    split at h; · simp at h
    split at h
    · split at h
      · simp at h
      · rename_i hx
        have := lexHex_length _ _ _ hx
        have := ih _ _ h; omega
    · split at h
      · simp at h
      · have := ih _ _ h; omega

theorem match_length (str l : List Byte) {l' : List Byte} (h : matchText str l = .ok l') : l'.length ≤ l.length := by
  induction str generalizing l with
  | nil => simp only [matchText, Except.ok.injEq] at h; exact Nat.le_of_eq (congrArg _ h.symm)
  | cons c str ih =>
    simp only [matchText] at h
    split at h
    · simp at h
    · have := ih _ h; have := read_length l; omega

theorem drop_length (l : List Byte) : (l.dropWhile isDigit).length ≤ l.length :=
  (List.dropWhile_sublist _).length_le

theorem numFrac_length (l : List Byte) : (numFrac l).2.length ≤ l.length := by
  unfold numFrac
  split
  · have := drop_length l.tail; simp at this ⊢; omega
  · simp

theorem numExp_length (l : List Byte) {t l' : List Byte} (h : numExp l = .ok (t, l')) : l'.length ≤ l.length := by
  cases l with
  | nil => simp only [numExp, Except.ok.injEq, Prod.mk.injEq] at h; exact Nat.le_of_eq (congrArg _ h.2.symm)
  | cons c l =>
    simp only [numExp] at h
    by_cases h1 : c ||| 32 = 0x65
    · rw [if_pos h1] at h
      generalize hp : (if l.head? = some 0x2d ∨ l.head? = some 0x2b then (l.take 1, l.tail) else ([], l)) = p at h
      have hpl : p.2.length ≤ l.length := by rw [← hp]; split <;> simp
      have := drop_length p.2
      by_cases h2 : (p.2.takeWhile isDigit).isEmpty = true
      · rw [if_pos h2] at h; simp at h
      · rw [if_neg h2] at h
        simp only [Except.ok.injEq, Prod.mk.injEq] at h
        rw [← h.2, List.length_cons]; omega
    · rw [if_neg h1] at h
      simp only [Except.ok.injEq, Prod.mk.injEq] at h; exact Nat.le_of_eq (congrArg _ h.2.symm)

theorem numExp_not_fuel (l : List Byte) : numExp l ≠ .error .fuel := by
  cases l with
  | nil => simp [numExp]
  | cons c l =>
    simp only [numExp]
    by_cases h1 : c ||| 32 = 0x65
    · rw [if_pos h1]
      generalize (if l.head? = some 0x2d ∨ l.head? = some 0x2b then (l.take 1, l.tail) else ([], l)) = p
      by_cases h2 : (p.2.takeWhile isDigit).isEmpty = true
      · rw [if_pos h2]; simp
      · rw [if_neg h2]; simp
    · rw [if_neg h1]; simp

theorem cut_length (l : List Byte) : (cut l).length ≤ l.length := by
  cases l with
  | nil => simp [cut]
  | cons c r => simp only [cut]; split <;> simp

theorem number_length {c : Byte} {r l' : List Byte} {d : D} (hc : c = 0x2d ∨ isDigit c = true)
    (h : lex_number td (c :: r) = .ok (d, l')) : l'.length ≤ r.length := by
  have key : ((numSign (c :: r)).2.dropWhile isDigit).length ≤ r.length := by
    by_cases h1 : c = 0x2d
    · subst h1
      have := drop_length r
      simpa [numSign] using this
    · have hd : isDigit c = true := by rcases hc with h | h <;> [exact absurd h h1; exact h]
      have : numSign (c :: r) = ([], c :: r) := if_neg (by simpa using h1)
      rw [this]
      have := drop_length r
      simpa [hd] using this
  unfold lex_number at h
  simp only at h
  split at h
  · simp at h
  · rename_i hx
    split at h
    · simp at h
    · simp only [Except.ok.injEq, Prod.mk.injEq] at h
      have a1 := numExp_length _ hx
      have a2 := numFrac_length ((numSign (c :: r)).2.dropWhile isDigit)
      rw [← h.2]
      have a3 := cut_length (by assumption : List Byte)
      refine Nat.le_trans (cut_length _) ?_
      omega

theorem advance_length {l l' : List Byte} {t : Tok D} (h : advance td l = .ok (t, l')) : l'.length < l.length := by
  have hs := skip_length l
  unfold advance at h
  split at h; · simp at h
  rename_i c r hr
  rw [hr] at hs
  simp only [List.length_cons] at hs
  by_cases g : c = 0
  · rw [if_pos g] at h; simp at h
  rw [if_neg g] at h; clear g
  by_cases g : c = 0x7b
  · rw [if_pos g] at h; simp only [Except.ok.injEq, Prod.mk.injEq] at h; rw [← h.2]; omega
  rw [if_neg g] at h; clear g
  by_cases g : c = 0x7d
  · rw [if_pos g] at h; simp only [Except.ok.injEq, Prod.mk.injEq] at h; rw [← h.2]; omega
  rw [if_neg g] at h; clear g
  by_cases g : c = 0x5b
  · rw [if_pos g] at h; simp only [Except.ok.injEq, Prod.mk.injEq] at h; rw [← h.2]; omega
  rw [if_neg g] at h; clear g
  by_cases g : c = 0x5d
  · rw [if_pos g] at h; simp only [Except.ok.injEq, Prod.mk.injEq] at h; rw [← h.2]; omega
  rw [if_neg g] at h; clear g
  by_cases g : c = 0x3a
  · rw [if_pos g] at h; simp only [Except.ok.injEq, Prod.mk.injEq] at h; rw [← h.2]; omega
  rw [if_neg g] at h; clear g
  by_cases g : c = 0x2c
  · rw [if_pos g] at h; simp only [Except.ok.injEq, Prod.mk.injEq] at h; rw [← h.2]; omega
  rw [if_neg g] at h; clear g
  by_cases g : c = 0x22
  · rw [if_pos g] at h
    split at h
    · simp at h
    · rename_i hx
      have := lexString_length _ _ _ hx
      simp only [Except.ok.injEq, Prod.mk.injEq] at h; rw [← h.2]; omega
  rw [if_neg g] at h; clear g
  by_cases g : c = 0x2d ∨ isDigit c = true
  · rw [if_pos g] at h
    split at h
    · simp at h
    · rename_i hx
      have := number_length g hx
      simp only [Except.ok.injEq, Prod.mk.injEq] at h; rw [← h.2]; omega
  rw [if_neg g] at h; clear g
  by_cases g : c = 0x74
  · rw [if_pos g] at h
    split at h
    · simp at h
    · rename_i hx
      have := match_length _ _ hx
      simp only [Except.ok.injEq, Prod.mk.injEq] at h; rw [← h.2]; omega
  rw [if_neg g] at h; clear g
  by_cases g : c = 0x66
  · rw [if_pos g] at h
    split at h
    · simp at h
    · rename_i hx
      have := match_length _ _ hx
      simp only [Except.ok.injEq, Prod.mk.injEq] at h; rw [← h.2]; omega
  rw [if_neg g] at h; clear g
  by_cases g : c = 0x6e
  · rw [if_pos g] at h
    split at h
    · simp at h
    · rename_i hx
      have := match_length _ _ hx
      simp only [Except.ok.injEq, Prod.mk.injEq] at h; rw [← h.2]; omega
  rw [if_neg g] at h; clear g
  simp at h

theorem advance_not_fuel (l : List Byte) : advance td l ≠ .error .fuel := by
  have hhex : ∀ i val l, lexHex i val l ≠ .error .fuel := by
    intro i
    induction i with
    | zero => intro val l; simp [lexHex]
    | succ i ih => intro val l; simp only [lexHex]; split <;> [simp; exact ih _ _]
  have hstr : ∀ n l s, lexStringLoop n l s ≠ .error .fuel := by
    intro n
    induction n with
    | zero => intro l s; simp [lexStringLoop]
    | succ n ih =>
      intro l s
      simp only [lexStringLoop]
      split; · simp
      split; · simp
      split; · simp
      split; · exact ih _ _
      split; · simp
      split; · simp
      split
      · split
        · rename_i hx; intro h; simp only [Except.error.injEq] at h; subst h; exact hhex _ _ _ hx
        · exact ih _ _
      · split <;> [simp; exact ih _ _]
  have hnum : ∀ l, lex_number td l ≠ .error .fuel := by
    intro l
    unfold lex_number
    simp only
    split
    · rename_i hx
      intro h; simp only [Except.error.injEq] at h; subst h
      exact numExp_not_fuel _ hx
    · split <;> simp
  have hmat : ∀ str l, matchText str l ≠ .error .fuel := by
    intro str
    induction str with
    | nil => intro l; simp [matchText]
    | cons c str ih => intro l; simp only [matchText]; split <;> [simp; exact ih _]
  unfold advance
  split; · simp
  rename_i c r hr
  by_cases g : c = 0
  · rw [if_pos g]; simp
  rw [if_neg g]; clear g
  by_cases g : c = 0x7b
  · rw [if_pos g]; simp
  rw [if_neg g]; clear g
  by_cases g : c = 0x7d
  · rw [if_pos g]; simp
  rw [if_neg g]; clear g
  by_cases g : c = 0x5b
  · rw [if_pos g]; simp
  rw [if_neg g]; clear g
  by_cases g : c = 0x5d
  · rw [if_pos g]; simp
  rw [if_neg g]; clear g
  by_cases g : c = 0x3a
  · rw [if_pos g]; simp
  rw [if_neg g]; clear g
  by_cases g : c = 0x2c
  · rw [if_pos g]; simp
  rw [if_neg g]; clear g
  by_cases g : c = 0x22
  · rw [if_pos g]
    split
    · rename_i hx; intro h; simp only [Except.error.injEq] at h; subst h; exact hstr _ _ _ hx
    · simp
  rw [if_neg g]; clear g
  by_cases g : c = 0x2d ∨ isDigit c = true
  · rw [if_pos g]
    split
    · rename_i hx; intro h; simp only [Except.error.injEq] at h; subst h; exact hnum _ hx
    · simp
  rw [if_neg g]; clear g
  by_cases g : c = 0x74
  · rw [if_pos g]
    split
    · rename_i hx; intro h; simp only [Except.error.injEq] at h; subst h; exact hmat _ _ hx
    · simp
  rw [if_neg g]; clear g
  by_cases g : c = 0x66
  · rw [if_pos g]
    split
    · rename_i hx; intro h; simp only [Except.error.injEq] at h; subst h; exact hmat _ _ hx
    · simp
  rw [if_neg g]; clear g
  by_cases g : c = 0x6e
  · rw [if_pos g]
    split
    · rename_i hx; intro h; simp only [Except.error.injEq] at h; subst h; exact hmat _ _ hx
    · simp
  rw [if_neg g]; clear g
  simp

/-- The bound that is enough. -/
def need (l : List Byte) : Job D → Nat
  | .from_token _ => 2 * l.length + 2
  | _ => 2 * l.length + 1

theorem go_length (n : Nat) (j : Job D) (l : List Byte) {v : Val D} {l' : List Byte} (h : go td n j l = .ok (v, l')) :
    l'.length ≤ l.length := by
  induction n generalizing j l v l' with
  | zero => simp [go] at h
  | succ n ih =>
    cases j with
    | from_token t =>
      cases t <;> simp only [go] at h <;> first
        | exact ih _ _ h
        | (simp at h; done)
        | (simp only [Except.ok.injEq, Prod.mk.injEq] at h; exact Nat.le_of_eq (congrArg _ h.2.symm))
    | map ms =>
      simp only [go] at h
      split at h
      · simp at h
      · rename_i h1; have := advance_length h1
        simp only [Except.ok.injEq, Prod.mk.injEq] at h; rw [← h.2]; omega
      · rename_i h1; have := advance_length h1
        split at h; · simp at h
        split at h
        · simp at h
        · rename_i h2; have := advance_length h2
          split at h
          · simp at h
          · rename_i h3; have := advance_length h3
            split at h
            · simp at h
            · rename_i h4; have := ih _ _ h4
              split at h
              · simp at h
              · rename_i h5; have := advance_length h5; have := ih _ _ h; omega
              · rename_i h5; have := advance_length h5
                simp only [Except.ok.injEq, Prod.mk.injEq] at h; rw [← h.2]; omega
              · simp at h
        · simp at h
      · simp at h
    | array vs =>
      simp only [go] at h
      split at h
      · simp at h
      · rename_i h1; have := advance_length h1
        simp only [Except.ok.injEq, Prod.mk.injEq] at h; rw [← h.2]; omega
      · rename_i h1; have := advance_length h1
        split at h
        · simp at h
        · rename_i h4; have := ih _ _ h4
          split at h
          · simp at h
          · rename_i h5; have := advance_length h5; have := ih _ _ h; omega
          · rename_i h5; have := advance_length h5
            simp only [Except.ok.injEq, Prod.mk.injEq] at h; rw [← h.2]; omega
          · simp at h

theorem go_not_fuel (n : Nat) (j : Job D) (l : List Byte) (hn : need l j ≤ n) : go td n j l ≠ .error .fuel := by
  induction n generalizing j l with
  | zero => cases j <;> simp [need] at hn
  | succ n ih =>
    cases j with
    | from_token t =>
      simp only [need] at hn
      cases t <;> simp only [go] <;> first
        | exact ih _ _ (by simp only [need]; omega)
        | simp
    | map ms =>
      simp only [need] at hn
      simp only [go]
      split
      · rename_i h1; intro h; simp only [Except.error.injEq] at h; subst h; exact advance_not_fuel _ h1
      · simp
      · rename_i h1; have := advance_length h1
        split; · simp
        split
        · rename_i h2; intro h; simp only [Except.error.injEq] at h; subst h; exact advance_not_fuel _ h2
        · rename_i h2; have := advance_length h2
          split
          · rename_i h3; intro h; simp only [Except.error.injEq] at h; subst h; exact advance_not_fuel _ h3
          · rename_i h3; have := advance_length h3
            split
            · rename_i h4; intro h; simp only [Except.error.injEq] at h; subst h
              exact ih _ _ (by simp only [need]; omega) h4
            · rename_i h4; have := go_length _ _ _ h4
              split
              · rename_i h5; intro h; simp only [Except.error.injEq] at h; subst h; exact advance_not_fuel _ h5
              · rename_i h5; have := advance_length h5
                exact ih _ _ (by simp only [need]; omega)
              · simp
              · simp
        · simp
      · simp
    | array vs =>
      simp only [need] at hn
      simp only [go]
      split
      · rename_i h1; intro h; simp only [Except.error.injEq] at h; subst h; exact advance_not_fuel _ h1
      · simp
      · rename_i h1; have := advance_length h1
        split
        · rename_i h4; intro h; simp only [Except.error.injEq] at h; subst h
          exact ih _ _ (by simp only [need]; omega) h4
        · rename_i h4; have := go_length _ _ _ h4
          split
          · rename_i h5; intro h; simp only [Except.error.injEq] at h; subst h; exact advance_not_fuel _ h5
          · rename_i h5; have := advance_length h5
            exact ih _ _ (by simp only [need]; omega)
          · simp
          · simp

/-- What the results are like. -/
theorem go_good (n : Nat) (j : Job D) (l : List Byte) {v : Val D} {l' : List Byte} (h : go td n j l = .ok (v, l'))
    (hj : match j with
      | .from_token _ => True
      | .map ms => (ms.map (·.1)).Nodup ∧ ∀ m ∈ ms, Good m.2
      | .array vs => ∀ v ∈ vs, Good v) : Good v := by
  have hobj : ∀ ms : List (List Byte × Val D), (ms.map (·.1)).Nodup → (∀ m ∈ ms, Good m.2) → Good (mkObj ms) := by
    intro ms h1 h2
    cases ms with
    | nil => exact .empty
    | cons m ms => exact .obj _ (by simp) h1 h2
  have harr : ∀ vs : List (Val D), (∀ v ∈ vs, Good v) → Good (mkArr vs) := by
    intro vs h2
    cases vs with
    | nil => exact .empty
    | cons m ms => exact .arr _ (by simp) h2
  induction n generalizing j l v l' with
  | zero => simp [go] at h
  | succ n ih =>
    cases j with
    | from_token t =>
      cases t <;> simp only [go] at h
      case lbrace => exact ih _ _ h (by simp)
      case lbracket => exact ih _ _ h (by simp)
      case comma => simp at h
      case colon => simp at h
      case rbrace => simp at h
      case rbracket => simp at h
      all_goals
        simp only [Except.ok.injEq, Prod.mk.injEq] at h
        rw [← h.1]; constructor
    | map ms =>
      simp only at hj
      simp only [go] at h
      split at h
      · simp at h
      · simp only [Except.ok.injEq, Prod.mk.injEq] at h; rw [← h.1]; exact hobj _ hj.1 hj.2
      · rename_i k l1 h1
        by_cases hk : (ms.any (fun m => m.1 == k)) = true
        · rw [if_pos hk] at h; simp at h
        rw [if_neg hk] at h
        split at h
        · simp at h
        · split at h
          · simp at h
          · split at h
            · simp at h
            · rename_i v0 l4 h4
              have hv0 := ih _ _ h4 trivial
              have hms : ((ms ++ [(k, v0)]).map (·.1)).Nodup ∧ ∀ m ∈ ms ++ [(k, v0)], Good m.2 := by
                constructor
                · rw [List.map_append, List.nodup_append]
                  refine ⟨hj.1, by simp, ?_⟩
                  intro a ha b hb e
                  simp only [List.map_cons, List.map_nil, List.mem_singleton] at hb
                  obtain ⟨m, hm, rfl⟩ := List.mem_map.1 ha
                  apply hk
                  rw [List.any_eq_true]
                  exact ⟨m, hm, by simp [e, hb]⟩
                · intro m hm
                  rcases List.mem_append.1 hm with h | h
                  · exact hj.2 m h
                  · rw [List.mem_singleton.1 h]; exact hv0
              split at h
              · simp at h
              · exact ih _ _ h hms
              · simp only [Except.ok.injEq, Prod.mk.injEq] at h; rw [← h.1]; exact hobj _ hms.1 hms.2
              · simp at h
        · simp at h
      · simp at h
    | array vs =>
      simp only at hj
      simp only [go] at h
      split at h
      · simp at h
      · simp only [Except.ok.injEq, Prod.mk.injEq] at h; rw [← h.1]; exact harr _ hj
      · split at h
        · simp at h
        · rename_i v0 l4 h4
          have hv0 := ih _ _ h4 trivial
          have hvs : ∀ v ∈ vs ++ [v0], Good v := by
            intro m hm
            rcases List.mem_append.1 hm with h | h
            · exact hj m h
            · rw [List.mem_singleton.1 h]; exact hv0
          split at h
          · simp at h
          · exact ih _ _ h hvs
          · simp only [Except.ok.injEq, Prod.mk.injEq] at h; rw [← h.1]; exact harr _ hvs
          · simp at h

end C3.StdJson
