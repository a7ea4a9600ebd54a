import Verif.Lexer.LemmasBlank

/-! # Bidirectional control characters -/

set_option autoImplicit false

namespace C3.Lexer

open Spec (Mark markAt marks Balanced)

/-- What the loop does with the control characters. -/
def walk : Int → List Mark → Int
  | b, [] => b
  | b, .embed :: m => walk (b + 1) m
  | b, .endEmbed :: m => if b - 1 < 0 then b - 1 else walk b m
  | b, .isolate :: m => walk (b + 1) m
  | b, .endIsolate :: m => if b - 1 < 0 then b - 1 else walk (b - 1) m

theorem bidiLoop_walk (src : Src) (hz : NoNul src) (m : Nat) : ∀ (b : Int) (i : Nat), i ≤ src.length →
    src.length - i = m → bidiLoop src b i = some (walk b (marks (src.drop i))) := by
  induction m with
  | zero =>
    intro b i hi hm
    have : i = src.length := by omega
    subst this
    rw [bidiLoop, rd_end]
    simp [marks, walk]
  | succ m ih =>
    intro b i hi hm
    have hlt : i < src.length := by omega
    have hd := List.drop_eq_getElem_cons hlt
    have h0 : src[i] ≠ 0 := hz _ (List.getElem_mem hlt)
    rw [bidiLoop, rd_getElem src hlt, hd]
    have step : ∀ b, bidiLoop src b (i + 1) = some (walk b (marks (src.drop (i + 1)))) := fun b =>
      ih b (i + 1) (by omega) (by omega)
    simp only [Option.bind_eq_bind, Option.bind_some, marks]
    generalize src[i] = c at h0
    rw [if_neg h0]
    by_cases hc : c = 0xE2
    · subst hc
      rw [if_neg (by simp)]
      rcases hs : src.drop (i + 1) with _ | ⟨d, s⟩
      · have : src.length ≤ i + 1 := by simpa using hs
        rw [show i + 1 = src.length by omega, rd_end]
        simp [markAt, marks, walk]
      · obtain ⟨hlt1, h1, hs1⟩ := drop_cons hs
        have hd0 : d ≠ 0 := by
          have : d ∈ src.drop (i + 1) := by rw [hs]; simp
          exact hz d (List.mem_of_mem_drop this)
        rw [← hs]
        simp only [h1, Option.bind_some, if_neg hd0]
        obtain ⟨t, ht⟩ := rd_some src (show i + 2 ≤ src.length by omega)
        simp only [ht, Option.bind_some, step]
        have hs2 : (∃ s', s = t :: s') ∨ (s = [] ∧ t = 0) := by
          cases s with
          | nil =>
            have : src.length ≤ i + 1 + 1 := by simpa using hs1
            rw [show i + 2 = src.length by omega, rd_end] at ht
            exact .inr ⟨rfl, (Option.some.inj ht).symm⟩
          | cons a s' =>
            have := (drop_cons hs1).2.1
            rw [ht] at this
            cases this
            exact .inl ⟨s', rfl⟩
        rw [hs]
        rcases hs2 with ⟨s', rfl⟩ | ⟨rfl, rfl⟩
        · by_cases h80 : d = 0x80
          · subst h80
            simp only [markAt, if_true]
            by_cases hac : t = 0xAC
            · subst hac
              simp [walk]
              split <;> rfl
            · by_cases hin : t ∈ [0xAA, 0xAB, 0xAD, 0xAE]
              · have : 0xAA ≤ t ∧ t ≤ 0xAE := by simp at hin; omega
                simp [hac, hin, this, walk]
              · have : ¬ (0xAA ≤ t ∧ t ≤ 0xAE) := by simp at hin; omega
                simp [hac, hin, this]
          · by_cases h81 : d = 0x81
            · subst h81
              simp only [markAt, if_true]
              by_cases hin : t ∈ [0xA6, 0xA7, 0xA8]
              · have : 0xA6 ≤ t ∧ t ≤ 0xA8 := by simp at hin; omega
                simp [hin, this, walk]
              · have : ¬ (0xA6 ≤ t ∧ t ≤ 0xA8) := by simp at hin; omega
                by_cases ha9 : t = 0xA9
                · subst ha9
                  simp [walk]
                  split <;> rfl
                · simp [hin, ha9, this]
            · have : markAt (0xE2 :: d :: t :: s') = [] := by
                unfold markAt
                split <;> simp_all
              simp [h80, h81, this]
        · have : markAt (0xE2 :: d :: []) = [] := by
            unfold markAt
            split <;> simp_all
          rw [this]
          by_cases h80 : d = 0x80
          · subst h80; simp
          · by_cases h81 : d = 0x81
            · subst h81; simp
            · simp [h80, h81]
    · rw [if_pos hc, step]
      have : markAt (c :: src.drop (i + 1)) = [] := by
        unfold markAt
        split <;> simp_all
      rw [this]; rfl

/-- `Closes n m`: `m` closes `n` isolates. -/
def Closes' : Nat → List Mark → Prop
  | 0, m => Balanced m
  | n + 1, m => ∃ a r, m = a ++ .endIsolate :: r ∧ Balanced a ∧ Closes' n r

theorem walk_balanced {m : List Mark} (h : Balanced m) : (∀ x ∈ m, x = .isolate ∨ x = .endIsolate) →
    ∀ (b : Int) (r : List Mark), 0 ≤ b → walk b (m ++ r) = walk b r := by
  induction h with
  | nil => intro _ b r _; rfl
  | embed a c _ _ _ _ => intro h; have := h .embed (by simp); simp at this
  | isolate a c _ _ iha ihc =>
    intro h b r hb
    have e : (Mark.isolate :: a ++ .endIsolate :: c) ++ r = .isolate :: (a ++ (.endIsolate :: (c ++ r))) := by simp
    rw [e, walk, iha (fun x hx => h x (by simp [hx])) _ _ (by omega), walk, if_neg (by omega),
      show b + 1 - 1 = b by omega, ihc (fun x hx => h x (by simp [hx])) _ _ hb]

theorem walk_closes (m : List Mark) : (∀ x ∈ m, x = .isolate ∨ x = .endIsolate) → ∀ n : Nat, walk n m = 0 →
    Closes' n m := by
  induction m with
  | nil =>
    intro _ n h
    have : n = 0 := by simp [walk] at h; omega
    subst this
    exact .nil
  | cons x m ih =>
    intro hx n h
    have ih := ih (fun y hy => hx y (by simp [hy]))
    rcases hx x (by simp) with rfl | rfl
    · obtain ⟨a, r, rfl, ha, hr⟩ := ih (n + 1) (by rw [walk] at h; exact_mod_cast h)
      cases n with
      | zero => exact .isolate a r ha hr
      | succ n =>
        obtain ⟨a', r', rfl, ha', hr'⟩ := hr
        exact ⟨.isolate :: a ++ .endIsolate :: a', r', by simp, .isolate a a' ha ha', hr'⟩
    · rw [walk] at h
      split at h
      · omega
      · cases n with
        | zero => rename_i h'; simp at h'
        | succ n =>
          refine ⟨[], m, rfl, .nil, ih n ?_⟩
          rw [show ((n + 1 : Nat) : Int) - 1 = n by omega] at h
          exact h

/-- A text whose control characters are all isolates is accepted exactly if every one is closed.  The full claim, that a
text is accepted exactly if every control character is closed by its own kind, does not hold: see `C30_embedding` and
`C30_mixed`. -/
theorem C30_isolates_partial (src : Src) (hz : NoNul src)
    (h : ∀ x ∈ marks src, x = .isolate ∨ x = .endIsolate) : bidiError src = some false ↔ Balanced (marks src) := by
  unfold bidiError
  rw [bidiLoop_walk src hz _ 0 0 (by omega) rfl]
  simp only [List.drop_zero, Option.bind_eq_bind, Option.bind_some, Option.some.injEq, ne_eq, decide_eq_false_iff_not,
    Decidable.not_not]
  constructor
  · intro hw
    exact walk_closes (marks src) h 0 (by exact_mod_cast hw)
  · intro hb
    have := walk_balanced hb h 0 [] (by omega)
    simpa [walk] using this

/-- A text with U+2067 and U+2069. -/
example : marks [0xE2, 0x81, 0xA7, 97, 0xE2, 0x81, 0xA9] = [.isolate, .endIsolate] ∧ Balanced [.isolate, .endIsolate] :=
  ⟨by simp [marks, markAt], .isolate [] [] .nil .nil⟩

theorem walk_count (m : List Mark) : ∀ b : Int, 0 ≤ b → walk b m = 0 →
    b + m.count .embed + m.count .isolate = m.count .endIsolate := by
  induction m with
  | nil => intro b _ h; simp [walk] at h; simp [h]
  | cons x m ih =>
    intro b hb h
    cases x with
    | embed => rw [walk] at h; have := ih _ (by omega) h; simp; omega
    | isolate => rw [walk] at h; have := ih _ (by omega) h; simp; omega
    | endEmbed =>
      rw [walk] at h
      split at h
      · omega
      · have := ih _ hb h; simp; omega
    | endIsolate =>
      rw [walk] at h
      split at h
      · omega
      · have := ih _ (by omega) h; simp; omega

theorem balanced_count {m : List Mark} (h : Balanced m) : m.count .isolate = m.count .endIsolate := by
  induction h with
  | nil => rfl
  | embed a b _ _ iha ihb => simp [List.count_append]; omega
  | isolate a b _ _ iha ihb => simp [List.count_append]; omega

/-- A text in which everything is closed is rejected as soon as it has an embedding or override: closing it does not lower
the count. -/
theorem C30_embedding (src : Src) (hz : NoNul src) (hb : Balanced (marks src)) (h : .embed ∈ marks src) :
    bidiError src = some true := by
  unfold bidiError
  rw [bidiLoop_walk src hz _ 0 0 (by omega) rfl]
  simp only [List.drop_zero, Option.bind_eq_bind, Option.bind_some, Option.some.injEq, ne_eq, decide_eq_true_eq]
  intro hw
  have h1 := walk_count _ 0 (by omega) hw
  have h2 := balanced_count hb
  have h3 : 0 < (marks src).count .embed := List.count_pos_iff.2 h
  omega

/-- U+202A, "a", U+202C. -/
example : marks [0xE2, 0x80, 0xAA, 97, 0xE2, 0x80, 0xAC] = [.embed, .endEmbed] ∧ Balanced [.embed, .endEmbed] :=
  ⟨by simp [marks, markAt], .embed [] [] .nil .nil⟩

/-- A text with one embedding and one character that closes an isolate behind it is accepted. -/
theorem C30_mixed (src : Src) (hz : NoNul src) (h : marks src = [.embed, .endIsolate]) : bidiError src = some false := by
  unfold bidiError
  rw [bidiLoop_walk src hz _ 0 0 (by omega) rfl]
  simp [h, walk]

/-- U+202A, "a", U+2069. -/
example : marks [0xE2, 0x80, 0xAA, 97, 0xE2, 0x81, 0xA9] = [.embed, .endIsolate] := by simp [marks, markAt]

/-- A text without control characters is accepted. -/
theorem C30_plain (src : Src) (hz : NoNul src) (h : marks src = []) : bidiError src = some false :=
  (C30_isolates_partial src hz (by simp [h])).2 (by rw [h]; exact .nil)

/-- "é€": the second starts with the same byte as the control characters. -/
example : marks [0xC3, 0xA9, 0xE2, 0x82, 0xAC] = [] := by simp [marks, markAt]

end C3.Lexer
