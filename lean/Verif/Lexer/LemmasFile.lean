import Verif.Lexer.LemmasTok

/-! # All tokens of a file -/

set_option autoImplicit false

namespace C3.Lexer

open Spec (HexOverrun OpenChar OpenRaw Gap NoGap Located Tiled row inLine located)

theorem rd_over (src : Src) : rd src (src.length + 1) = none := by
  unfold rd; rw [if_neg (by omega), if_neg (by omega)]

theorem nextToken_cases (src : Src) (hz : NoNul src) (hcr : ∀ c ∈ src, c ≠ 13) (keyword : List Nat → Bool) {l : Lx}
    (hl : l.pos ≤ src.length) :
    (nextToken src keyword l = none ∧ (HexOverrun src ∨ OpenChar src ∨ OpenRaw src)) ∨
    ∃ l0, Adv src l l0 ∧ Gap l.contracts (src.drop l.pos) (src.drop l0.pos) ∧
      ((l0.pos = src.length ∧ nextToken src keyword l = some (begin_ l0, .eof, true)) ∨
       (∃ l1 t, nextToken src keyword l = some (l1, .tok t, true) ∧ Fwd src (begin_ l0) l1 ∧ l0.pos < l1.pos) ∨
       (∃ l1 ok, nextToken src keyword l = some (l1, .bad, ok) ∧ l0.pos < src.length ∧ l1.pos = src.length)) := by
  unfold nextToken
  rcases scanToken_cases src hz hcr keyword hl with ⟨h1, h2⟩ | ⟨l0, ha, hg, -, h⟩
  · left; rw [h1]; exact ⟨rfl, .inl h2⟩
  · rcases h with ⟨h2, h3⟩ | ⟨l1, t, h2, h3, h4⟩ | ⟨l1, h2, h3, h4⟩
    · right
      refine ⟨l0, ha, hg, .inl ⟨h2, ?_⟩⟩
      simp only [h3, Option.bind_eq_bind, Option.bind_some, Out.isTok, Bool.false_eq_true, if_false, peek,
        show (begin_ l0).pos = src.length from h2, rd_end, if_true]
    · right
      exact ⟨l0, ha, hg, .inr (.inl ⟨l1, t, by simp [h2, Out.isTok], h3, h4⟩)⟩
    · simp only [h2, Option.bind_eq_bind, Option.bind_some, Out.isTok, Bool.false_eq_true, if_false, peek]
      rcases h4 with h4 | ⟨h4, h5⟩
      · obtain ⟨c, hc⟩ := rd_some src h4
        rw [hc, Option.bind_some]
        by_cases h0 : c = 0
        · rw [if_pos h0]
          subst h0
          have := rd_zero hz hc
          exact .inr ⟨l0, ha, hg, .inr (.inr ⟨l1, _, rfl, by omega, this⟩)⟩
        · rw [if_neg h0]
          rcases drain_cases src hz hcr keyword _ false l1 h4 rfl with ⟨h5, h6⟩ | ⟨l2, h5, h6⟩
          · left; rw [h5]; exact ⟨rfl, h6⟩
          · right
            rw [h5]
            exact ⟨l0, ha, hg, .inr (.inr ⟨l2, _, rfl, by omega, h6⟩)⟩
      · left
        rw [h4, rd_over]
        exact ⟨rfl, .inr h5⟩

theorem gap_nil (m : Bool) : ∀ {s r : List Nat}, Gap m s r → s = [] → r = [] := by
  intro s r h
  cases h with
  | done => exact id
  | space => simp
  | newline => simp
  | line => simp [Spec.str]
  | lineEnd => simp [Spec.str]
  | block => simp [Spec.str]
  | blockEnd => simp [Spec.str]

theorem lexAll_end (src : Src) (hz : NoNul src) (hcr : ∀ c ∈ src, c ≠ 13) (keyword : List Nat → Bool) {l : Lx}
    (hl : l.pos = src.length) :
    lexAll src keyword l = some ([], true) ∨
      (lexAll src keyword l = none ∧ (HexOverrun src ∨ OpenChar src ∨ OpenRaw src)) := by
  rw [lexAll]
  rcases nextToken_cases src hz hcr keyword (Nat.le_of_eq hl) with ⟨h1, h2⟩ | ⟨l0, ha, hg, h⟩
  · right; rw [h1]; exact ⟨rfl, h2⟩
  · left
    have hle := ha.le
    rcases h with ⟨h2, h3⟩ | ⟨l1, t, h2, h3, h4⟩ | ⟨l1, ok, h2, h3, h4⟩
    · simp [h3]
    · have := h3.bound; omega
    · omega

/-- A token and where it is. -/
def Placed (src : Src) (x : Lexed) : Prop :=
  x.l.startRow = row src x.l.start ∧ x.l.startRowStart + inLine src x.l.start = x.l.start ∧ Located src x.l ∧
    x.l.start < x.l.pos

theorem lexAll_cases (src : Src) (hz : NoNul src) (hcr : ∀ c ∈ src, c ≠ 13) (keyword : List Nat → Bool) (m : Nat) :
    ∀ (l : Lx), Located src l → src.length - l.pos = m →
    (lexAll src keyword l = none ∧ (HexOverrun src ∨ OpenChar src ∨ OpenRaw src)) ∨
    ∃ toks ok, lexAll src keyword l = some (toks, ok) ∧ (ok = true → Tiled src l.contracts l.pos toks) ∧
      ∀ x ∈ toks, Placed src x := by
  induction m using Nat.strongRecOn with
  | _ m ih =>
    intro l hloc hm
    have hl := hloc.1
    rw [lexAll]
    rcases nextToken_cases src hz hcr keyword hl with ⟨h1, h2⟩ | ⟨l0, ha, hg, h⟩
    · left; rw [h1]; exact ⟨rfl, h2⟩
    · have hle := ha.le
      rcases h with ⟨h2, h3⟩ | ⟨l1, t, h2, h3, h4⟩ | ⟨l1, ok, h2, h3, h4⟩
      · right
        refine ⟨[], true, by simp [h3], ?_, by simp⟩
        intro _
        rw [h2, List.drop_length] at hg
        exact .last _ _ hg
      · have hb := h3.bound
        have hloc0 := ha.located hloc
        have hloc1 : Located src l1 := h3.located hloc0
        simp only [h2, Option.bind_eq_bind, Option.bind_some]
        rw [if_neg (by simp)]
        rcases ih (src.length - l1.pos) (by omega) l1 hloc1 rfl with ⟨h5, h6⟩ | ⟨toks, ok, h5, h6, h7⟩
        · left; rw [h5]; exact ⟨rfl, h6⟩
        · right
          rw [h5]
          have hs : l1.start = l0.pos := h3.start
          refine ⟨⟨t, l1⟩ :: toks, ok, rfl, ?_, ?_⟩
          · intro hok
            exact .tok _ _ _ _ (by dsimp only; omega) (by dsimp only; omega) hb (by dsimp only; rwa [hs]) (h6 hok)
          · intro x hx
            rcases List.mem_cons.mp hx with rfl | hx
            · refine ⟨?_, ?_, hloc1, by dsimp only; omega⟩
              · dsimp only
                rw [h3.startRow, hs]; exact hloc0.2.1
              · dsimp only
                rw [h3.startRowStart, hs]; exact hloc0.2.2
            · exact h7 x hx
      · simp only [h2, Option.bind_eq_bind, Option.bind_some]
        cases ok with
        | false => exact .inr ⟨[], false, rfl, by simp, by simp⟩
        | true =>
          rw [if_neg (by simp)]
          rcases lexAll_end src hz hcr keyword h4 with h5 | ⟨h5, h6⟩
          · right; rw [h5]; exact ⟨[], false, rfl, by simp, by simp⟩
          · left; rw [h5]; exact ⟨rfl, h6⟩

theorem located_init (src : Src) : Located src init := by
  refine ⟨Nat.zero_le _, ?_, ?_⟩ <;> simp [init, row, inLine]

/-! ## Locations -/

theorem take_split (src : Src) {a b : Nat} (h : a ≤ b) : src.take b = src.take a ++ (src.drop a).take (b - a) := by
  obtain ⟨k, rfl⟩ : ∃ k, b = a + k := ⟨b - a, by omega⟩
  rw [List.take_add]; simp

theorem row_split (src : Src) {a b : Nat} (h : a ≤ b) :
    row src b = row src a + ((src.drop a).take (b - a)).count 10 := by
  unfold row
  rw [take_split src h, List.count_append]; omega

theorem inLine_split (src : Src) {a b : Nat} (h : a ≤ b) (hb : b ≤ src.length)
    (hn : 10 ∉ (src.drop a).take (b - a)) : inLine src b = inLine src a + (b - a) := by
  unfold inLine
  rw [take_split src h, List.reverse_append, List.takeWhile_append_of_pos]
  · simp; omega
  · intro x hx
    have : x ≠ 10 := by rintro rfl; exact hn (List.mem_reverse.mp hx)
    simpa using this

theorem span_located {src : Src} {x : Lexed} (h : Placed src x) : span x.l = located src x.l.start x.l.pos := by
  obtain ⟨h1, h2, ⟨h3, h4, h5⟩, h6⟩ := h
  have hs := row_split src (Nat.le_of_lt h6)
  unfold span located check255
  by_cases hn : 10 ∈ (src.drop x.l.start).take (x.l.pos - x.l.start)
  · have := List.count_pos_iff.mpr hn
    rw [if_neg (by omega)]
    have hcol : x.l.start - x.l.startRowStart = inLine src x.l.start := by omega
    simp only [hcol, hn, if_true, h1]
  · have h0 : ((src.drop x.l.start).take (x.l.pos - x.l.start)).count 10 = 0 := List.count_eq_zero.mpr hn
    have hi := inLine_split src (Nat.le_of_lt h6) h3 hn
    rw [if_pos (by omega)]
    have hcol : x.l.start - x.l.lineStart = inLine src x.l.start := by omega
    simp only [hcol, hn, if_false, h1]

end C3.Lexer
