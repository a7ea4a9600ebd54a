import Verif.Stream.Lemmas

set_option autoImplicit false

namespace C3.Stream

open C3.Str (sliceFrom sliceLen index_of)
open C3.Str.Spec (At)

variable {σ τ α : Type}

theorem At.split {s p : List α} {i : Nat} (h : At s p i) : s = s.take i ++ (p ++ s.drop (i + p.length)) ∧ i + p.length ≤ s.length := by
  obtain ⟨a, b, rfl, rfl⟩ := h
  constructor
  · rw [List.take_left, ← List.drop_drop, List.drop_left, List.drop_left]
  · simp

theorem at_single {s : List α} {x : α} {i : Nat} : At s [x] i ↔ s[i]? = some x := by
  constructor
  · rintro ⟨a, b, rfl, rfl⟩; simp
  · intro h
    obtain ⟨hi, hx⟩ := List.getElem?_eq_some_iff.1 h
    refine ⟨s.take i, s.drop (i + 1), ?_, by rw [List.length_take]; omega⟩
    rw [← hx, List.singleton_append, ← List.drop_eq_getElem_cons hi, List.take_append_drop]

/-- What `scan` does: see C163. -/
def ScanSpec (R : In σ α) (good : σ → Prop) (rest : σ → List α) (pattern : List α) (s t : Scanner σ α) (r : Scan α) : Prop :=
  match r with
  | .found l => t.Good good ∧ t.buf.length = s.buf.length ∧ s.rest rest = l ++ (pattern ++ t.rest rest) ∧
      (Whole R good rest → s.Filled rest → t.Filled rest) ∧
      (pattern.length = 1 → ∀ j < l.length, ¬ At (s.rest rest) pattern j)
  | .notFound =>
      (s.patternIdx = 0 ∨ s.readIdx < s.buf.length ∨ rest s.inner ≠ [] → t.Good good ∧ t.rest rest = s.rest rest) ∧
      (Whole R good rest → s.Filled rest → pattern.length = 1 → ∀ j < s.buf.length, ¬ At (s.rest rest) pattern j)
  | .fault => True

theorem window {good : σ → Prop} {s : Scanner σ α} (_ : s.Good good) :
    (s.buf.drop s.patternIdx).take (s.readIdx - s.patternIdx) = (s.buf.take s.readIdx).drop s.patternIdx := by
  rw [List.drop_take]

theorem getElem?_window {b r : List α} {j : Nat} (h : j < b.length) : (b ++ r)[j]? = b[j]? := List.getElem?_append_left h

theorem single_of_length {p : List α} (h : p.length = 1) : ∃ x, p = [x] := List.length_eq_one_iff.1 h

theorem search_spec [DecidableEq α] {R : In σ α} {good : σ → Prop} {rest : σ → List α} (h : Honest R good rest) {pattern : List α}
    (hp : pattern ≠ []) {s : Scanner σ α} (g : s.Good good) (hnz : s.readIdx ≠ 0) :
    ∃ t r, Scanner.search R s pattern = some (t, r) ∧ ScanSpec R good rest pattern s t r := by
  have hle := g.le
  have hcap := g.cap
  let b := (s.buf.take s.readIdx).drop s.patternIdx
  have hb : b = (s.buf.take s.readIdx).drop s.patternIdx := rfl
  have hbl : b.length = s.readIdx - s.patternIdx := by rw [hb, List.length_drop, List.length_take]; omega
  have hrest : s.rest rest = b ++ rest s.inner := rfl
  unfold Scanner.search
  rw [if_neg (by omega)]
  simp only
  rw [sliceLen_eq (by omega), window g, ← hb]
  simp only
  rcases C3.Str.C51_index_of b hp with ⟨i, e, hat, hfirst⟩ | ⟨e, hnone⟩
  · rw [e]
    simp only
    obtain ⟨hsp, hlen⟩ := At.split hat
    have hti : (b.take i).length = i := by rw [List.length_take]; omega
    refine ⟨_, _, rfl, ⟨g.inner, by simp only; omega, g.cap⟩, rfl, ?_, fun _ hf => hf, ?_⟩
    · rw [hrest]
      show b ++ rest s.inner = b.take i ++ (pattern ++ ((s.buf.take s.readIdx).drop (s.patternIdx + (i + pattern.length)) ++ rest s.inner))
      rw [← List.drop_drop, ← hb]
      conv => lhs; rw [hsp]
      simp only [List.append_assoc]
    · intro h1 j hj
      obtain ⟨x, rfl⟩ := single_of_length h1
      rw [hti] at hj
      have := hfirst j hj
      rw [at_single] at this ⊢
      rw [hrest, getElem?_window (by omega)]
      exact this
  · rw [e]
    simp only
    have hbnone : pattern.length = 1 → ∀ j < b.length, ¬ At (b ++ rest s.inner) pattern j := by
      intro h1 j hj
      obtain ⟨x, rfl⟩ := single_of_length h1
      have := hnone j
      rw [at_single] at this ⊢
      rw [getElem?_window hj]; exact this
    by_cases hc : s.patternIdx = 0 ∨ s.readIdx < s.buf.length
    · rw [if_pos hc]
      refine ⟨_, _, rfl, fun _ => ⟨g, rfl⟩, ?_⟩
      intro _ hf h1 j hj
      rw [hrest]
      by_cases hjb : j < b.length
      · exact hbnone h1 j hjb
      · have hin : rest s.inner = [] := by
          rcases hf with hf | hf | hf
          · exact absurd hf hnz
          · rcases hc with hc | hc <;> omega
          · exact hf
        obtain ⟨x, rfl⟩ := single_of_length h1
        rw [at_single, hin, List.append_nil, List.getElem?_eq_none (by omega)]
        simp
    · rw [if_neg hc]
      rw [not_or] at hc
      have hfull : s.readIdx = s.buf.length := by omega
      rw [put_eq (by omega)]
      simp only
      have hbuf1 : (s.buf.take 0 ++ (b ++ s.buf.drop (0 + b.length))).length = s.buf.length := by
        simp; omega
      rw [hbuf1]
      obtain ⟨j, r, er, hr⟩ := h.reads.read s.inner (s.buf.length - (s.readIdx - s.patternIdx)) g.inner
      rw [er]
      cases r with
      | eof =>
        have hr' : rest s.inner = [] := hr
        refine ⟨_, _, rfl, ?_, ?_⟩
        · rintro (h1 | h1 | h1)
          · exact absurd h1 hc.1
          · omega
          · exact absurd hr' h1
        · intro _ _ h1 k hk
          rw [hrest]
          by_cases hkb : k < b.length
          · exact hbnone h1 k hkb
          · obtain ⟨x, rfl⟩ := single_of_length h1
            rw [at_single, hr', List.append_nil, List.getElem?_eq_none (by omega)]
            simp
      | fault => exact ⟨_, _, rfl, trivial⟩
      | ok l =>
        obtain ⟨g', hl, hs, hne⟩ := hr
        simp only
        rw [put_eq (by rw [hbuf1]; omega)]
        simp only
        let B := (s.buf.take 0 ++ (b ++ s.buf.drop (0 + b.length))).take (s.readIdx - s.patternIdx) ++
          (l ++ (s.buf.take 0 ++ (b ++ s.buf.drop (0 + b.length))).drop (s.readIdx - s.patternIdx + l.length))
        have hB : (s.buf.take 0 ++ (b ++ s.buf.drop (0 + b.length))).take (s.readIdx - s.patternIdx) ++
          (l ++ (s.buf.take 0 ++ (b ++ s.buf.drop (0 + b.length))).drop (s.readIdx - s.patternIdx + l.length)) = B := rfl
        rw [hB]
        have ht1 : (s.buf.take 0 ++ (b ++ s.buf.drop (0 + b.length))).take (s.readIdx - s.patternIdx) = b := by
          rw [← hbl]; simp
        have hB2 : ∃ c, B = b ++ (l ++ c) := ⟨_, by rw [← hB, ht1]⟩
        obtain ⟨c, hBc⟩ := hB2
        have hBl : B.length = s.buf.length := by
          rw [← hB]
          have := put_eq (buf := s.buf.take 0 ++ (b ++ s.buf.drop (0 + b.length))) (l := l) (off := s.readIdx - s.patternIdx)
            (by rw [hbuf1]; omega)
          rw [put_length this, hbuf1]
        have hBt : ∀ k, k ≤ l.length → B.take (s.readIdx - s.patternIdx + k) = b ++ l.take k := by
          intro k hk
          rw [hBc, ← hbl, List.take_append, List.take_of_length_le (by omega), Nat.add_sub_cancel_left, List.take_append,
            Nat.sub_eq_zero_of_le hk]
          simp
        have hrs : s.rest rest = b ++ (l ++ rest j) := by rw [hrest, hs]
        have hw : Whole R good rest → s.readIdx - s.patternIdx + l.length = s.buf.length ∨ rest j = [] := by
          intro hw
          have h1 := hw _ _ _ _ g.inner er
          have h2 := congrArg List.length hs
          rw [List.length_append] at h2
          by_cases hz : rest j = []
          · exact Or.inr hz
          · have := List.length_pos_iff.2 hz
            left; omega
        rcases C3.Str.C51_index_of l hp with ⟨i, e2, hat, hfirst⟩ | ⟨e2, hnone2⟩
        · rw [e2]
          simp only
          obtain ⟨hsp, hlen⟩ := At.split hat
          rw [hBt i (by omega)]
          refine ⟨_, _, rfl, ⟨g', by simp only; omega, by simp only; omega⟩, hBl, ?_, ?_, ?_⟩
          · rw [hrs]
            show b ++ (l ++ rest j) = (b ++ l.take i) ++ (pattern ++ ((B.take (s.readIdx - s.patternIdx + l.length)).drop
              (s.readIdx - s.patternIdx + i + pattern.length) ++ rest j))
            rw [hBt _ (Nat.le_refl _), List.take_length, Nat.add_assoc, ← List.drop_drop, ← hbl, List.drop_left]
            conv => lhs; rw [hsp]
            simp only [List.append_assoc]
          · intro hW _
            rcases hw hW with h1 | h1
            · right; left
              show s.readIdx - s.patternIdx + l.length = B.length
              rw [hBl]; exact h1
            · exact Or.inr (Or.inr h1)
          · intro h1 k hk
            by_cases hkb : k < b.length
            · rw [hrest]; exact hbnone h1 k hkb
            · rw [hrs]
              obtain ⟨x, rfl⟩ := single_of_length h1
              rw [List.length_append, List.length_take] at hk
              have := hfirst (k - b.length) (by omega)
              rw [at_single] at this ⊢
              rw [List.getElem?_append_right (by omega), List.getElem?_append_left (by omega)]
              exact this
        · rw [e2]
          simp only
          refine ⟨_, _, rfl, fun _ => ⟨⟨g', Nat.zero_le _, by simp only; omega⟩, ?_⟩, ?_⟩
          · rw [hrs]
            show (B.take (s.readIdx - s.patternIdx + l.length)).drop 0 ++ rest j = _
            rw [hBt _ (Nat.le_refl _), List.take_length]; simp
          · intro hW _ h1 k hk
            by_cases hkb : k < b.length
            · rw [hrest]; exact hbnone h1 k hkb
            · rw [hrs]
              obtain ⟨x, rfl⟩ := single_of_length h1
              have h2 := hnone2 (k - b.length)
              rw [at_single] at h2 ⊢
              rw [List.getElem?_append_right (by omega)]
              by_cases hkl : k - b.length < l.length
              · rw [List.getElem?_append_left hkl]; exact h2
              · have : rest j = [] := by
                  rcases hw hW with h3 | h3
                  · omega
                  · exact h3
                rw [this, List.append_nil, List.getElem?_eq_none (by omega)]
                simp

theorem scan_spec [DecidableEq α] {R : In σ α} {good : σ → Prop} {rest : σ → List α} (h : Honest R good rest) {pattern : List α}
    (hp : pattern ≠ []) {s : Scanner σ α} (g : s.Good good) (hlen : pattern.length < s.buf.length) :
    ∃ t r, Scanner.scan R s pattern = some (t, r) ∧ ScanSpec R good rest pattern s t r := by
  unfold Scanner.scan
  rw [if_neg (by rintro (h1 | h1); exact hp h1; omega)]
  by_cases h0 : s.readIdx = 0
  · rw [if_pos h0]
    have hp0 : s.patternIdx = 0 := by have := g.le; omega
    have hrest : s.rest rest = rest s.inner := by unfold Scanner.rest; rw [h0]; simp
    obtain ⟨j, r, e, hr⟩ := h.reads.read s.inner s.buf.length g.inner
    rw [e]
    cases r with
    | eof =>
      have hr' : rest s.inner = [] := hr
      have he := h.read_eof _ _ _ g.inner e
      refine ⟨_, _, rfl, fun _ => ⟨⟨he.1, g.le, g.cap⟩, ?_⟩, ?_⟩
      · rw [hrest, hr']
        show (s.buf.take s.readIdx).drop s.patternIdx ++ rest j = []
        rw [he.2, h0]; simp
      · intro _ _ h1 k _
        obtain ⟨x, rfl⟩ := single_of_length h1
        rw [at_single, hrest, hr']; simp
    | fault => exact ⟨_, _, rfl, trivial⟩
    | ok l =>
      obtain ⟨g', hl, hs, hne⟩ := hr
      have hlne := hne (by omega)
      simp only
      rw [put_eq (by omega)]
      simp only
      let B := s.buf.take 0 ++ (l ++ s.buf.drop (0 + l.length))
      have hB : s.buf.take 0 ++ (l ++ s.buf.drop (0 + l.length)) = B := rfl
      rw [hB]
      have hBl : B.length = s.buf.length := by rw [← hB]; simp; omega
      have hBt : B.take l.length = l := by rw [← hB]; simp
      have gt : Scanner.Good good (⟨j, B, 0, l.length⟩ : Scanner σ α) := ⟨g', Nat.zero_le _, by simp only; omega⟩
      have hrt : Scanner.rest rest (⟨j, B, 0, l.length⟩ : Scanner σ α) = s.rest rest := by
        rw [hrest, hs]
        show (B.take l.length).drop 0 ++ rest j = _
        rw [hBt]; rfl
      obtain ⟨t, r, e2, hr2⟩ := search_spec h hp gt (fun e => hlne (List.eq_nil_of_length_eq_zero e))
      refine ⟨t, r, e2, ?_⟩
      have hfill : Whole R good rest → Scanner.Filled rest (⟨j, B, 0, l.length⟩ : Scanner σ α) := by
        intro hW
        have h1 := hW _ _ _ _ g.inner e
        have h2 := congrArg List.length hs
        rw [List.length_append] at h2
        by_cases hz : rest j = []
        · exact Or.inr (Or.inr hz)
        · have := List.length_pos_iff.2 hz
          right; left
          show l.length = B.length
          omega
      cases r with
      | found l' =>
        obtain ⟨h1, h2, h3, h4, h5⟩ := hr2
        exact ⟨h1, h2.trans hBl, by rw [← hrt]; exact h3, fun hW _ => h4 hW (hfill hW), by rw [← hrt]; exact h5⟩
      | notFound =>
        obtain ⟨h1, h2⟩ := hr2
        refine ⟨fun _ => by rw [← hrt]; exact h1 (Or.inl rfl), fun hW _ => ?_⟩
        have := h2 hW (hfill hW)
        rw [hrt] at this
        rw [← hBl]; exact this
      | fault => trivial
  · rw [if_neg h0]
    exact search_spec h hp g h0

theorem flush_spec {good : σ → Prop} {rest : σ → List α} {s : Scanner σ α} (g : s.Good good) :
    ∃ t l, s.flush = some (t, l) ∧ t.Good good ∧ s.rest rest = l ++ t.rest rest ∧ t.Filled rest ∧ t.rest rest = rest s.inner := by
  have hle := g.le; have hcap := g.cap
  unfold Scanner.flush
  rw [if_neg (by omega), sliceLen_eq (by omega), window g]
  refine ⟨_, _, rfl, ⟨g.inner, Nat.le_refl _, Nat.zero_le _⟩, ?_, Or.inl rfl, ?_⟩
  · unfold Scanner.rest; simp
  · unfold Scanner.rest; simp

theorem scanner_read_ok {R : In σ α} {good : σ → Prop} {rest : σ → List α} (h : Reads R good rest) {s : Scanner σ α} (g : s.Good good)
    (n : Nat) : ∃ t r, (scanner R).read s n = some (t, r) ∧
      match r with
      | .ok l => t.Good good ∧ l.length ≤ n ∧ s.rest rest = l ++ t.rest rest ∧ (n ≠ 0 → l ≠ [])
      | .eof => rest s.inner = []
      | .fault => True := by
  have hle := g.le; have hcap := g.cap
  simp only [scanner]
  by_cases hc : s.patternIdx < s.readIdx
  · rw [if_pos hc, sliceLen_eq (by omega)]
    simp only
    have hl : ((s.buf.drop s.patternIdx).take (min n (s.readIdx - s.patternIdx))).length = min n (s.readIdx - s.patternIdx) := by
      rw [List.length_take, List.length_drop]; omega
    obtain ⟨j, r, e, hr⟩ := h.read s.inner (n - min n (s.readIdx - s.patternIdx)) g.inner
    rw [e]
    cases r with
    | ok k =>
      obtain ⟨g', hk, hs, hne⟩ := hr
      refine ⟨_, _, rfl, ⟨g', by simp only; omega, hcap⟩, by rw [List.length_append]; omega, ?_, ?_⟩
      · show (s.buf.take s.readIdx).drop s.patternIdx ++ rest s.inner = _ ++ ((s.buf.take s.readIdx).drop
          (s.patternIdx + min n (s.readIdx - s.patternIdx)) ++ rest j)
        by_cases hn : n ≤ s.readIdx - s.patternIdx
        · have : k = [] := List.eq_nil_of_length_eq_zero (by omega)
          subst this
          rw [hs, List.append_nil, List.nil_append, ← List.append_assoc, Nat.min_eq_left hn]
          congr 1
          rw [← drop_take s.patternIdx n, List.drop_take, List.take_take, Nat.min_eq_left hn]
        · rw [Nat.min_eq_right (by omega), hs, show (s.buf.take s.readIdx).drop (s.patternIdx + (s.readIdx - s.patternIdx)) = [] from
            List.drop_eq_nil_of_le (by rw [List.length_take]; omega), List.nil_append, window g, List.append_assoc]
      · intro hn e2
        have := congrArg List.length e2
        rw [List.length_append, hl, List.length_nil] at this
        omega
    | eof => exact ⟨_, _, rfl, hr⟩
    | fault => exact ⟨_, _, rfl, trivial⟩
  · rw [if_neg hc]
    have he : s.patternIdx = s.readIdx := by omega
    have hr0 : ∀ t : Scanner σ α, t.buf = s.buf → t.patternIdx = s.patternIdx → t.readIdx = s.readIdx → t.rest rest = rest t.inner := by
      intro t h1 h2 h3
      unfold Scanner.rest
      rw [h1, h2, h3, he, List.drop_eq_nil_of_le (by rw [List.length_take]; omega)]; rfl
    obtain ⟨j, r, e, hr⟩ := h.read s.inner n g.inner
    rw [e]
    refine ⟨_, _, rfl, ?_⟩
    cases r with
    | ok k =>
      obtain ⟨g', hk, hs, hne⟩ := hr
      exact ⟨⟨g', hle, hcap⟩, hk, by rw [hr0 s rfl rfl rfl, hs, hr0 { s with inner := j } rfl rfl rfl], hne⟩
    | eof => exact hr
    | fault => trivial

theorem scanner_byte {R : In σ α} {good : σ → Prop} {rest : σ → List α} (h : Reads R good rest) {s : Scanner σ α} (g : s.Good good) :
    ∃ t r, (scanner R).readByte s = some (t, r) ∧
      match r with
      | .ok c => t.Good good ∧ s.rest rest = c :: t.rest rest
      | .eof => s.rest rest = []
      | .fault => True := by
  have hle := g.le; have hcap := g.cap
  simp only [scanner]
  by_cases hc : s.patternIdx < s.readIdx
  · rw [if_pos hc, List.getElem?_eq_getElem (by omega)]
    refine ⟨_, _, rfl, ⟨g.inner, by simp only; omega, hcap⟩, ?_⟩
    show (s.buf.take s.readIdx).drop s.patternIdx ++ rest s.inner = _ :: ((s.buf.take s.readIdx).drop (s.patternIdx + 1) ++ rest s.inner)
    rw [← List.cons_append]
    congr 1
    rw [List.drop_eq_getElem_cons (by rw [List.length_take]; omega), List.getElem_take]
  · rw [if_neg hc]
    have he : s.patternIdx = s.readIdx := by omega
    have hr0 : ∀ t : Scanner σ α, t.buf = s.buf → t.patternIdx = s.patternIdx → t.readIdx = s.readIdx → t.rest rest = rest t.inner := by
      intro t h1 h2 h3
      unfold Scanner.rest
      rw [h1, h2, h3, he, List.drop_eq_nil_of_le (by rw [List.length_take]; omega)]; rfl
    obtain ⟨j, r, e, hr⟩ := h.byte s.inner g.inner
    rw [e]
    refine ⟨_, _, rfl, ?_⟩
    cases r with
    | ok c =>
      obtain ⟨g', hs⟩ := hr
      exact ⟨⟨g', hle, hcap⟩, by rw [hr0 s rfl rfl rfl, hs, hr0 { s with inner := j } rfl rfl rfl]⟩
    | eof => show s.rest rest = []; rw [hr0 s rfl rfl rfl]; exact hr
    | fault => trivial

end C3.Stream
