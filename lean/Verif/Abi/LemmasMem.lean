import Verif.Abi.Lemmas

/-! # Lemmas about values that are passed in memory -/

set_option autoImplicit false

namespace C3.Abi
open Std

def Inv (s : Classes) : Prop := s.1 ≠ .sseup ∧ (s.2 = .sseup → s.1 = .sse)

def Bad (t : Ty) (off : Nat) : Prop := 16 < size t ∨ flexible t ∨ ¬ aligned t off

def noQuadMs (ms : Ms) : Prop := ∀ l ∈ leavesMs ms 0, l.kind ≠ .quad

theorem post_inv {s : Classes} {n : Nat} (h1 : s.1 ≠ .sseup) (h2 : n ≤ 16 ∨ s.2 ≠ .sseup) :
    Inv (postMerge n s) ∧ (s.2 ≠ .sseup → (postMerge n s).2 ≠ .sseup) ∧ (s.1 = .mem ∨ s.2 = .mem → (postMerge n s).1 = .mem) ∧
    (16 < n → s.2 ≠ .sseup → (postMerge n s).1 = .mem) := by
  unfold postMerge Inv
  by_cases a : s.2 = .mem
  · rw [if_pos a]
    refine ⟨⟨by simp, by intro h; rw [a] at h; cases h⟩, fun h => h, fun _ => rfl, fun _ _ => rfl⟩
  · rw [if_neg a]
    by_cases b : n > 16 ∧ (s.1 ≠ .sse ∨ s.2 ≠ .sseup)
    · rw [if_pos b]
      have h3 := h2.resolve_left (by omega)
      exact ⟨⟨by simp, fun h => absurd h h3⟩, fun h => h, fun _ => rfl, fun _ _ => rfl⟩
    · rw [if_neg b]
      have h4 : 16 < n → s.2 ≠ .sseup → False := fun x y => b ⟨x, Or.inr y⟩
      by_cases c : s.2 = .sseup ∧ s.1 ≠ .sse ∧ s.1 ≠ .sseup
      · rw [if_pos c]
        refine ⟨⟨h1, by simp⟩, by simp, fun h => h.resolve_right a, fun x y => (h4 x y).elim⟩
      · rw [if_neg c]
        refine ⟨⟨h1, fun h => ?_⟩, fun h => h, fun h => h.resolve_right a, fun x y => (h4 x y).elim⟩
        exact Classical.byContradiction fun g => c ⟨h, g, h1⟩

theorem merge_inv {s f : Classes} (h1 : s.1 ≠ .mem) (h2 : s.2 ≠ .mem) (h3 : s.1 ≠ .sseup) (h4 : f.1 ≠ .sseup) :
    ∃ x, mergeBoth s f = some x ∧ x.1 ≠ .sseup ∧ (f.1 = .mem → x.1 = .mem) ∧ (f.2 = .mem → x.2 = .mem) ∧
      (s.2 ≠ .sseup → f.2 ≠ .sseup → x.2 ≠ .sseup) := by
  obtain ⟨s1, s2⟩ := s
  obtain ⟨f1, f2⟩ := f
  have key : ∀ a ∈ classes, ∀ b ∈ classes, a ≠ .mem → ∃ x ∈ classes, merge a b = some x ∧ (b = .mem → x = .mem) ∧ (a ≠ .sseup → b ≠ .sseup → x ≠ .sseup) := by
    decide +kernel
  obtain ⟨x, -, x1, x2, x3⟩ := key s1 (mem_classes _) f1 (mem_classes _) h1
  obtain ⟨y, -, y1, y2, y3⟩ := key s2 (mem_classes _) f2 (mem_classes _) h2
  refine ⟨(x, y), ?_, x3 h3 h4, x2, y2, y3⟩
  unfold mergeBoth
  show (merge s1 f1).bind _ = _
  rw [x1]
  show (merge s2 f2).bind _ = _
  rw [y1]; rfl

theorem current_inv (off : Nat) : Inv (setCurrent off (.no, .no) .mem) ∧ (setCurrent off (.no, .no) .mem).2 ≠ .sseup ∧
    ((setCurrent off (.no, .no) .mem).1 = .mem ∨ (setCurrent off (.no, .no) .mem).2 = .mem) ∧
    (off < 8 → (setCurrent off (.no, .no) .mem).1 = .mem) := by
  unfold setCurrent
  by_cases h : off < 8
  · rw [if_pos h]; exact ⟨⟨by simp, by simp⟩, by simp, Or.inl rfl, fun _ => rfl⟩
  · rw [if_neg h]; exact ⟨⟨by simp, by simp⟩, by simp, Or.inr rfl, fun g => absurd g h⟩

theorem scalar_inv (off : Nat) (c : Class) (hc : c ≠ .sseup) :
    Inv (setCurrent off (.no, .no) c) ∧ (setCurrent off (.no, .no) c).2 ≠ .sseup := by
  unfold setCurrent
  by_cases h : off < 8
  · rw [if_pos h]; exact ⟨⟨hc, by simp⟩, by simp⟩
  · rw [if_neg h]; exact ⟨⟨by simp, fun h => absurd h hc⟩, hc⟩

theorem arrayLoop_inv (f : Nat → Option Classes) (es : Nat) (Q : Prop) (B : Nat → Prop) :
    ∀ (n off : Nat) (s : Classes), s.1 ≠ .mem → s.2 ≠ .mem → s.1 ≠ .sseup → (Q → s.2 ≠ .sseup) →
    (∀ i, i < n → ∃ c, f (off + i * es) = some c ∧ Inv c ∧ (Q → c.2 ≠ .sseup) ∧ (B (off + i * es) → c.1 = .mem ∨ c.2 = .mem)) →
    ∃ x, arrayLoop f es n off s = some x ∧ x.1 ≠ .sseup ∧ (Q → x.2 ≠ .sseup) ∧ ((∃ i, i < n ∧ B (off + i * es)) → x.1 = .mem ∨ x.2 = .mem)
  | 0, off, s, h1, h2, h3, h4, _ => ⟨s, rfl, h3, h4, fun ⟨i, hi, _⟩ => absurd hi (Nat.not_lt_zero _)⟩
  | n + 1, off, s, h1, h2, h3, h4, hf => by
    obtain ⟨c, c1, c2, c3, c4⟩ := hf 0 (by omega)
    rw [Nat.zero_mul, Nat.add_zero] at c1 c4
    obtain ⟨x, x1, x2, x3, x4, x5⟩ := merge_inv h1 h2 h3 c2.1
    unfold arrayLoop
    rw [c1]
    show ∃ y, (mergeBoth s c).bind _ = some y ∧ _
    rw [x1]
    show ∃ y, (if x.1 = .mem ∨ x.2 = .mem then some x else arrayLoop f es n (off + es) x) = some y ∧ _
    have e : ∀ i, off + (i + 1) * es = off + es + i * es := fun i => by rw [Nat.add_mul]; omega
    by_cases g : x.1 = .mem ∨ x.2 = .mem
    · rw [if_pos g]
      exact ⟨x, rfl, x2, fun q => x5 (h4 q) (c3 q), fun _ => g⟩
    · rw [if_neg g]
      obtain ⟨y, y1, y2, y3, y4⟩ := arrayLoop_inv f es Q B n (off + es) x (fun h => g (Or.inl h)) (fun h => g (Or.inr h)) x2
        (fun q => x5 (h4 q) (c3 q)) (fun i hi => by
          have := hf (i + 1) (by omega)
          rw [e i] at this
          exact this)
      refine ⟨y, y1, y2, y3, ?_⟩
      rintro ⟨i, hi, hb⟩
      cases i with
      | zero =>
        rw [Nat.zero_mul, Nat.add_zero] at hb
        rcases c4 hb with h | h
        · exact absurd (Or.inl (x3 h)) g
        · exact absurd (Or.inr (x4 h)) g
      | succ i =>
        rw [e i] at hb
        exact y4 ⟨i, by omega, hb⟩

theorem noQuad_member {o : Nat} {t : Ty} {rest : Ms} (h : noQuadMs (.cons o t rest)) : noQuad t ∧ noQuadMs rest := by
  unfold noQuadMs at h
  rw [leavesMs] at h
  exact ⟨kind_any (P := fun k => k ≠ .quad) fun l hl => h l (List.mem_append_left _ hl), fun l hl => h l (List.mem_append_right _ hl)⟩

theorem noQuad_elem {e : Ty} {n : Nat} (hn : 0 < n) (h : noQuad (.array e n)) : noQuad e := by
  unfold noQuad at h
  rw [leaves] at h
  exact kind_any (P := fun k => k ≠ .quad) fun l hl => h l (List.mem_flatMap.2 ⟨0, List.mem_range.2 hn, hl⟩)

theorem bad_up {s : Classes} (h : Inv s) (hm : s.1 = .mem ∨ s.2 = .mem) : s.2 ≠ .sseup := by
  intro g
  have := h.2 g
  rcases hm with e | e
  · rw [e] at this; cases this
  · rw [e] at g; cases g

mutual
theorem classify_bad (avx : Nat) : ∀ (t : Ty) (off : Nat), Valid t → (avx = 16 ∨ noQuad t ∨ plain t) → off % align t = 0 →
    ∃ s, classify avx t off = some s ∧ Inv s ∧ (noQuad t → s.2 ≠ .sseup) ∧
      (Bad t off → (s.1 = .mem ∨ s.2 = .mem) ∧ (off < 8 → s.1 = .mem))
  | .void, _, h, _, _ => h.elim
  | .int sg b, off, h, _, _ => by
    have hb : b = 1 ∨ b = 2 ∨ b = 4 ∨ b = 8 := h
    have := scalar_inv off .integer (by simp)
    refine ⟨_, by rw [classify], this.1, fun _ => this.2, ?_⟩
    rintro (g | g | g)
    · have : 16 < b := g
      omega
    · exact g.elim
    · exact absurd trivial g
  | .ptr, off, _, _, _ => by
    have := scalar_inv off .integer (by simp)
    refine ⟨_, by rw [classify], this.1, fun _ => this.2, ?_⟩
    rintro (g | g | g)
    · exact absurd g (by decide)
    · exact g.elim
    · exact absurd trivial g
  | .float k, off, _, _, _ => by
    have := scalar_inv off .sse (by simp)
    refine ⟨_, by rw [classify], this.1, fun _ => this.2, ?_⟩
    rintro (g | g | g)
    · cases k <;> exact absurd g (by decide)
    · exact g.elim
    · exact absurd trivial g
  | .i128, off, _, _, _ => by
    refine ⟨_, by rw [classify], ⟨by simp, by simp⟩, by simp, ?_⟩
    rintro (g | g | g)
    · exact absurd g (by decide)
    · exact g.elim
    · exact absurd trivial g
  | .slice, off, _, _, _ => by
    refine ⟨_, by rw [classify], ⟨by simp, by simp⟩, by simp, ?_⟩
    rintro (g | g | g)
    · exact absurd g (by decide)
    · exact g.elim
    · exact absurd trivial g
  | .any, off, _, _, _ => by
    refine ⟨_, by rw [classify], ⟨by simp, by simp⟩, by simp, ?_⟩
    rintro (g | g | g)
    · exact absurd g (by decide)
    · exact g.elim
    · exact absurd trivial g
  | .f128, off, _, _, _ => by
    refine ⟨_, by rw [classify], ⟨by simp, by simp⟩, fun h => absurd rfl (h ⟨0, 16, .quad⟩ (by simp [leaves])), ?_⟩
    rintro (g | g | g)
    · exact absurd g (by decide)
    · exact g.elim
    · exact absurd trivial g
  | .agg u sz a fl ms, off, h, hq, h3 => by
    rw [classify]
    have hc := current_inv off
    by_cases g : sz > 64
    · rw [if_pos g]
      exact ⟨_, rfl, hc.1, fun _ => hc.2.1, fun _ => hc.2.2⟩
    · rw [if_neg g]
      by_cases g2 : fl = true
      · rw [if_pos g2]
        exact ⟨_, rfl, hc.1, fun _ => hc.2.1, fun _ => hc.2.2⟩
      · rw [if_neg g2]
        obtain ⟨x, x1, x2, x3, x4⟩ := members_bad avx u sz off 0 ms (.no, .no) h.2.2.2 hq (by simp) (by simp) (by simp) (Or.inr (by simp)) (by simp)
        refine ⟨x, x1, x2, x3, ?_⟩
        intro hb
        have : x.1 = .mem := x4 (by
          rcases hb with b | b | b
          · exact Or.inl b
          · exact Or.inr (Or.inl (Or.resolve_left b g2))
          · exact Or.inr (Or.inr b))
        exact ⟨Or.inl this, fun _ => this⟩
  | .array e n, off, h, hq, h3 => by
    rw [classify]
    have hc := current_inv off
    have h3' : off % align e = 0 := h3
    have hq' : avx = 16 ∨ noQuad e ∨ plain e := hq.imp id (Or.imp (noQuad_elem h.2) id)
    obtain ⟨z1, z2, z3⟩ := valid_size e h.1
    by_cases g : size e * n > 64
    · simp only [if_pos g]
      exact ⟨_, rfl, hc.1, fun _ => hc.2.1, fun _ => hc.2.2⟩
    · simp only [if_neg g]
      rw [if_neg (by omega)]
      by_cases g2 : size e * n > 16 ∧ (size e * n ≠ size e ∨ size e * n > avx)
      · rw [if_pos g2]
        exact ⟨_, rfl, ⟨by simp, by simp⟩, by simp, fun _ => ⟨Or.inl rfl, fun _ => rfl⟩⟩
      · rw [if_neg g2]
        obtain ⟨x, x1, x2, x3, x4⟩ := arrayLoop_inv (classify avx e) (size e) (noQuad e ∨ 16 < size e) (Bad e) n off (.no, .no) (by simp) (by simp) (by simp) (by simp) (by
          intro i hi
          obtain ⟨s, s1, s2, s3, s4⟩ := classify_bad avx e (off + i * size e) h.1 hq'
            (by rw [Nat.add_mod, h3', Nat.mul_mod, z1, Nat.mul_zero, Nat.zero_mod, Nat.add_zero, Nat.zero_mod])
          exact ⟨s, s1, s2, fun q => q.elim s3 fun b => bad_up s2 (s4 (Or.inl b)).1, fun b => (s4 b).1⟩)
        rw [x1]
        have hz : size e * n ≤ 16 ∨ x.2 ≠ .sseup := by
          rcases hq' with q | q
          · left
            exact Nat.le_of_not_lt fun g3 => g2 ⟨g3, Or.inr (by omega)⟩
          · rcases q with q | q
            · exact Or.inr (x3 (Or.inl q))
            · by_cases g3 : size e * n ≤ 16
              · exact Or.inl g3
              · refine Or.inr (x3 (Or.inr ?_))
                have : size e * n = size e := Classical.byContradiction fun g4 => g2 ⟨by omega, Or.inl g4⟩
                omega
        obtain ⟨p1, p2, p3, p4⟩ := post_inv (n := size e * n) x2 hz
        show ∃ s, (if (postMerge (size e * n) x).2 ≠ .sseup ∨ (postMerge (size e * n) x).1 = .sse then some (postMerge (size e * n) x) else none) = some s ∧ _
        rw [if_pos ((Decidable.em ((postMerge (size e * n) x).2 = .sseup)).elim (fun g => Or.inr (p1.2 g)) Or.inl)]
        refine ⟨_, rfl, p1, fun q => p2 (x3 (Or.inl (noQuad_elem h.2 q))), ?_⟩
        intro hb
        have : (postMerge (size e * n) x).1 = .mem := by
          rcases hb with b | b | b
          · have b' : 16 < size e * n := b
            exact p4 b' (hz.resolve_left (by omega))
          · exact p3 (x4 ⟨0, h.2, Or.inr (Or.inl b)⟩)
          · have : ∃ i, i < n ∧ ¬ aligned e (off + i * size e) := by
              apply Classical.byContradiction
              intro g4
              exact b ⟨h3', fun i hi => Classical.byContradiction fun g5 => g4 ⟨i, hi, g5⟩⟩
            obtain ⟨i, hi, g5⟩ := this
            exact p3 (x4 ⟨i, hi, Or.inr (Or.inr g5)⟩)
        exact ⟨Or.inl this, fun _ => this⟩
theorem members_bad (avx : Nat) (u : Bool) (sz base : Nat) : ∀ (free : Nat) (ms : Ms) (s : Classes), ValidMs u sz free ms →
    (avx = 16 ∨ noQuadMs ms ∨ u = false ∧ plainMs ms) → s.1 ≠ .mem → s.2 ≠ .mem → s.1 ≠ .sseup → (sz ≤ 16 ∨ s.2 ≠ .sseup) → (noQuadMs ms → s.2 ≠ .sseup) →
    ∃ x, classifyMembers avx u sz base ms s = some x ∧ Inv x ∧ (noQuadMs ms → x.2 ≠ .sseup) ∧
      (16 < sz ∨ flexibleMs ms ∨ ¬ alignedMs ms base → x.1 = .mem)
  | _, .nil, s, _, _, h1, h2, h3, h4, h5 => by
    rw [classifyMembers]
    obtain ⟨p1, p2, p3, p4⟩ := post_inv (n := sz) h3 h4
    refine ⟨_, rfl, p1, fun q => p2 (h5 q), ?_⟩
    rintro (b | b | b)
    · exact p4 b (h4.resolve_left (by omega))
    · exact b.elim
    · exact absurd trivial b
  | free, .cons o t rest, s, hv, hq, h1, h2, h3, h4, h5 => by
    obtain ⟨v1, v2, v3, v4⟩ := hv
    rw [classifyMembers]
    have hp := post_inv (n := sz) (s := (.mem, s.2)) (by simp) h4
    by_cases g : sz > 16 ∧ ((u = false ∧ sz ≠ size t) ∨ sz > avx)
    · rw [if_pos g]
      exact ⟨_, rfl, hp.1, fun q => hp.2.1 (h5 q), fun _ => hp.2.2.1 (Or.inl rfl)⟩
    · rw [if_neg g]
      by_cases g2 : (base + o) % align t ≠ 0
      · rw [if_pos g2]
        exact ⟨_, rfl, hp.1, fun q => hp.2.1 (h5 q), fun _ => hp.2.2.1 (Or.inl rfl)⟩
      · rw [if_neg g2]
        have g2' : (base + o) % align t = 0 := by omega
        obtain ⟨c, c1, c2, c3, c4⟩ := classify_bad avx t (base + o) v1 (hq.imp id (Or.imp (fun q => (noQuad_member q).1) fun q => q.2.1)) g2'
        rw [c1]
        obtain ⟨x, x1, x2, x3, x4, x5⟩ := merge_inv h1 h2 h3 c2.1
        show ∃ y, (mergeBoth s c).bind _ = some y ∧ _
        rw [x1]
        show ∃ y, (if x.1 = .mem ∨ x.2 = .mem then some (postMerge sz x) else classifyMembers avx u sz base rest x) = some y ∧ _
        have hx5 : noQuadMs (.cons o t rest) → x.2 ≠ .sseup := fun q => x5 (h5 q) (c3 (noQuad_member q).1)
        have hz : sz ≤ 16 ∨ x.2 ≠ .sseup := by
          rcases hq with q | q
          · left
            exact Nat.le_of_not_lt fun g3 => g ⟨g3, Or.inr (by omega)⟩
          · rcases q with q | q
            · exact Or.inr (hx5 q)
            · by_cases g3 : sz ≤ 16
              · exact Or.inl g3
              · have : sz = size t := Classical.byContradiction fun g4 => g ⟨by omega, Or.inl ⟨q.1, g4⟩⟩
                exact Or.inr (x5 (h4.resolve_left g3) (bad_up c2 (c4 (Or.inl (by omega))).1))
        obtain ⟨p1, p2, p3, p4⟩ := post_inv (n := sz) x2 hz
        by_cases g3 : x.1 = .mem ∨ x.2 = .mem
        · rw [if_pos g3]
          exact ⟨_, rfl, p1, fun q => p2 (hx5 q), fun _ => p3 g3⟩
        · rw [if_neg g3]
          by_cases hqr : noQuadMs (.cons o t rest)
          · obtain ⟨y, y1, y2, y3, y4⟩ := members_bad avx u sz base (o + size t) rest x v4 (Or.inr (Or.inl (noQuad_member hqr).2))
              (fun h => g3 (Or.inl h)) (fun h => g3 (Or.inr h)) x2 hz (fun _ => hx5 hqr)
            refine ⟨y, y1, y2, fun q => y3 (noQuad_member q).2, ?_⟩
            intro hb
            by_cases bt : Bad t (base + o)
            · have := (c4 bt).1
              exact absurd (this.imp x3 x4) g3
            · refine y4 ?_
              rcases hb with b | b | b
              · exact Or.inl b
              · rcases b with b | b
                · exact absurd (Or.inr (Or.inl b)) bt
                · exact Or.inr (Or.inl b)
              · right; right
                intro ar
                exact b ⟨⟨g2', Classical.byContradiction fun q => bt (Or.inr (Or.inr q))⟩, ar⟩
          · have hav : avx = 16 ∨ plainMs rest := hq.imp id fun q => (q.resolve_left hqr).2.2
            have hsz : sz ≤ 16 := Nat.le_of_not_lt fun g4 => by
              rcases hq with q | q
              · exact g ⟨g4, Or.inr (by omega)⟩
              · have : sz = size t := Classical.byContradiction fun g5 => g ⟨g4, Or.inl ⟨(q.resolve_left hqr).1, g5⟩⟩
                exact g3 ((c4 (Or.inl (by omega))).1.imp x3 x4)
            obtain ⟨y, y1, y2, y4⟩ := members_bad16 avx u sz base (o + size t) rest x v4 hav hsz
              (fun h => g3 (Or.inl h)) (fun h => g3 (Or.inr h)) x2
            refine ⟨y, y1, y2, fun q => absurd q hqr, ?_⟩
            intro hb
            by_cases bt : Bad t (base + o)
            · have := (c4 bt).1
              exact absurd (this.imp x3 x4) g3
            · refine y4 ?_
              rcases hb with b | b | b
              · omega
              · rcases b with b | b
                · exact absurd (Or.inr (Or.inl b)) bt
                · exact Or.inl b
              · right
                intro ar
                exact b ⟨⟨g2', Classical.byContradiction fun q => bt (Or.inr (Or.inr q))⟩, ar⟩
theorem members_bad16 (avx : Nat) (u : Bool) (sz base : Nat) : ∀ (free : Nat) (ms : Ms) (s : Classes), ValidMs u sz free ms →
    (avx = 16 ∨ plainMs ms) → sz ≤ 16 → s.1 ≠ .mem → s.2 ≠ .mem → s.1 ≠ .sseup →
    ∃ x, classifyMembers avx u sz base ms s = some x ∧ Inv x ∧ (flexibleMs ms ∨ ¬ alignedMs ms base → x.1 = .mem)
  | _, .nil, s, _, _, hs, h1, h2, h3 => by
    rw [classifyMembers]
    obtain ⟨p1, p2, p3, p4⟩ := post_inv (n := sz) h3 (Or.inl hs)
    refine ⟨_, rfl, p1, ?_⟩
    rintro (b | b)
    · exact b.elim
    · exact absurd trivial b
  | free, .cons o t rest, s, hv, hq, hs, h1, h2, h3 => by
    obtain ⟨v1, v2, v3, v4⟩ := hv
    rw [classifyMembers]
    have hp := post_inv (n := sz) (s := (.mem, s.2)) (by simp) (Or.inl hs)
    rw [if_neg (by omega)]
    by_cases g2 : (base + o) % align t ≠ 0
    · rw [if_pos g2]
      exact ⟨_, rfl, hp.1, fun _ => hp.2.2.1 (Or.inl rfl)⟩
    · rw [if_neg g2]
      have g2' : (base + o) % align t = 0 := by omega
      obtain ⟨c, c1, c2, c3, c4⟩ := classify_bad avx t (base + o) v1 (hq.imp id fun q => Or.inr q.1) g2'
      rw [c1]
      obtain ⟨x, x1, x2, x3, x4, x5⟩ := merge_inv h1 h2 h3 c2.1
      show ∃ y, (mergeBoth s c).bind _ = some y ∧ _
      rw [x1]
      show ∃ y, (if x.1 = .mem ∨ x.2 = .mem then some (postMerge sz x) else classifyMembers avx u sz base rest x) = some y ∧ _
      obtain ⟨p1, p2, p3, p4⟩ := post_inv (n := sz) x2 (Or.inl hs)
      by_cases g3 : x.1 = .mem ∨ x.2 = .mem
      · rw [if_pos g3]
        exact ⟨_, rfl, p1, fun _ => p3 g3⟩
      · rw [if_neg g3]
        obtain ⟨y, y1, y2, y4⟩ := members_bad16 avx u sz base (o + size t) rest x v4 (hq.imp id fun q => q.2) hs (fun h => g3 (Or.inl h)) (fun h => g3 (Or.inr h)) x2
        refine ⟨y, y1, y2, ?_⟩
        intro hb
        by_cases bt : Bad t (base + o)
        · have := (c4 bt).1
          exact absurd (this.imp x3 x4) g3
        · refine y4 ?_
          rcases hb with b | b
          · rcases b with b | b
            · exact absurd (Or.inr (Or.inl b)) bt
            · exact Or.inl b
          · right
            intro ar
            exact b ⟨⟨g2', Classical.byContradiction fun q => bt (Or.inr (Or.inr q))⟩, ar⟩
end

/-- The classes of every value. -/
theorem classify_any (avx : Nat) (t : Ty) (hv : Valid t) (hq : avx = 16 ∨ noQuad t ∨ plain t) :
    ∃ s, classify avx t 0 = some s ∧ (memory t → s.1 = .mem ∧ s.2 ≠ .sseup) ∧ (¬ memory t → s = (low (leaves t 0), high (leaves t 0))) := by
  obtain ⟨s, s1, s2, s3, s4⟩ := classify_bad avx t 0 hv hq (Nat.zero_mod _)
  refine ⟨s, s1, fun h => ?_, fun h => ?_⟩
  · have := (s4 h).2 (by decide)
    refine ⟨this, fun g => ?_⟩
    have := s2.2 g
    simp_all
  · have := classify_std avx t hv h
    rw [s1] at this
    exact Option.some.inj this

end C3.Abi
