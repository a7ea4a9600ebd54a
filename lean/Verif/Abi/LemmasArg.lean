import Verif.Abi.LemmasReg

/-! # Lemmas about how values are passed -/

set_option autoImplicit false

namespace C3.Abi
open Std

mutual
theorem leaf_fsize : ∀ (t : Ty) (a : Nat), ∀ l ∈ leaves t a, (∀ j, l.kind = .float j → l.size = j.size) ∧ (l.kind = .quad → l.size = 16)
  | .void, _ => by intro l hl; cases hl
  | .int _ b, a => by
    intro l hl; rw [leaves] at hl; cases List.mem_singleton.1 hl
    exact ⟨fun j h => (by cases h), fun h => (by cases h)⟩
  | .ptr, a => by
    intro l hl; rw [leaves] at hl; cases List.mem_singleton.1 hl
    exact ⟨fun j h => (by cases h), fun h => (by cases h)⟩
  | .i128, a => by
    intro l hl; rw [leaves] at hl; cases List.mem_singleton.1 hl
    exact ⟨fun j h => (by cases h), fun h => (by cases h)⟩
  | .f128, a => by
    intro l hl; rw [leaves] at hl; cases List.mem_singleton.1 hl
    exact ⟨fun j h => (by cases h), fun _ => rfl⟩
  | .float k, a => by
    intro l hl; rw [leaves] at hl; cases List.mem_singleton.1 hl
    exact ⟨fun j h => (by cases h; rfl), fun h => (by cases h)⟩
  | .slice, a => by
    intro l hl; rw [leaves] at hl
    rcases List.mem_cons.1 hl with rfl | hl
    · exact ⟨fun j h => (by cases h), fun h => (by cases h)⟩
    · cases List.mem_singleton.1 hl
      exact ⟨fun j h => (by cases h), fun h => (by cases h)⟩
  | .any, a => by
    intro l hl; rw [leaves] at hl
    rcases List.mem_cons.1 hl with rfl | hl
    · exact ⟨fun j h => (by cases h), fun h => (by cases h)⟩
    · cases List.mem_singleton.1 hl
      exact ⟨fun j h => (by cases h), fun h => (by cases h)⟩
  | .agg u s al fl ms, a => by
    rw [leaves]
    exact leafMs_fsize ms a
  | .array e n, a => by
    intro l hl
    rw [leaves] at hl
    obtain ⟨i, hi, hl⟩ := List.mem_flatMap.1 hl
    exact leaf_fsize e _ l hl
theorem leafMs_fsize : ∀ (ms : Ms) (a : Nat), ∀ l ∈ leavesMs ms a, (∀ j, l.kind = .float j → l.size = j.size) ∧ (l.kind = .quad → l.size = 16)
  | .nil, _ => by intro l hl; cases hl
  | .cons o t rest, a => by
    intro l hl
    rw [leavesMs] at hl
    rcases List.mem_append.1 hl with hl | hl
    · exact leaf_fsize t _ l hl
    · exact leafMs_fsize rest a l hl
end

/-! ### Classes and numbers -/

theorem low_int {L : List Leaf} {l : Leaf} (hl : l ∈ L) (h1 : l.off < 8) (h2 : l.kind = .integer) : low L = .integer := by
  unfold low
  rw [if_pos (List.any_eq_true.2 ⟨l, hl, by simp [h1, h2]⟩)]

theorem low_cases {L : List Leaf} {l : Leaf} (hl : l ∈ L) (h1 : l.off < 8) : low L = .integer ∨ low L = .sse := by
  unfold low
  by_cases c : (L.any fun l => decide (l.off < 8) && decide (l.kind = .integer)) = true
  · rw [if_pos c]; exact Or.inl rfl
  · rw [if_neg c, if_pos (List.any_eq_true.2 ⟨l, hl, by simp [h1]⟩)]; exact Or.inr rfl

theorem high_int {L : List Leaf} {l : Leaf} (hl : l ∈ L) (h1 : 8 < l.off + l.size) (h2 : l.kind = .integer) : high L = .integer := by
  unfold high
  rw [if_pos (List.any_eq_true.2 ⟨l, hl, by simp [h1, h2]⟩)]

theorem high_no {L : List Leaf} (h : high L = .no) : ∀ l ∈ L, l.off + l.size ≤ 8 := by
  intro l hl
  apply Nat.le_of_not_lt
  intro g
  unfold high at h
  by_cases c : (L.any fun l => decide (8 < l.off + l.size) && decide (l.kind = .integer)) = true
  · rw [if_pos c] at h; cases h
  · rw [if_neg c] at h
    by_cases d : (L.any fun l => decide (8 < l.off + l.size) && decide (l.kind ≠ .quad)) = true
    · rw [if_pos d] at h; cases h
    · rw [if_neg d, if_pos (List.any_eq_true.2 ⟨l, hl, by simp [g]⟩)] at h
      by_cases e : low L = .sse
      · rw [if_pos e] at h; cases h
      · rw [if_neg e] at h; cases h

theorem high_yes {L : List Leaf} (h : high L ≠ .no) : ∃ l ∈ L, 8 < l.off + l.size := by
  apply Classical.byContradiction
  intro g
  have all : ∀ l ∈ L, ¬ 8 < l.off + l.size := fun l hl q => g ⟨l, hl, q⟩
  apply h
  unfold high
  rw [if_neg, if_neg, if_neg]
  · intro q
    obtain ⟨l, hl, q⟩ := List.any_eq_true.1 q
    exact all l hl (by simpa using q)
  · intro q
    obtain ⟨l, hl, q⟩ := List.any_eq_true.1 q
    simp at q
    exact all l hl q.1
  · intro q
    obtain ⟨l, hl, q⟩ := List.any_eq_true.1 q
    simp at q
    exact all l hl q.1

theorem high_ne_mem (L : List Leaf) : high L ≠ .mem := by
  unfold high
  repeat' split
  all_goals simp

theorem high_up {L : List Leaf} (h : high L = .sseup) : low L = .sse ∧ ∃ l ∈ L, l.kind = .quad := by
  unfold high at h
  by_cases c : (L.any fun l => decide (8 < l.off + l.size) && decide (l.kind = .integer)) = true
  · rw [if_pos c] at h; cases h
  · rw [if_neg c] at h
    by_cases d : (L.any fun l => decide (8 < l.off + l.size) && decide (l.kind ≠ .quad)) = true
    · rw [if_pos d] at h; cases h
    · rw [if_neg d] at h
      by_cases e : (L.any fun l => decide (8 < l.off + l.size)) = true
      · rw [if_pos e] at h
        obtain ⟨l, hl, q⟩ := List.any_eq_true.1 e
        by_cases f : low L = .sse
        · refine ⟨f, l, hl, Classical.byContradiction fun g => d (List.any_eq_true.2 ⟨l, hl, ?_⟩)⟩
          simp at q
          simp [q, g]
        · rw [if_neg f] at h; cases h
      · rw [if_neg e] at h; cases h

/-- What is known about a value that is passed in registers. -/
structure Small (t : Ty) : Prop where
  valid : Valid t
  size : size t ≤ 16
  aligned : aligned t 0

theorem small_of {t : Ty} (hv : Valid t) (hm : ¬ memory t) : Small t :=
  ⟨hv, Nat.le_of_not_lt fun h => hm (Or.inl h), Classical.byContradiction fun h => hm (Or.inr (Or.inr h))⟩

theorem Small.leaf {t : Ty} (h : Small t) {l : Leaf} (hl : l ∈ leaves t 0) : l.off % l.size = 0 ∧ l.off + l.size ≤ Abi.size t ∧ 0 < l.size := by
  have := leaf_bounds t 0 h.valid l hl
  exact ⟨leaf_aligned t 0 h.valid h.aligned (Nat.zero_mod _) l hl, by omega, this.2.2⟩

theorem quad_at {t : Ty} (h : Small t) {q : Leaf} (hq : q ∈ leaves t 0) (hk : q.kind = .quad) : q.off = 0 ∧ q.size = 16 := by
  have h1 := (leaf_fsize t 0 q hq).2 hk
  have h2 := h.leaf hq
  have := h.size
  omega

theorem quad_alone {t : Ty} (h : Small t) (hp : plain t) {q : Leaf} (hq : q ∈ leaves t 0) (hk : q.kind = .quad) : high (leaves t 0) = .sseup := by
  obtain ⟨q1, q2⟩ := quad_at h hq hk
  have all : ∀ l ∈ leaves t 0, l = q := by
    intro l hl
    have h2 := h.leaf hl
    have := h.size
    rcases order_apart (leaves_order t 0 h.valid hp) hl hq with e | e | e
    · exact e
    · have : l.off + l.size ≤ q.off := e
      omega
    · have : q.off + q.size ≤ l.off := e
      omega
  have ki : ∀ l ∈ leaves t 0, l.kind = .quad := fun l hl => by rw [all l hl]; exact hk
  have hlow : low (leaves t 0) = .sse := by
    unfold low
    rw [if_neg, if_pos (List.any_eq_true.2 ⟨q, hq, by simp [q1]⟩)]
    intro g
    obtain ⟨l, hl, g⟩ := List.any_eq_true.1 g
    simp [ki l hl] at g
  unfold high
  rw [if_neg, if_neg, if_pos (List.any_eq_true.2 ⟨q, hq, by simp [q1, q2]⟩), if_pos hlow]
  · intro g
    obtain ⟨l, hl, g⟩ := List.any_eq_true.1 g
    simp [ki l hl] at g
  · intro g
    obtain ⟨l, hl, g⟩ := List.any_eq_true.1 g
    simp [ki l hl] at g

/-- The numbers of an eightbyte of class SSE. -/
def Window (t : Ty) (so : Nat) : Prop :=
  (so = 0 ∨ so = 8) ∧ ∀ l ∈ leaves t 0, l.off < so + 8 → so < l.off + l.size → l.kind ≠ .integer

theorem window_low {t : Ty} (h : low (leaves t 0) = .sse) : Window t 0 := by
  refine ⟨Or.inl rfl, fun l hl h1 _ hk => ?_⟩
  rw [low_int hl (by omega) hk] at h
  cases h

theorem window_high {t : Ty} (h : high (leaves t 0) = .sse) : Window t 8 := by
  refine ⟨Or.inr rfl, fun l hl _ h2 hk => ?_⟩
  rw [high_int hl h2 hk] at h
  cases h

/-- A number in an eightbyte of class SSE whose first number is not a `double`. -/
theorem window_leaf {t : Ty} {so : Nat} {f : AbiType} (h : Small t) (hp : plain t) (hw : Window t so) (hq : ∀ l ∈ leaves t 0, l.kind ≠ .quad)
    (hf : fpAt t so = some (some f)) (h64 : f ≠ .float .f64) {l : Leaf} (hl : l ∈ leaves t 0) (h1 : l.off < so + 8) (h2 : so < l.off + l.size) :
    ∃ j : FKind, l.kind = .float j ∧ l.size = j.size ∧ so ≤ l.off ∧ l.off + l.size ≤ so + 8 ∧ (l.off = so → f = .float j) ∧
      ((j = .f32 ∧ l.size = 4 ∧ (l.off = so ∨ l.off = so + 4)) ∨ (j.half = true ∧ l.size = 2 ∧ l.off % 2 = 0)) := by
  have hb := h.leaf hl
  have hk := hw.2 l hl h1 h2
  have hso := hw.1
  obtain ⟨o, z, k⟩ := l
  cases k with
  | integer => exact absurd rfl hk
  | quad => exact absurd rfl (hq _ hl)
  | float j =>
    have hz := (leaf_fsize t 0 _ hl).1 j rfl
    simp only at hb h1 h2 hz
    have hfirst : o = so → f = .float j := by
      intro e
      have := fpAt_leaf t 0 h.valid hp _ hl so (by show o ≤ so; omega) h2
      rw [Nat.sub_zero, hf, if_pos e.symm] at this
      cases this
      rfl
    cases j with
    | f64 =>
      rw [hz] at hb h2
      have e : o = so := by
        simp only [FKind.size] at hb h2
        omega
      exact absurd (hfirst e) h64
    | f32 =>
      have hz : z = 4 := hz
      subst hz
      refine ⟨.f32, rfl, rfl, by show so ≤ o; omega, by show o + 4 ≤ so + 8; omega, hfirst, Or.inl ⟨rfl, rfl, ?_⟩⟩
      show o = so ∨ o = so + 4
      omega
    | f16 =>
      have hz : z = 2 := hz
      subst hz
      exact ⟨.f16, rfl, rfl, by show so ≤ o; omega, by show o + 2 ≤ so + 8; omega, hfirst, Or.inr ⟨rfl, rfl, hb.1⟩⟩
    | bf16 =>
      have hz : z = 2 := hz
      subst hz
      exact ⟨.bf16, rfl, rfl, by show so ≤ o; omega, by show o + 2 ≤ so + 8; omega, hfirst, Or.inr ⟨rfl, rfl, hb.1⟩⟩

theorem sseType_eq {t : Ty} {so : Nat} {f : AbiType} (hf : fpAt t so = some (some f)) :
    sseType t so = if f = .float .f64 then some (.float .f64) else (sseSecond t so f).bind (sseJoin t so f) := by
  unfold sseType
  rw [hf]

theorem sseJoin_two (t : Ty) (so : Nat) (f g : AbiType) : sseJoin t so f (some g) =
    if f = .float .f32 ∧ g = .float .f32 then some (.vector .f32 2)
    else if f.half = true ∧ g.half = true then
      match (if size t - so > 4 then fpAt t (so + 4) else some none), f with
      | some following, .float k => some (.vector k (if following.isSome then 4 else 2))
      | _, _ => none
    else if f.half = true ∨ g.half = true then some (.vector .f16 4)
    else some (.float .f64) := rfl

theorem join_f32 {t : Ty} {so : Nat} (g : AbiType) : ∃ r, sseJoin t so (.float .f32) (some g) = some r ∧ r.size = 8 ∧ r.align = 8 := by
  rw [sseJoin_two]
  by_cases c : AbiType.float .f32 = .float .f32 ∧ g = .float .f32
  · rw [if_pos c]; exact ⟨_, rfl, rfl, rfl⟩
  · rw [if_neg c, if_neg (by rintro ⟨h, -⟩; cases h)]
    by_cases d : AbiType.half (.float .f32) = true ∨ g.half = true
    · rw [if_pos d]; exact ⟨_, rfl, rfl, rfl⟩
    · rw [if_neg d]; exact ⟨_, rfl, rfl, rfl⟩

theorem second_f32 {t : Ty} {so : Nat} : sseSecond t so (.float .f32) = if size t - so > 4 then fpAt t (so + 4) else some none := by
  unfold sseSecond
  have e : AbiType.size (.float .f32) = 4 := rfl
  rw [e]
  by_cases c : size t - so > 4
  · rw [if_pos c]
    split
    · rename_i h; rw [h]
    · rename_i h; rw [h, if_neg (by rintro ⟨h, -⟩; cases h)]
    · rename_i h; rw [h]
  · rw [if_neg c]
    show (if AbiType.half (.float .f32) = true ∧ _ then _ else _) = _
    rw [if_neg (by rintro ⟨h, -⟩; cases h)]

/-- The register for an eightbyte of class SSE in a value without padding. -/
theorem sse_dense {t : Ty} {so : Nat} (h : Small t) (hp : plain t) (hd : dense t) (hw : Window t so) (hq : ∀ l ∈ leaves t 0, l.kind ≠ .quad)
    (hso : so < size t) :
    ∃ r, sseType t so = some r ∧ r.size ≤ 8 ∧ (r.align = 1 ∨ r.align = 2 ∨ r.align = 4 ∨ r.align = 8) ∧
      ∀ k, so ≤ k → k < size t → k < so + 8 → k < so + r.size := by
  have hs16 := h.size
  have hso2 := hw.1
  obtain ⟨l0, hl0, a1, a2⟩ := hd so hso
  have hb := h.leaf hl0
  have hk := hw.2 l0 hl0 (by omega) a2
  have hz := leaf_fsize t 0 l0 hl0
  have e0 : l0.off = so ∧ ∃ j, l0.kind = .float j := by
    obtain ⟨o, z, k⟩ := l0
    cases k with
    | integer => exact absurd rfl hk
    | quad => exact absurd rfl (hq _ hl0)
    | float j =>
      have hz := hz.1 j rfl
      refine ⟨?_, j, rfl⟩
      simp only at hz a1 a2 hb ⊢
      cases j <;> (simp only [FKind.size] at hz; subst hz; omega)
  obtain ⟨e0, j, hj⟩ := e0
  have hf : fpAt t so = some (some (.float j)) := by
    have := fpAt_leaf t 0 h.valid hp l0 hl0 so a1 a2
    rw [Nat.sub_zero, if_pos e0.symm, hj] at this
    exact this
  rw [sseType_eq hf]
  -- what is at a byte behind the first number
  have behind : AbiType.float j ≠ .float .f64 → ∀ d, (d = 2 ∧ j.half = true ∨ d = 4) → so + d < size t →
      ∃ i, fpAt t (so + d) = some (some (.float i)) ∧ (d = 2 → i.half = true) := by
    intro h64 d hd2 hlt
    obtain ⟨l, hl, b1, b2⟩ := hd (so + d) hlt
    obtain ⟨i, i1, i2, i3, i4, i5, i6⟩ := window_leaf h hp hw hq hf h64 hl (by omega) (by omega)
    have key : so + d = l.off ∧ (d = 2 → i.half = true) := by
      rcases i6 with ⟨c1, c2, c3⟩ | ⟨c1, c2, c3⟩
      · rcases hd2 with ⟨d1, d2⟩ | d1
        · have : l.off = so := by omega
          have := i5 this
          cases this
          rw [c1] at d2
          cases d2
        · exact ⟨by omega, by omega⟩
      · exact ⟨by omega, fun _ => c1⟩
    have := fpAt_leaf t 0 h.valid hp l hl (so + d) b1 b2
    rw [Nat.sub_zero, if_pos key.1, i1] at this
    exact ⟨i, this, key.2⟩
  by_cases c : j = .f64
  · subst c
    rw [if_pos rfl]
    exact ⟨_, rfl, Nat.le_refl 8, by decide, fun k _ _ h => h⟩
  · have h64 : AbiType.float j ≠ .float .f64 := fun g => c (AbiType.float.inj g)
    rw [if_neg h64]
    by_cases d : j = .f32
    · subst d
      rw [second_f32]
      by_cases e : size t - so > 4
      · rw [if_pos e]
        obtain ⟨i, hi, -⟩ := behind h64 4 (Or.inr rfl) (by omega)
        rw [hi]
        obtain ⟨r, r1, r2, r3⟩ := join_f32 (t := t) (so := so) (.float i)
        exact ⟨r, r1, by omega, by omega, fun k _ _ h => by omega⟩
      · rw [if_neg e]
        exact ⟨_, rfl, by decide, by decide, fun k _ h _ => by show k < so + 4; omega⟩
    · have hh : j.half = true := by cases j <;> first | rfl | contradiction
      have hfs : AbiType.size (.float j) = 2 := by cases j <;> first | rfl | contradiction
      have hfa : AbiType.align (.float j) = 2 := by cases j <;> first | rfl | contradiction
      have hjs : j.size = 2 := hfs
      by_cases e : size t - so > 2
      · obtain ⟨i, hi, ih⟩ := behind h64 2 (Or.inl ⟨rfl, hh⟩) (by omega)
        have hsec : sseSecond t so (.float j) = some (some (.float i)) := by
          unfold sseSecond
          rw [hfs, if_pos e, hi]
        rw [hsec]
        have hjoin : sseJoin t so (.float j) (some (.float i)) =
            match (if size t - so > 4 then fpAt t (so + 4) else some none), AbiType.float j with
            | some following, .float k => some (.vector k (if following.isSome then 4 else 2))
            | _, _ => none := by
          rw [sseJoin_two, if_neg (by rintro ⟨g, -⟩; exact d (AbiType.float.inj g)), if_pos ⟨hh, ih rfl⟩]
        show ∃ r, sseJoin t so (.float j) (some (.float i)) = some r ∧ _
        rw [hjoin]
        by_cases g : size t - so > 4
        · rw [if_pos g]
          obtain ⟨i4, hi4, -⟩ := behind h64 4 (Or.inr rfl) (by omega)
          rw [hi4]
          refine ⟨.vector j 4, rfl, ?_, ?_, ?_⟩
          · show j.size * 4 ≤ 8
            omega
          · show j.size * 4 = 1 ∨ j.size * 4 = 2 ∨ j.size * 4 = 4 ∨ j.size * 4 = 8
            omega
          · intro k _ _ h
            show k < so + j.size * 4
            omega
        · rw [if_neg g]
          refine ⟨.vector j 2, rfl, ?_, ?_, ?_⟩
          · show j.size * 2 ≤ 8
            omega
          · show j.size * 2 = 1 ∨ j.size * 2 = 2 ∨ j.size * 2 = 4 ∨ j.size * 2 = 8
            omega
          · intro k _ _ h
            show k < so + j.size * 2
            omega
      · have hsec : sseSecond t so (.float j) = some none := by
          unfold sseSecond
          rw [hfs, if_neg e]
          show (if _ ∧ _ then _ else _) = _
          rw [if_neg (by omega)]
        rw [hsec]
        exact ⟨.float j, rfl, by omega, by omega, fun k _ _ _ => by omega⟩

/-- The register for an eightbyte of class SSE in a value without 16 bit floats. -/
theorem sse_noHalf {t : Ty} {so : Nat} {r : AbiType} (h : Small t) (hp : plain t) (hn : noHalf t) (hw : Window t so)
    (hq : so = 8 → ∀ l ∈ leaves t 0, l.kind ≠ .quad) (hr : sseType t so = some r) :
    ∀ l ∈ leaves t 0, ∀ k, l.off ≤ k → k < l.off + l.size → so ≤ k → k < so + 8 → k < so + r.size := by
  intro l hl k k1 k2 k3 k4
  have hs16 := h.size
  have hso2 := hw.1
  cases hf : fpAt t so with
  | none => unfold sseType at hr; rw [hf] at hr; cases hr
  | some f =>
    cases f with
    | none =>
      unfold sseType at hr; rw [hf] at hr; cases hr
      exact k4
    | some f =>
      rw [sseType_eq hf] at hr
      by_cases c : f = .float .f64
      · rw [if_pos c] at hr; cases hr; exact k4
      · rw [if_neg c] at hr
        obtain ⟨l1, hl1, g1⟩ := fpAt_some t so f h.valid hf
        rcases kindType_floating g1 with ⟨j, rfl, jk⟩ | ⟨rfl, -⟩
        · have hj : j = .f32 := by
            have := hn l1 hl1
            rw [jk] at this
            cases j with
            | f32 => rfl
            | f64 => exact absurd rfl c
            | f16 => exact absurd rfl this.1
            | bf16 => exact absurd rfl this.2
          subst hj
          rw [second_f32] at hr
          have hb := h.leaf hl
          by_cases d : size t - so > 4
          · rw [if_pos d] at hr
            have hnq : ∀ l ∈ leaves t 0, l.kind ≠ .quad := by
              intro q hq1 hq2
              rcases hso2 with e | e
              · obtain ⟨q1, q2⟩ := quad_at h hq1 hq2
                have := fpAt_leaf t 0 h.valid hp q hq1 so (by omega) (by omega)
                rw [Nat.sub_zero, hf, if_pos (by omega), hq2] at this
                cases this
              · exact hq e q hq1 hq2
            cases hg : fpAt t (so + 4) with
            | none => rw [hg] at hr; cases hr
            | some g =>
              rw [hg] at hr
              cases g with
              | none =>
                have hr : some (AbiType.float .f32) = some r := hr
                cases hr
                show k < so + 4
                apply Nat.lt_of_not_le
                intro g
                obtain ⟨j, j1, j2, j3, j4, j5, j6⟩ := window_leaf h hp hw hnq hf c hl (by omega) (by omega)
                rcases j6 with ⟨c1, c2, c3⟩ | ⟨c1, c2, c3⟩
                · have e : l.off = so + 4 := by omega
                  have := fpAt_leaf t 0 h.valid hp l hl (so + 4) (by omega) (by omega)
                  rw [Nat.sub_zero, hg, if_pos e.symm, j1] at this
                  cases this
                · have := hn l hl
                  rw [j1] at this
                  cases j with
                  | f32 => cases c1
                  | f64 => cases c1
                  | f16 => exact this.1 rfl
                  | bf16 => exact this.2 rfl
              | some g =>
                obtain ⟨r', r1, r2, -⟩ := join_f32 (t := t) (so := so) g
                have hr : sseJoin t so (.float .f32) (some g) = some r := hr
                rw [r1] at hr
                cases hr
                omega
          · rw [if_neg d] at hr
            have hr : some (AbiType.float .f32) = some r := hr
            cases hr
            show k < so + 4
            omega
        · have hsec : sseSecond t so .f128 = some none := by
            unfold sseSecond
            have e : AbiType.size .f128 = 16 := rfl
            rw [e, if_neg (by omega)]
            show (if AbiType.half .f128 = true ∧ _ then _ else _) = _
            rw [if_neg (by rintro ⟨h, -⟩; cases h)]
          rw [hsec] at hr
          have hr : some AbiType.f128 = some r := hr
          cases hr
          show k < so + 16
          omega

/-! ### The parts of a value -/

/-- The type of the first register. -/
def lowType (t : Ty) (s : Classes) : Option AbiType :=
  match s.1 with
  | .integer => intType t 0 t 0
  | .sse => lowSse t s
  | _ => none

theorem complete_parts {exact : Bool} {t : Ty} {s : Classes} {lo : AbiType} {info : Info} {b : Option Bool} (h : complete exact t s lo = some (info, b)) :
    (highPart t s = some none ∧ finish exact t lo = some info ∧ b = none) ∨
    ∃ hi sse, highPart t s = some (some (hi, sse)) ∧ pair lo hi = some info ∧ b = some sse := by
  unfold complete at h
  cases hh : highPart t s with
  | none => rw [hh] at h; cases h
  | some x =>
    rw [hh] at h
    cases x with
    | none =>
      have h : (finish exact t lo).map (fun info => (info, none)) = some (info, b) := h
      obtain ⟨i, h1, h2⟩ := Option.map_eq_some_iff.1 h
      cases h2
      exact Or.inl ⟨rfl, h1, rfl⟩
    | some p =>
      obtain ⟨hi, sse⟩ := p
      have h : (pair lo hi).map (fun info => (info, some sse)) = some (info, b) := h
      obtain ⟨i, h1, h2⟩ := Option.map_eq_some_iff.1 h
      cases h2
      exact Or.inr ⟨hi, sse, rfl, h1, rfl⟩

theorem finish_parts {exact : Bool} {t : Ty} {r : AbiType} {info : Info} (h : finish exact t r = some info) :
    (info = .direct none ∧ sameType exact t r = true) ∨ (info = .coerce r none) ∨ (info = .coerceInt ∧ ∃ n, r = .bits n) := by
  unfold finish at h
  split at h
  · rename_i n
    split at h
    · cases h; exact Or.inr (Or.inr ⟨rfl, n, rfl⟩)
    · cases h
  · split at h
    · rename_i c
      cases h; exact Or.inl ⟨rfl, c⟩
    · cases h; exact Or.inr (Or.inl rfl)

theorem pair_parts {lo hi : AbiType} {info : Info} (h : pair lo hi = some info) : info = .pair lo hi := by
  unfold pair at h
  split at h
  · cases h; rfl
  · cases h

/-- How a value in registers is passed. -/
def Parts (exact : Bool) (t : Ty) (s : Classes) (info : Info) (sec : Option Bool) : Prop :=
  ∃ lo, lowType t s = some lo ∧
    ((highPart t s = some none ∧ sec = none ∧ (finish exact t lo = some info ∨ (s.2 = .no ∧ s.1 = .integer ∧ ∃ sg b e, t = .int sg b ∧ lo = .int sg b ∧ info = .coerce lo e))) ∨
      ∃ hi sse, highPart t s = some (some (hi, sse)) ∧ sec = some sse ∧ info = .pair lo hi)

theorem prom {t : Ty} (h : (promotable t).isSome = true) : ∃ sg b, t = .int sg b ∧ b < 4 := by
  cases t with
  | int sg b =>
    rw [promotable] at h
    by_cases c : b < 4
    · exact ⟨sg, b, rfl, c⟩
    · rw [if_neg c] at h; cases h
  | _ => cases h

theorem prom_type {sg : Bool} {b : Nat} (hb : b < 4) : intType (.int sg b) 0 (.int sg b) 0 = some (.int sg b) := by
  rw [intType, if_neg (by omega), if_neg (by omega), if_pos]
  rw [noData] <;> first | (apply decide_eq_true; show b ≤ 0 + b; omega) | simp

theorem arg_parts {avx : Nat} {t : Ty} {f : Nat} {s : Classes} {info : Info} {regs : Regs} (hc : classify avx t 0 = some s)
    (hs : s.1 = .integer ∨ s.1 = .sse) (h : classifyArg avx t f = some (info, regs)) :
    ∃ sec, Parts false t s info sec ∧ regs = used (if s.1 = .integer then ⟨0, 1⟩ else ⟨1, 0⟩) sec := by
  unfold classifyArg at h
  rw [hc] at h
  simp only at h
  by_cases c : (s.2 = .mem ∧ s.1 ≠ .mem) ∨ (s.2 = .sseup ∧ s.1 ≠ .sse)
  · rw [if_pos c] at h; cases h
  · rw [if_neg c] at h
    rcases hs with hs | hs
    · rw [hs] at h
      cases hi : intType t 0 t 0 with
      | none => rw [hi] at h; cases h
      | some lo =>
        rw [hi] at h
        have hl : lowType t s = some lo := by unfold lowType; rw [hs]; exact hi
        simp only at h
        by_cases d : s.2 = .no ∧ (promotable t).isSome = true
        · rw [if_pos d] at h
          obtain ⟨sg, b, rfl, hb⟩ := prom d.2
          rw [prom_type hb] at hi
          cases hi
          cases h
          refine ⟨none, ⟨_, hl, Or.inl ⟨?_, rfl, Or.inr ⟨d.1, hs, _, _, _, rfl, rfl, rfl⟩⟩⟩, ?_⟩
          · unfold highPart; rw [d.1]
          · rw [if_pos hs]; rfl
        · rw [if_neg d] at h
          obtain ⟨p, h1, h2⟩ := Option.map_eq_some_iff.1 h
          obtain ⟨i, sec⟩ := p
          cases h2
          refine ⟨sec, ⟨lo, hl, ?_⟩, by rw [if_pos hs]⟩
          rcases complete_parts h1 with ⟨a1, a2, a3⟩ | ⟨hi, sse, a1, a2, a3⟩
          · exact Or.inl ⟨a1, a3, Or.inl a2⟩
          · exact Or.inr ⟨hi, sse, a1, a3, pair_parts a2⟩
    · rw [hs] at h
      cases hi : lowSse t s with
      | none => rw [hi] at h; cases h
      | some lo =>
        rw [hi] at h
        have hl : lowType t s = some lo := by unfold lowType; rw [hs]; exact hi
        obtain ⟨p, h1, h2⟩ := Option.map_eq_some_iff.1 h
        obtain ⟨i, sec⟩ := p
        cases h2
        refine ⟨sec, ⟨lo, hl, ?_⟩, by rw [if_neg (by rw [hs]; simp)]⟩
        rcases complete_parts h1 with ⟨a1, a2, a3⟩ | ⟨hi, sse, a1, a2, a3⟩
        · exact Or.inl ⟨a1, a3, Or.inl a2⟩
        · exact Or.inr ⟨hi, sse, a1, a3, pair_parts a2⟩

theorem ret_parts {avx : Nat} {t : Ty} {s : Classes} {info : Info} (hc : classify avx t 0 = some s)
    (hs : s.1 = .integer ∨ s.1 = .sse) (h : classifyReturn avx t = some info) : ∃ sec, Parts true t s info sec := by
  unfold classifyReturn at h
  rw [hc] at h
  simp only at h
  by_cases c : (s.2 = .mem ∧ s.1 ≠ .mem) ∨ (s.2 = .sseup ∧ s.1 ≠ .sse)
  · rw [if_pos c] at h; cases h
  · rw [if_neg c] at h
    rcases hs with hs | hs
    · rw [hs] at h
      cases hi : intType t 0 t 0 with
      | none => rw [hi] at h; cases h
      | some lo =>
        rw [hi] at h
        have hl : lowType t s = some lo := by unfold lowType; rw [hs]; exact hi
        simp only at h
        by_cases d : s.2 = .no ∧ (promotable t).isSome = true
        · rw [if_pos d] at h
          obtain ⟨sg, b, rfl, hb⟩ := prom d.2
          rw [prom_type hb] at hi
          cases hi
          cases h
          refine ⟨none, ⟨_, hl, Or.inl ⟨?_, rfl, Or.inr ⟨d.1, hs, _, _, _, rfl, rfl, rfl⟩⟩⟩⟩
          unfold highPart; rw [d.1]
        · rw [if_neg d] at h
          obtain ⟨p, h1, h2⟩ := Option.map_eq_some_iff.1 h
          obtain ⟨i, sec⟩ := p
          cases h2
          refine ⟨sec, ⟨lo, hl, ?_⟩⟩
          rcases complete_parts h1 with ⟨a1, a2, a3⟩ | ⟨hi, sse, a1, a2, a3⟩
          · exact Or.inl ⟨a1, a3, Or.inl a2⟩
          · exact Or.inr ⟨hi, sse, a1, a3, pair_parts a2⟩
    · rw [hs] at h
      cases hi : lowSse t s with
      | none => rw [hi] at h; cases h
      | some lo =>
        rw [hi] at h
        have hl : lowType t s = some lo := by unfold lowType; rw [hs]; exact hi
        obtain ⟨p, h1, h2⟩ := Option.map_eq_some_iff.1 h
        obtain ⟨i, sec⟩ := p
        cases h2
        refine ⟨sec, ⟨lo, hl, ?_⟩⟩
        rcases complete_parts h1 with ⟨a1, a2, a3⟩ | ⟨hi, sse, a1, a2, a3⟩
        · exact Or.inl ⟨a1, a3, Or.inl a2⟩
        · exact Or.inr ⟨hi, sse, a1, a3, pair_parts a2⟩

theorem single_size {t f : Ty} (h : single t = some f) : size f = size t := by
  cases t with
  | agg u sz a fl ms =>
    rw [single] at h
    by_cases c : fl = true
    · rw [if_pos c] at h; cases h
    · rw [if_neg c] at h
      unfold singleMs at h
      split at h
      · split at h
        · split at h
          · rename_i e
            cases h
            exact e.symm
          · cases h
        · cases h
      · cases h
  | _ => cases h

theorem byteVector_facts {t : Ty} {r : AbiType} (h : byteVector t = some r) : floating r = true ∧ 16 ≤ r.size := by
  unfold byteVector at h
  split at h
  · cases h; exact ⟨rfl, Nat.le_refl 16⟩
  · split at h
    · rename_i c
      cases h
      refine ⟨rfl, ?_⟩
      show 16 ≤ 8 * _
      omega
    · cases h

theorem byteVector_some {t : Ty} (h : size t = 16) : ∃ r, byteVector t = some r := by
  have hs : size ((single t).getD t) = 16 := by
    cases hf : single t with
    | none => exact h
    | some f => exact (single_size hf).trans h
  unfold byteVector
  split
  · exact ⟨_, rfl⟩
  · rw [if_pos (Or.inl hs)]; exact ⟨_, rfl⟩

theorem high_none {t : Ty} {s : Classes} (h : highPart t s = some none) : s.2 = .no ∨ s.2 = .sseup := by
  unfold highPart at h
  split at h
  · cases h
  · rename_i e; exact Or.inl e
  · split at h <;> cases h
  · split at h <;> cases h
  · rename_i e; exact Or.inr e

theorem high_some {t : Ty} {s : Classes} {hi : AbiType} {sse : Bool} (h : highPart t s = some (some (hi, sse))) :
    (s.2 = .integer ∧ sse = false ∧ intType t 8 t 8 = some hi) ∨ (s.2 = .sse ∧ sse = true ∧ sseType t 8 = some hi) := by
  unfold highPart at h
  split at h
  · cases h
  · cases h
  · rename_i e
    split at h
    · cases h
    · rename_i x
      cases h
      exact Or.inl ⟨e, rfl, x⟩
  · rename_i e
    split at h
    · cases h
    · rename_i x
      cases h
      exact Or.inr ⟨e, rfl, x⟩
  · cases h

theorem int_facts {t : Ty} {so : Nat} {r : AbiType} (hv : Valid t) (hso : so < size t) (h : intType t so t so = some r) :
    (r = .ptr ∨ (∃ s b, r = .int s b) ∨ (r = .bits ((size t - so) * 8) ∧ size t - so ≤ 8)) ∧ r.size ≤ 8 ∧
    (r.align = 1 ∨ r.align = 2 ∨ r.align = 4 ∨ r.align = 8) ∧
    (∀ l ∈ leaves t 0, ∀ k, l.off ≤ k → k < l.off + l.size → so ≤ k → k < so + 8 → k < so + r.size) := by
  obtain ⟨r', h1, h2⟩ := intType_reg t so (rest_some hso) t so hv
  rw [h] at h1
  cases h1
  exact intReg_facts hv hso h2

theorem high_size {t : Ty} (h : Small t) (hh : high (leaves t 0) ≠ .no) : 8 < size t := by
  obtain ⟨l, hl, h1⟩ := high_yes hh
  have := h.leaf hl
  omega

theorem sse_cover {t : Ty} {so : Nat} {r : AbiType} (h : Small t) (hp : plain t) (hn : noHalf t ∨ dense t) (hw : Window t so)
    (hq : ∀ l ∈ leaves t 0, l.kind ≠ .quad) (hr : sseType t so = some r) :
    ∀ l ∈ leaves t 0, ∀ k, l.off ≤ k → k < l.off + l.size → so ≤ k → k < so + 8 → k < so + r.size := by
  rcases hn with hn | hd
  · exact sse_noHalf h hp hn hw (fun _ => hq) hr
  · intro l hl k k1 k2 k3 k4
    have := h.leaf hl
    obtain ⟨r', r1, r2, r3, r4⟩ := sse_dense h hp hd hw hq (by omega)
    rw [hr] at r1
    cases r1
    exact r4 k k3 (by omega) k4

theorem low_cover {t : Ty} {lo : AbiType} (h : Small t) (hp : plain t) (hn : noHalf t ∨ dense t)
    (hl : lowType t (low (leaves t 0), high (leaves t 0)) = some lo) :
    ∀ l ∈ leaves t 0, ∀ k, l.off ≤ k → k < l.off + l.size → k < 8 ∨ high (leaves t 0) = .sseup → k < lo.size := by
  intro l hm k k1 k2 k3
  unfold lowType at hl
  split at hl
  · rename_i e
    have hk : k < 8 := k3.resolve_right fun g => by
      have := (high_up g).1
      have e : low (leaves t 0) = .integer := e
      rw [e] at this; cases this
    have := (int_facts h.valid (valid_size t h.valid).2.2 hl).2.2.2 l hm k k1 k2 (Nat.zero_le _) (by omega)
    omega
  · rename_i e
    have e : low (leaves t 0) = .sse := e
    unfold lowSse at hl
    cases hs : sseType t 0 with
    | none => rw [hs] at hl; cases hl
    | some r =>
      rw [hs] at hl
      have hl : (if high (leaves t 0) = .sseup then byteVector t else some r) = some lo := hl
      by_cases c : high (leaves t 0) = .sseup
      · rw [if_pos c] at hl
        have := (byteVector_facts hl).2
        have := h.leaf hm
        have := h.size
        omega
      · rw [if_neg c] at hl
        cases hl
        have := sse_cover h hp hn (window_low e) (fun q hq hk => c (quad_alone h hp hq hk)) hs l hm k k1 k2 (Nat.zero_le _)
          (by have := k3.resolve_right c; omega)
        omega
  · cases hl

theorem high_cover {t : Ty} {hi : AbiType} {sse : Bool} (h : Small t) (hp : plain t) (hn : noHalf t ∨ dense t)
    (hl : highPart t (low (leaves t 0), high (leaves t 0)) = some (some (hi, sse))) :
    ∀ l ∈ leaves t 0, ∀ k, l.off ≤ k → k < l.off + l.size → 8 ≤ k → k < 8 + hi.size := by
  intro l hm k k1 k2 k3
  have h1 := h.leaf hm
  have := h.size
  rcases high_some hl with ⟨e, -, hi'⟩ | ⟨e, -, hi'⟩
  · exact (int_facts h.valid (by omega) hi').2.2.2 l hm k k1 k2 k3 (by omega)
  · have e : high (leaves t 0) = .sse := e
    exact sse_cover h hp hn (window_high e) (fun q hq hk => by
      have := quad_alone h hp hq hk
      rw [e] at this; cases this) hi' l hm k k1 k2 k3 (by omega)

theorem parts_carry {exact : Bool} {t : Ty} {info : Info} {sec : Option Bool} (h : Small t) (hp : plain t) (hn : noHalf t ∨ dense t)
    (hP : Parts exact t (low (leaves t 0), high (leaves t 0)) info sec) :
    ∀ l ∈ leaves t 0, ∀ k, l.off ≤ k → k < l.off + l.size → carries info k := by
  intro l hm k k1 k2
  obtain ⟨lo, hlo, ⟨h1, -, h2⟩ | ⟨hi, sse, h1, -, rfl⟩⟩ := hP
  · have hk : k < 8 ∨ high (leaves t 0) = .sseup := by
      rcases high_none h1 with e | e
      · have := high_no e l hm
        omega
      · exact Or.inr e
    have hc := low_cover h hp hn hlo l hm k k1 k2 hk
    rcases h2 with h2 | ⟨-, -, sg, b, e, -, -, rfl⟩
    · rcases finish_parts h2 with ⟨rfl, -⟩ | rfl | ⟨rfl, -⟩
      · trivial
      · exact hc
      · trivial
    · exact hc
  · show k < lo.size ∨ 8 ≤ k ∧ k < 8 + hi.size
    by_cases c : k < 8
    · exact Or.inl (low_cover h hp hn hlo l hm k k1 k2 (Or.inl c))
    · exact Or.inr ⟨by omega, high_cover h hp hn h1 l hm k k1 k2 (by omega)⟩

theorem indirect_carry (t : Ty) (f k : Nat) : carries (indirectResult t f) k := by
  unfold indirectResult
  repeat' split
  all_goals trivial

theorem indirectReturn_carry (t : Ty) (k : Nat) : carries (indirectReturn t) k := by
  unfold indirectReturn
  split <;> trivial

/-! ### Kinds -/

theorem low_kind {t : Ty} {s : Classes} {lo : AbiType} (hv : Valid t) (hl : lowType t s = some lo) : floating lo = true ↔ s.1 = .sse := by
  unfold lowType at hl
  split at hl
  · rename_i e
    rw [e]
    have := (int_facts hv (valid_size t hv).2.2 hl).1
    rcases this with rfl | ⟨_, _, rfl⟩ | ⟨rfl, -⟩ <;> simp [floating]
  · rename_i e
    rw [e]
    refine ⟨fun _ => rfl, fun _ => ?_⟩
    unfold lowSse at hl
    cases hs : sseType t 0 with
    | none => rw [hs] at hl; cases hl
    | some r =>
      rw [hs] at hl
      have hl : (if s.2 = .sseup then byteVector t else some r) = some lo := hl
      by_cases c : s.2 = .sseup
      · rw [if_pos c] at hl
        exact (byteVector_facts hl).1
      · rw [if_neg c] at hl
        cases hl
        exact sseType_floating hv hs
  · cases hl

theorem high_kind {t : Ty} {s : Classes} {hi : AbiType} {sse : Bool} (hv : Valid t) (h8 : 8 < size t) (hl : highPart t s = some (some (hi, sse))) :
    (s.2 = .integer ∧ sse = false ∧ floating hi = false) ∨ (s.2 = .sse ∧ sse = true ∧ floating hi = true) := by
  rcases high_some hl with ⟨e, e2, h⟩ | ⟨e, e2, h⟩
  · refine Or.inl ⟨e, e2, ?_⟩
    have := (int_facts hv h8 h).1
    rcases this with rfl | ⟨_, _, rfl⟩ | ⟨rfl, -⟩ <;> rfl
  · exact Or.inr ⟨e, e2, sseType_floating hv h⟩

theorem same_scalar {exact : Bool} {t : Ty} {r : AbiType} (h : sameType exact t r = true) : aggregate t = false := by
  cases t <;> first | rfl | (cases r <;> cases h)

theorem parts_kind {exact : Bool} {t : Ty} {info : Info} {sec : Option Bool} (h : Small t)
    (hP : Parts exact t (low (leaves t 0), high (leaves t 0)) info sec) : inRegs t info := by
  obtain ⟨lo, hlo, ⟨h1, -, h2⟩ | ⟨hi, sse, h1, -, rfl⟩⟩ := hP
  · have hk := low_kind h.valid hlo
    have hn : high (leaves t 0) = .no ∨ high (leaves t 0) = .sseup := high_none h1
    rcases h2 with h2 | ⟨-, -, sg, b, e, -, -, rfl⟩
    · rcases finish_parts h2 with ⟨rfl, hs⟩ | rfl | ⟨rfl, n, rfl⟩
      · exact same_scalar hs
      · exact ⟨hn, hk⟩
      · unfold lowType at hlo
        split at hlo
        · rename_i e
          have e : low (leaves t 0) = .integer := e
          refine ⟨e, hn.resolve_right fun g => ?_⟩
          have := (high_up g).1
          rw [e] at this; cases this
        · rename_i e
          exact absurd (hk.2 e) (by simp [floating])
        · cases hlo
    · exact ⟨hn, hk⟩
  · have h8 : 8 < size t := high_size h fun g => by
      rcases high_some h1 with ⟨e, -⟩ | ⟨e, -⟩
      · have e : high (leaves t 0) = .integer := e
        rw [g] at e; cases e
      · have e : high (leaves t 0) = .sse := e
        rw [g] at e; cases e
    refine ⟨low_kind h.valid hlo, ?_⟩
    rcases high_kind h.valid h8 h1 with ⟨e, -, f⟩ | ⟨e, -, f⟩
    · exact Or.inl ⟨e, f⟩
    · exact Or.inr ⟨e, f⟩

/-! ### Registers -/

theorem used_needs {t : Ty} {info : Info} {sec : Option Bool} {exact : Bool} (h1 : low (leaves t 0) = .integer ∨ low (leaves t 0) = .sse)
    (hP : Parts exact t (low (leaves t 0), high (leaves t 0)) info sec) :
    used (if low (leaves t 0) = .integer then ⟨0, 1⟩ else ⟨1, 0⟩) sec = ⟨(needs t).2, (needs t).1⟩ := by
  obtain ⟨lo, hlo, hh⟩ := hP
  have hsec : (sec = none ∧ (high (leaves t 0) = .no ∨ high (leaves t 0) = .sseup)) ∨ (sec = some false ∧ high (leaves t 0) = .integer) ∨
      (sec = some true ∧ high (leaves t 0) = .sse) := by
    rcases hh with ⟨a, b, -⟩ | ⟨hi, sse, a, b, -⟩
    · exact Or.inl ⟨b, high_none a⟩
    · rcases high_some a with ⟨e, e2, -⟩ | ⟨e, e2, -⟩
      · exact Or.inr (Or.inl ⟨by rw [b, e2], e⟩)
      · exact Or.inr (Or.inr ⟨by rw [b, e2], e⟩)
  unfold needs
  simp only
  rcases h1 with e | e <;> rcases hsec with ⟨rfl, f | f⟩ | ⟨rfl, f⟩ | ⟨rfl, f⟩ <;> rw [e, f] <;> rfl

theorem low_reg {t : Ty} (hv : Valid t) : low (leaves t 0) = .integer ∨ low (leaves t 0) = .sse := by
  obtain ⟨l, hl, h⟩ := leaf_first t 0 hv
  exact low_cases hl (by omega)

/-! ### No failure -/

theorem pair_total {lo hi : AbiType} (h1 : lo.size = 8) (h2 : hi.align = 1 ∨ hi.align = 2 ∨ hi.align = 4 ∨ hi.align = 8) : pair lo hi = some (.pair lo hi) := by
  unfold pair alignedOffset
  rw [h1]
  rcases h2 with e | e | e | e <;> rw [e] <;> rfl

theorem finish_total {exact : Bool} {t : Ty} {r : AbiType} (h : ∀ n, r = .bits n → n = size t * 8) : ∃ info, finish exact t r = some info := by
  unfold finish
  split
  · rename_i n
    rw [if_pos (h n rfl)]
    exact ⟨_, rfl⟩
  · split <;> exact ⟨_, rfl⟩

theorem low_total {t : Ty} (h : Small t) (hp : plain t) (hd : dense t) :
    ∃ lo, lowType t (low (leaves t 0), high (leaves t 0)) = some lo ∧
      (8 < size t → high (leaves t 0) ≠ .sseup → lo.size = 8) ∧ (size t ≤ 8 ∨ high (leaves t 0) = .sseup → ∀ n, lo = .bits n → n = size t * 8) := by
  have hpos := (valid_size t h.valid).2.2
  rcases low_reg h.valid with e | e
  · obtain ⟨lo, h1, h2⟩ := intType_reg t 0 (rest_some hpos) t 0 h.valid
    obtain ⟨f1, f2, f3, f4⟩ := intReg_facts h.valid hpos h2
    refine ⟨lo, ?_, ?_, ?_⟩
    · unfold lowType
      rw [e]
      exact h1
    · intro h8 _
      obtain ⟨l, hl, k1, k2⟩ := hd 7 (by omega)
      have := f4 l hl 7 k1 k2 (by omega) (by omega)
      omega
    · intro _ n hn
      rcases f1 with rfl | ⟨_, _, rfl⟩ | ⟨rfl, -⟩
      · cases hn
      · cases hn
      · cases hn; rfl
  · by_cases c : high (leaves t 0) = .sseup
    · obtain ⟨q, hq, hk⟩ := (high_up c).2
      obtain ⟨q1, q2⟩ := quad_at h hq hk
      have hb := h.leaf hq
      have hs := h.size
      have hf : fpAt t 0 = some (some .f128) := by
        have := fpAt_leaf t 0 h.valid hp q hq 0 (by omega) (by omega)
        rw [Nat.sub_zero, if_pos q1.symm, hk] at this
        exact this
      have hsse : sseType t 0 = some .f128 := by
        rw [sseType_eq hf, if_neg (by simp)]
        have hsec : sseSecond t 0 .f128 = some none := by
          unfold sseSecond
          have e : AbiType.size .f128 = 16 := rfl
          rw [e, if_neg (by omega)]
          show (if AbiType.half .f128 = true ∧ _ then _ else _) = _
          rw [if_neg (by rintro ⟨h, -⟩; cases h)]
        rw [hsec]; rfl
      obtain ⟨r, hr⟩ := byteVector_some (t := t) (by omega)
      refine ⟨r, ?_, fun _ g => absurd c g, fun _ n hn => ?_⟩
      · unfold lowType lowSse
        simp only [e, hsse]
        rw [if_pos c]; exact hr
      · have := (byteVector_facts hr).1
        rw [hn] at this; cases this
    · obtain ⟨r, r1, r2, r3, r4⟩ := sse_dense h hp hd (window_low e) (fun q hq hk => c (quad_alone h hp hq hk)) hpos
      refine ⟨r, ?_, ?_, fun _ n hn => ?_⟩
      · unfold lowType lowSse
        simp only [e, r1]
        rw [if_neg c]
      · intro h8 _
        have := r4 7 (by omega) (by omega) (by omega)
        omega
      · have := sseType_floating h.valid r1
        rw [hn] at this; cases this

theorem complete_total {exact : Bool} {t : Ty} {lo : AbiType} (h : Small t) (hp : plain t) (hd : dense t)
    (h1 : 8 < size t → high (leaves t 0) ≠ .sseup → lo.size = 8) (h2 : size t ≤ 8 ∨ high (leaves t 0) = .sseup → ∀ n, lo = .bits n → n = size t * 8) :
    ∃ p, complete exact t (low (leaves t 0), high (leaves t 0)) lo = some p := by
  unfold complete
  have hne := high_ne_mem (leaves t 0)
  cases hh : high (leaves t 0) with
  | mem => exact absurd hh hne
  | no =>
    have h8 : size t ≤ 8 := by
      apply Nat.le_of_not_lt
      intro g
      obtain ⟨l, hl, k1, k2⟩ := hd 8 g
      have := high_no hh l hl
      omega
    obtain ⟨info, hi⟩ := finish_total (exact := exact) (h2 (Or.inl h8))
    show ∃ p, (finish exact t lo).map (fun info => (info, none)) = some p
    rw [hi]; exact ⟨_, rfl⟩
  | sseup =>
    obtain ⟨info, hi⟩ := finish_total (exact := exact) (h2 (Or.inr hh))
    show ∃ p, (finish exact t lo).map (fun info => (info, none)) = some p
    rw [hi]; exact ⟨_, rfl⟩
  | integer =>
    have h8 : 8 < size t := high_size h (by rw [hh]; simp)
    obtain ⟨hi, i1, i2⟩ := intType_reg t 8 (rest_some h8) t 8 h.valid
    obtain ⟨f1, f2, f3, f4⟩ := intReg_facts h.valid h8 i2
    have hp : highPart t (low (leaves t 0), Class.integer) = some (some (hi, false)) := by
      unfold highPart
      simp only [i1]
    rw [hp]
    show ∃ p, (pair lo hi).map (fun info => (info, some false)) = some p
    rw [pair_total (h1 h8 (by rw [hh]; simp)) f3]; exact ⟨_, rfl⟩
  | sse =>
    have h8 : 8 < size t := high_size h (by rw [hh]; simp)
    obtain ⟨r, r1, r2, r3, r4⟩ := sse_dense h hp hd (window_high hh) (fun q hq hk => by
      have := quad_alone h hp hq hk
      rw [hh] at this; cases this) h8
    have hp : highPart t (low (leaves t 0), Class.sse) = some (some (r, true)) := by
      unfold highPart
      simp only [r1]
    rw [hp]
    show ∃ p, (pair lo r).map (fun info => (info, some true)) = some p
    rw [pair_total (h1 h8 (by rw [hh]; simp)) r3]; exact ⟨_, rfl⟩

theorem asserts_ok (L : List Leaf) : ¬ ((high L = .mem ∧ low L ≠ .mem) ∨ (high L = .sseup ∧ low L ≠ .sse)) := by
  rintro (⟨h, -⟩ | ⟨h1, h2⟩)
  · exact high_ne_mem L h
  · exact h2 (high_up h1).1

theorem arg_total {avx : Nat} {t : Ty} (f : Nat) (hc : classify avx t 0 = some (low (leaves t 0), high (leaves t 0))) (h : Small t) (hp : plain t) (hd : dense t) :
    (∃ p, classifyArg avx t f = some p) ∧ ∃ i, classifyReturn avx t = some i := by
  obtain ⟨lo, l1, l2, l3⟩ := low_total h hp hd
  obtain ⟨p, hp1⟩ := complete_total (exact := false) h hp hd l2 l3
  obtain ⟨p', hp2⟩ := complete_total (exact := true) h hp hd l2 l3
  unfold classifyArg classifyReturn
  rw [hc]
  simp only
  rw [if_neg (asserts_ok _), if_neg (asserts_ok _)]
  rcases low_reg h.valid with e | e
  · have hi : intType t 0 t 0 = some lo := by
      unfold lowType at l1; simp only [e] at l1; exact l1
    rw [e] at hp1 hp2 ⊢
    simp only [hi]
    by_cases d : high (leaves t 0) = .no ∧ (promotable t).isSome = true
    · rw [if_pos d, if_pos d]
      obtain ⟨sg, b, rfl, hb⟩ := prom d.2
      rw [prom_type hb] at hi
      cases hi
      exact ⟨⟨_, rfl⟩, _, rfl⟩
    · rw [if_neg d, if_neg d, hp1, hp2]
      exact ⟨⟨_, rfl⟩, _, rfl⟩
  · have hi : lowSse t (.sse, high (leaves t 0)) = some lo := by
      unfold lowType at l1; simp only [e] at l1; exact l1
    rw [e] at hp1 hp2 ⊢
    simp only [hi, hp1, hp2]
    exact ⟨⟨_, rfl⟩, _, rfl⟩

end C3.Abi
