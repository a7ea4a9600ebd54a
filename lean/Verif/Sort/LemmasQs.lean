import Verif.Sort.Lemmas

/-! # Helper lemmas for sorting: quicksort and quickselect -/

set_option autoImplicit false

namespace C3.Sort

variable {α : Type}

theorem Preorder.refl' {cmp : α → α → Int} (h : Preorder cmp) (x : α) : cmp x x = 0 := by
  have := h.sym x x; omega

theorem Preorder.of_ge {cmp : α → α → Int} (h : Preorder cmp) {x y : α} (hxy : 0 ≤ cmp x y) : cmp y x ≤ 0 :=
  (h.sym y x).2 hxy

theorem Preorder.of_lt {cmp : α → α → Int} (h : Preorder cmp) {x y : α} (hxy : cmp x y < 0) : 0 < cmp y x := by
  have := h.sym y x; omega

theorem Preorder.of_gt {cmp : α → α → Int} (h : Preorder cmp) {x y : α} (hxy : 0 < cmp x y) : cmp y x < 0 := by
  have := h.sym x y; omega

def SortedOn (cmp : α → α → Int) (L : List α) (lo hi : Nat) : Prop :=
  ∀ i j : Nat, lo ≤ i → i < j → j ≤ hi → ∀ x y, L[i]? = some x → L[j]? = some y → cmp x y ≤ 0

theorem combine {cmp : α → α → Int} (hp : Preorder cmp) {L1 L3 : List α} {lo hi p : Nat} {pivot : α}
    (h1 : ∀ i : Nat, lo ≤ i → i ≤ p → ∃ j : Nat, lo ≤ j ∧ j ≤ p ∧ L3[i]? = L1[j]?)
    (h2 : ∀ i : Nat, p + 1 ≤ i → i ≤ hi → ∃ j : Nat, p + 1 ≤ j ∧ j ≤ hi ∧ L3[i]? = L1[j]?)
    (s1 : SortedOn cmp L3 lo p) (s2 : SortedOn cmp L3 (p + 1) hi)
    (b1 : ∀ i : Nat, lo ≤ i → i ≤ p → ∀ x, L1[i]? = some x → cmp x pivot ≤ 0)
    (b2 : ∀ i : Nat, p ≤ i → i ≤ hi → ∀ x, L1[i]? = some x → 0 ≤ cmp x pivot) : SortedOn cmp L3 lo hi := by
  intro i j hi1 hij hj x y hx hy
  by_cases hjp : j ≤ p
  · exact s1 i j hi1 hij hjp x y hx hy
  · by_cases hip : i ≤ p
    · obtain ⟨i', a1, a2, a3⟩ := h1 i hi1 hip
      obtain ⟨j', c1, c2, c3⟩ := h2 j (by omega) hj
      exact hp.trans x pivot y (b1 i' a1 a2 x (a3 ▸ hx))
        (hp.of_ge (b2 j' (by omega) c2 y (c3 ▸ hy)))
    · exact s2 i j (by omega) hij hj x y hx hy

theorem cap {n s t : Nat} (h : 2 ^ n * s < 2 ^ 63) (ht : t ≤ s) : 2 ^ n * t < 2 ^ 63 :=
  Nat.lt_of_le_of_lt (Nat.mul_le_mul_left _ ht) h

theorem cap_half {n s t : Nat} (h : 2 ^ n * s < 2 ^ 63) (ht : 2 * t ≤ s) : 2 ^ (n + 1) * t < 2 ^ 63 := by
  rw [Nat.pow_succ, Nat.mul_assoc]
  exact cap h ht

theorem cap_depth {n s : Nat} (h : 2 ^ n * s < 2 ^ 63) (hs : 2 ≤ s) : n < 62 := by
  have h1 : 2 ^ (n + 1) < 2 ^ 63 := by
    rw [Nat.pow_succ]
    exact cap h hs
  have := (Nat.pow_lt_pow_iff_right (a := 2) (by omega)).1 h1
  omega

/-- The range on top of the stack is sorted in place and removed. -/
theorem qsortLoop_spec {cmp : α → α → Int} (hp : Preorder cmp) : ∀ (m : Nat) (L : List α) (lo hi : Nat) (S : List Range),
    lo ≤ hi + 1 → hi < L.length → 2 ^ S.length * (hi + 1 - lo) < 2 ^ 63 →
    (2 * (hi - lo) + 1 ≤ m ∨ (2 * (hi - lo) ≤ m ∧ ∀ x y, L[lo]? = some x → L[hi]? = some y → cmp x y < 0)) →
    ∃ L', qsortLoop cmp L (⟨lo, hi⟩ :: S) = qsortLoop cmp L' S ∧ Rearr L L' lo hi ∧ SortedOn cmp L' lo hi := by
  intro m
  induction m with
  | zero =>
    intro L lo hi S h1 h2 h3 h4
    rw [qsortLoop]
    have : ¬ lo < hi := by omega
    rw [if_neg this]
    exact ⟨L, rfl, Rearr.refl _ _ _, fun i j a b c => by omega⟩
  | succ m ih =>
    intro L lo hi S h1 h2 h3 h4
    rw [qsortLoop]
    by_cases hlt : lo < hi
    · rw [if_pos hlt]
      obtain ⟨L1, p, pivot, e1, e2, e3, e4, e5, e6, e7, e8, e9⟩ :=
        partition_spec cmp hp.refl' L lo hi (by omega) h2
      have hd := cap_depth h3 (by omega)
      simp only [e1, Option.bind_eq_bind, Option.bind_some]
      rw [if_neg (by omega)]
      have hlen := e4.len
      -- sorting the two parts, in any order
      have hlower : ∀ (L2 : List α) (S : List Range), L2.length = L.length →
          (p = hi → ∀ x y, L2[lo]? = some x → L2[hi]? = some y → cmp x y < 0) →
          2 ^ S.length * (p + 1 - lo) < 2 ^ 63 →
          ∃ L', qsortLoop cmp L2 (⟨lo, p⟩ :: S) = qsortLoop cmp L' S ∧ Rearr L2 L' lo p ∧ SortedOn cmp L' lo p := by
        intro L2 S hl2 hg hcap
        refine ih L2 lo p S (by omega) (by omega) hcap ?_
        by_cases hph : p = hi
        · right
          refine ⟨?_, by rw [hph]; exact hg hph⟩
          rcases h4 with h4 | ⟨h4, hgood⟩
          · omega
          · -- then the pivot is not maximal
            exfalso
            obtain ⟨y, hy⟩ := get_of_lt L h2
            obtain ⟨i, c1, c2, c3⟩ := e4.cover hi (by omega) (Nat.le_refl _)
            have h1 := e7 i c1 (by omega) y (c3 ▸ hy)
            have h2 := hgood pivot y e6 hy
            have := hp.of_lt h2
            omega
        · left; omega
      have hupper : ∀ (L2 : List α) (S : List Range), L2.length = L.length → 2 ^ S.length * (hi - p) < 2 ^ 63 →
          ∃ L', qsortLoop cmp L2 (⟨p + 1, hi⟩ :: S) = qsortLoop cmp L' S ∧ Rearr L2 L' (p + 1) hi ∧
            SortedOn cmp L' (p + 1) hi := by
        intro L2 S hl2 hcap
        refine ih L2 (p + 1) hi S (by omega) (by omega) ?_ ?_
        · rw [show hi + 1 - (p + 1) = hi - p by omega]; exact hcap
        · left; omega
      have hmax : p = hi → ∀ L2 : List α, Rearr L1 L2 (p + 1) hi →
          ∀ x y, L2[lo]? = some x → L2[hi]? = some y → cmp x y < 0 := by
        intro hph L2 hr x y hx hy
        rw [hr.outside lo (by omega)] at hx
        rw [hr.outside hi (by omega), ← hph, e5, Option.some.injEq] at hy
        subst hy
        rcases e9 with h | h
        · omega
        · exact h x hx
      split
      · next hsz =>
        obtain ⟨L2, q1, q2, q3⟩ := hlower L1 (⟨p + 1, hi⟩ :: S) hlen
          (fun hph => hmax hph L1 (Rearr.refl _ _ _)) (cap_half h3 (by omega))
        obtain ⟨L3, r1, r2, r3⟩ := hupper L2 S (q2.len.trans hlen) (cap h3 (by omega))
        refine ⟨L3, q1.trans r1, (e4.trans (q2.mono (Nat.le_refl _) e3)).trans (r2.mono (by omega) (Nat.le_refl _)), ?_⟩
        refine combine hp (L1 := L1) ?_ ?_ ?_ r3 e7 e8
        · intro i hi1 hi2
          rw [r2.outside i (by omega)]
          exact q2.inside i hi1 hi2
        · intro i hi1 hi2
          obtain ⟨j, c1, c2, c3⟩ := r2.inside i hi1 hi2
          exact ⟨j, c1, c2, by rw [c3, q2.outside j (by omega)]⟩
        · intro i j hi1 hij hj x y hx hy
          rw [r2.outside i (by omega)] at hx
          rw [r2.outside j (by omega)] at hy
          exact q3 i j hi1 hij hj x y hx hy
      · next hsz =>
        obtain ⟨L2, q1, q2, q3⟩ := hupper L1 (⟨lo, p⟩ :: S) hlen (cap_half h3 (by omega))
        obtain ⟨L3, r1, r2, r3⟩ := hlower L2 S (q2.len.trans hlen)
          (fun hph => hmax hph L2 q2) (cap h3 (by omega))
        refine ⟨L3, q1.trans r1, (e4.trans (q2.mono (by omega) (Nat.le_refl _))).trans (r2.mono (Nat.le_refl _) e3), ?_⟩
        refine combine hp (L1 := L1) ?_ ?_ r3 ?_ e7 e8
        · intro i hi1 hi2
          obtain ⟨j, c1, c2, c3⟩ := r2.inside i hi1 hi2
          exact ⟨j, c1, c2, by rw [c3, q2.outside j (by omega)]⟩
        · intro i hi1 hi2
          rw [r2.outside i (by omega)]
          exact q2.inside i hi1 hi2
        · intro i j hi1 hij hj x y hx hy
          rw [r2.outside i (by omega)] at hx
          rw [r2.outside j (by omega)] at hy
          exact q3 i j hi1 hij hj x y hx hy
    · rw [if_neg hlt]
      exact ⟨L, rfl, Rearr.refl _ _ _, fun i j a b c => by omega⟩

/-- From positions to segments. -/
theorem segments {cmp : α → α → Int} {A S B L' : List α} {hi : Nat} (hs : S ≠ [])
    (hhi : hi = A.length + S.length - 1) (hr : Rearr (A ++ S ++ B) L' A.length hi)
    (hsort : SortedOn cmp L' A.length hi) :
    ∃ S', L' = A ++ S' ++ B ∧ S'.Perm S ∧ Sorted cmp S' := by
  have hpos : 0 < S.length := List.length_pos_iff.2 hs
  have hlen := hr.len
  simp only [List.length_append] at hlen
  have hA : L'.take A.length = A := by
    apply List.ext_getElem?
    intro i
    by_cases hi' : i < A.length
    · rw [List.getElem?_take_of_lt hi', hr.outside i (by omega), List.append_assoc, List.getElem?_append_left hi']
    · rw [List.getElem?_eq_none (by rw [List.length_take]; omega), List.getElem?_eq_none (by omega)]
  have hB : L'.drop (A.length + S.length) = B := by
    apply List.ext_getElem?
    intro i
    rw [List.getElem?_drop, hr.outside _ (by omega), List.getElem?_append_right (by simp)]
    congr 1; simp
  refine ⟨(L'.drop A.length).take S.length, ?_, ?_, ?_⟩
  · have h1 := List.take_append_drop A.length L'
    have h2 := List.take_append_drop S.length (L'.drop A.length)
    rw [List.drop_drop, hB] at h2
    rw [hA] at h1
    rw [List.append_assoc, h2, h1]
  · have h1 := List.take_append_drop A.length L'
    have h2 := List.take_append_drop S.length (L'.drop A.length)
    rw [List.drop_drop, hB] at h2
    rw [hA, ← h2] at h1
    have := hr.perm
    rw [← h1, List.append_assoc, List.perm_append_left_iff, List.perm_append_right_iff] at this
    exact this
  · unfold Sorted
    rw [List.pairwise_iff_getElem]
    intro i j hi' hj' hij
    have hil := hi'
    have hjl := hj'
    rw [List.length_take, List.length_drop] at hil hjl
    refine hsort (A.length + i) (A.length + j) (by omega) (by omega) (by omega) _ _ ?_ ?_
    · rw [← List.getElem?_eq_getElem hi', List.getElem?_take_of_lt (by omega), List.getElem?_drop]
    · rw [← List.getElem?_eq_getElem hj', List.getElem?_take_of_lt (by omega), List.getElem?_drop]

/-- If nothing in the range is below its first element, `@partition` changes nothing. -/
theorem partition_min (cmp : α → α → Int) (L : List α) (lo hi : Nat) (h : lo ≤ hi) (hh : hi < L.length) (pivot : α)
    (hp : L[lo]? = some pivot) (hmin : ∀ i : Nat, lo < i → i ≤ hi → ∀ x, L[i]? = some x → 0 ≤ cmp x pivot) :
    partition cmp L lo hi = some (L, lo) := by
  have hset : L.set lo pivot = L := by
    rw [List.getElem?_eq_getElem (by omega), Option.some.injEq] at hp
    rw [← hp, List.set_getElem_self]
  have hloop : partLoop cmp pivot L lo hi = some (L, lo) := by
    have hend : partLoop cmp pivot L lo lo = some (L, lo) := by
      rw [partLoop, if_neg (by omega)]
    by_cases hlt : lo < hi
    · rw [partLoop, if_pos hlt]
      obtain ⟨h1, s1, s2, s3, s4, s5⟩ := scanDown_spec cmp L pivot lo (hi - lo) hi rfl (by omega) (by omega)
      have : h1 = lo := by
        by_contra hne
        obtain ⟨x, hx⟩ := get_of_lt L (i := h1) (by omega)
        have a := s5 (by omega) x hx
        have b := hmin h1 (by omega) s3 x hx
        omega
      subst this
      obtain ⟨l2, u1, u2, u3, -, -⟩ := scanUp_spec cmp L pivot h1 (h1 - h1) h1 rfl (by omega) (by omega)
      have : l2 = h1 := by omega
      subst this
      simp [s1, u1, hend]
    · have : hi = lo := by omega
      rw [this]; exact hend
  unfold partition
  rw [hp, Option.bind_eq_bind, Option.bind_some, hloop]
  simp only [Option.bind_eq_bind, Option.bind_some]
  rw [C3.Sort.store_some _ (by omega), Option.bind_some, hset]

/-- The list around the window of `qselect`. -/
structure Window (cmp : α → α → Int) (L : List α) (l h : Int) : Prop where
  below : ∀ i j : Nat, (i : Int) < l → l ≤ j → ∀ x y, L[i]? = some x → L[j]? = some y → cmp x y ≤ 0
  above : ∀ i j : Nat, (i : Int) ≤ h → h < j → ∀ x y, L[i]? = some x → L[j]? = some y → cmp x y ≤ 0

theorem qselectLoop_spec {cmp : α → α → Int} (hp : Preorder cmp) (k : Nat) :
    ∀ (retries : Nat) (L : List α) (l h : Int), 0 ≤ l → l ≤ k → (k : Int) ≤ h → h < L.length → Window cmp L l h →
    ∃ L' r, qselectLoop cmp k retries L l h = some (L', r) ∧ L'.Perm L ∧
      (∀ v, r = some v → L'[k]? = some v ∧ (∀ i : Nat, i < k → ∀ x, L'[i]? = some x → cmp x v ≤ 0) ∧
        (∀ i : Nat, k < i → ∀ x, L'[i]? = some x → cmp v x ≤ 0)) ∧
      (h - l < retries → ∃ v, r = some v)
  | 0, L, l, h, h0, h1, h2, h3, hw => by
    refine ⟨L, none, rfl, List.Perm.refl _, by simp, fun h => by omega⟩
  | retries + 1, L, l, h, h0, h1, h2, h3, hw => by
    rw [qselectLoop, if_pos (by omega)]
    obtain ⟨L1, p, pivot, e1, e2, e3, e4, e5, e6, e7, e8, -⟩ :=
      partition_spec cmp hp.refl' L l.toNat h.toNat (by omega) (by omega)
    have hlen := e4.len
    -- an element at or above `l` comes from one at or above `l`, and so on
    have src : ∀ i : Nat, ∃ j : Nat, L1[i]? = L[j]? ∧ (l ≤ i → l ≤ j) ∧ ((i : Int) ≤ h → (j : Int) ≤ h) ∧
        ((i : Int) < l → j = i) ∧ (h < i → j = i) := by
      intro i
      by_cases hin : l.toNat ≤ i ∧ i ≤ h.toNat
      · obtain ⟨j, c1, c2, c3⟩ := e4.inside i hin.1 hin.2
        exact ⟨j, c3, by omega, by omega, by omega, by omega⟩
      · exact ⟨i, e4.outside i (by omega), by omega, by omega, by omega, by omega⟩
    have below1 : ∀ i j : Nat, (i : Int) < l → l ≤ j → ∀ x y, L1[i]? = some x → L1[j]? = some y → cmp x y ≤ 0 := by
      intro i j hi hj x y hx hy
      obtain ⟨i', a1, a2, a3, a4, a5⟩ := src i
      obtain ⟨j', c1, c2, c3, c4, c5⟩ := src j
      exact hw.below i' j' (by have := a4 hi; omega) (c2 hj) x y (a1 ▸ hx) (c1 ▸ hy)
    have above1 : ∀ i j : Nat, (i : Int) ≤ h → h < j → ∀ x y, L1[i]? = some x → L1[j]? = some y → cmp x y ≤ 0 := by
      intro i j hi hj x y hx hy
      obtain ⟨i', a1, a2, a3, a4, a5⟩ := src i
      obtain ⟨j', c1, c2, c3, c4, c5⟩ := src j
      exact hw.above i' j' (a3 hi) (by have := c5 hj; omega) x y (a1 ▸ hx) (c1 ▸ hy)
    have lowp : ∀ i : Nat, i ≤ p → ∀ x, L1[i]? = some x → cmp x pivot ≤ 0 := by
      intro i hi x hx
      by_cases hil : (i : Int) < l
      · exact below1 i p hil (by omega) x pivot hx e5
      · exact e7 i (by omega) hi x hx
    have highp : ∀ i : Nat, p ≤ i → ∀ x, L1[i]? = some x → cmp pivot x ≤ 0 := by
      intro i hi x hx
      by_cases hih : h < i
      · exact above1 p i (by omega) hih pivot x e5 hx
      · exact hp.of_ge (e8 i hi (by omega) x hx)
    simp only [e1, Option.bind_eq_bind, Option.bind_some]
    by_cases hkp : k = p
    · subst hkp
      rw [if_pos rfl, e5]
      refine ⟨L1, some pivot, rfl, e4.perm, ?_, fun _ => ⟨pivot, rfl⟩⟩
      intro v hv
      rw [Option.some.injEq] at hv
      subst hv
      exact ⟨e5, fun i hi => lowp i (by omega), fun i hi => highp i (by omega)⟩
    · rw [if_neg hkp]
      by_cases hlt : k < p
      · rw [if_pos hlt]
        obtain ⟨L2, r, q1, q2, q3, q4⟩ := qselectLoop_spec hp k retries L1 l ((p : Int) - 1) h0 h1 (by omega) (by omega)
          ⟨below1, fun i j hi hj x y hx hy => hp.trans x pivot y (lowp i (by omega) x hx) (highp j (by omega) y hy)⟩
        exact ⟨L2, r, q1, q2.trans e4.perm, q3, fun h => q4 (by omega)⟩
      · rw [if_neg hlt]
        obtain ⟨L2, r, q1, q2, q3, q4⟩ := qselectLoop_spec hp k retries L1 ((p : Int) + 1) h (by omega) (by omega) h2 (by omega)
          ⟨fun i j hi hj x y hx hy => hp.trans x pivot y (lowp i (by omega) x hx) (highp j (by omega) y hy), above1⟩
        exact ⟨L2, r, q1, q2.trans e4.perm, q3, fun h => q4 (by omega)⟩

/-- On a sorted list every partition removes one element only. -/
theorem qselectLoop_sorted {cmp : α → α → Int} (hp : Preorder cmp) (L : List α) (hs : Sorted cmp L) (k : Nat)
    (hk : k < L.length) : ∀ (retries l : Nat), l + retries ≤ k →
    qselectLoop cmp k retries L l ((L.length : Int) - 1) = some (L, none)
  | 0, l, _ => rfl
  | retries + 1, l, h => by
    rw [qselectLoop, if_pos (by omega)]
    obtain ⟨pivot, hpv⟩ := get_of_lt L (i := l) (by omega)
    have := partition_min cmp L l (L.length - 1) (by omega) (by omega) pivot hpv (by
      intro i h1 h2 x hx
      have hi := lt_of_get hx
      rw [List.getElem?_eq_getElem hi, Option.some.injEq] at hx
      rw [List.getElem?_eq_getElem (by omega), Option.some.injEq] at hpv
      have := List.pairwise_iff_getElem.1 hs l i (by omega) hi h1
      rw [hx, hpv] at this
      exact (hp.sym _ _).1 this)
    have hto : ((L.length : Int) - 1).toNat = L.length - 1 := by omega
    rw [Int.toNat_natCast, hto, this, Option.bind_eq_bind, Option.bind_some]
    simp only []
    rw [if_neg (by omega), if_neg (by omega)]
    have := qselectLoop_sorted hp L hs k hk retries (l + 1) (by omega)
    exact_mod_cast this

end C3.Sort
