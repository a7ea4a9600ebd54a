import Verif.Sort.LemmasIs

/-! # C38–C42: sorting and searching of `std::sort` -/

set_option autoImplicit false

namespace C3.Sort

variable {α : Type}

/-- Comparison of integers by difference, for the examples. -/
def diff (a b : Int) : Int := a - b

theorem diff_preorder : Preorder diff :=
  ⟨fun x y => by unfold diff; omega, fun x y z => by unfold diff; omega⟩

/-- **C38** (`qsort` on a range): the positions `low..high` (here the segment `S`) get sorted, the
other elements stay; the 64 entries of the range stack suffice and the loops end. -/
theorem C38_qsort_range (cmp : α → α → Int) (hp : Preorder cmp) (A S B : List α) (hs : S ≠ [])
    (hlen : S.length < 2 ^ 63) :
    ∃ S', qsort cmp (A ++ S ++ B) A.length (A.length + S.length - 1) = some (A ++ S' ++ B) ∧
      S'.Perm S ∧ Sorted cmp S' := by
  have hpos : 0 < S.length := List.length_pos_iff.2 hs
  unfold qsort
  by_cases h1 : 1 < S.length
  · rw [if_pos (by omega)]
    have e1 : ((A.length : Int)).toNat = A.length := by omega
    have e2 : ((A.length : Int) + S.length - 1).toNat = A.length + S.length - 1 := by omega
    rw [e1, e2]
    obtain ⟨L', q1, q2, q3⟩ := qsortLoop_spec hp _ (A ++ S ++ B) A.length (A.length + S.length - 1) []
      (by omega) (by simp only [List.length_append]; omega)
      (by rw [List.length_nil, Nat.pow_zero, Nat.one_mul]; omega) (Or.inl (Nat.le_refl _))
    obtain ⟨S', r1, r2, r3⟩ := segments hs rfl q2 q3
    refine ⟨S', ?_, r2, r3⟩
    rw [q1, qsortLoop, r1]
  · rw [if_neg (by omega)]
    refine ⟨S, rfl, List.Perm.refl _, ?_⟩
    match S, hpos, h1 with
    | [a], _, _ => exact List.pairwise_singleton _ _
    | a :: b :: S, _, h => simp at h

/-- **C38** (`quicksort`): every list shorter than 2^63 elements becomes a sorted permutation of
itself; the loops end and the 64 entries of the range stack suffice. -/
theorem C38_quicksort (cmp : α → α → Int) (hp : Preorder cmp) (list : List α) (hlen : list.length < 2 ^ 63) :
    ∃ out, quicksort cmp list = some out ∧ out.Perm list ∧ Sorted cmp out := by
  by_cases h : list = []
  · subst h
    refine ⟨[], ?_, List.Perm.refl _, List.Pairwise.nil⟩
    unfold quicksort qsort
    rw [if_neg (by simp)]
  · obtain ⟨S', e1, e2, e3⟩ := C38_qsort_range cmp hp [] list [] h hlen
    refine ⟨S', ?_, e2, e3⟩
    simpa [quicksort] using e1

example : ∃ out, quicksort diff [3, 1, 2, 3, 0] = some out ∧ out.Perm [3, 1, 2, 3, 0] ∧ Sorted diff out :=
  C38_quicksort diff diff_preorder _ (by decide)

/-- **C39** as far as it holds: whatever `quickselect` returns is the element of rank `k`, and the list
is permuted only; for lists of 2 to 64 elements it always returns one.

Missing for the full property: lists of one element (`C39_single`) and longer ones (`C39_gives_up`),
where `NOT_FOUND` is returned. -/
theorem C39_rank_partial (cmp : α → α → Int) (hp : Preorder cmp) (list : List α) (k : Nat) (hk : k < list.length) :
    ∃ out r, quickselect cmp list k = some (out, r) ∧ out.Perm list ∧
      (∀ v, r = some v → ∃ s : List α, s.Perm list ∧ Sorted cmp s ∧ s[k]? = some v) ∧
      (2 ≤ list.length → list.length ≤ 64 → ∃ v, r = some v) := by
  unfold quickselect qselect
  rw [if_neg (by omega)]
  by_cases h2 : 2 ≤ list.length
  · rw [if_pos (by omega)]
    obtain ⟨L', r, e1, e2, e3, e4⟩ := qselectLoop_spec hp k 64 list 0 ((list.length : Int) - 1) (by omega) (by omega)
      (by omega) (by omega) ⟨fun i j hi => by omega, fun i j hi hj x y hx hy => by
        have := lt_of_get hy; omega⟩
    refine ⟨L', r, e1, e2, ?_, fun _ h => e4 (by omega)⟩
    intro v hv
    obtain ⟨f1, f2, f3⟩ := e3 v hv
    have hkl := lt_of_get f1
    have hsplit : L' = L'.take k ++ v :: L'.drop (k + 1) := by
      have h := List.take_append_drop k L'
      rw [List.drop_eq_getElem_cons hkl] at h
      rw [List.getElem?_eq_getElem hkl, Option.some.injEq] at f1
      rw [f1] at h
      exact h.symm
    let le : α → α → Bool := fun a b => decide (cmp a b ≤ 0)
    have htr : ∀ a b c, le a b = true → le b c = true → le a c = true := by
      intro a b c h1 h2
      simp only [le, decide_eq_true_eq] at h1 h2 ⊢
      exact hp.trans a b c h1 h2
    have htot : ∀ a b, (le a b || le b a) = true := by
      intro a b
      simp only [le, Bool.or_eq_true, decide_eq_true_eq]
      have := hp.sym b a
      omega
    have hmem : ∀ x ∈ L'.take k, cmp x v ≤ 0 := by
      intro x hx
      obtain ⟨i, hi, rfl⟩ := List.getElem_of_mem hx
      have hik : i < k := by rw [List.length_take] at hi; omega
      exact f2 i hik _ (by rw [← List.getElem?_take_of_lt hik, List.getElem?_eq_getElem hi])
    have hmem2 : ∀ x ∈ L'.drop (k + 1), cmp v x ≤ 0 := by
      intro x hx
      obtain ⟨i, hi, rfl⟩ := List.getElem_of_mem hx
      exact f3 (k + 1 + i) (by omega) _ (by rw [← List.getElem?_drop, List.getElem?_eq_getElem hi])
    refine ⟨(L'.take k).mergeSort le ++ v :: (L'.drop (k + 1)).mergeSort le, ?_, ?_, ?_⟩
    · refine List.Perm.trans ?_ e2
      conv_rhs => rw [hsplit]
      exact (List.mergeSort_perm _ _).append ((List.mergeSort_perm _ _).cons v)
    · have conv : ∀ l : List α, l.Pairwise (fun a b => le a b = true) → Sorted cmp l := by
        intro l h
        exact h.imp (fun h => by simpa [le] using h)
      refine List.pairwise_append.2 ⟨conv _ (List.pairwise_mergeSort htr htot _),
        List.pairwise_cons.2 ⟨?_, conv _ (List.pairwise_mergeSort htr htot _)⟩, ?_⟩
      · intro a ha
        exact hmem2 a (List.mem_mergeSort.1 ha)
      · intro a ha b hb
        have h1 := hmem a (List.mem_mergeSort.1 ha)
        rcases List.mem_cons.1 hb with rfl | hb
        · exact h1
        · exact hp.trans a v b h1 (hmem2 b (List.mem_mergeSort.1 hb))
    · refine get_mid _ _ _ _ ?_
      rw [List.length_mergeSort, List.length_take]; omega
  · rw [if_neg (by omega)]
    exact ⟨list, none, rfl, List.Perm.refl _, by simp, fun h => absurd h h2⟩

example : ∃ out r, quickselect diff [3, 1, 2] 1 = some (out, r) ∧ ∃ v, r = some v := by
  obtain ⟨out, r, h1, -, -, h4⟩ := C39_rank_partial diff diff_preorder [3, 1, 2] 1 (by decide)
  exact ⟨out, r, h1, h4 (by decide) (by decide)⟩

/-- **C39**, negation: the element of rank 0 of a list of one element is never found. -/
theorem C39_single (cmp : α → α → Int) (a : α) : quickselect cmp [a] 0 = some ([a], none) := by
  unfold quickselect qselect
  rw [if_neg (by simp), if_neg (by simp)]

/-- **C39**, negation: in a sorted list no element of rank 64 or more is found. -/
theorem C39_gives_up (cmp : α → α → Int) (hp : Preorder cmp) (list : List α) (hs : Sorted cmp list) (k : Nat)
    (hk : k < list.length) (h64 : 64 ≤ k) : quickselect cmp list k = some (list, none) := by
  unfold quickselect qselect
  rw [if_neg (by omega), if_pos (by omega)]
  exact qselectLoop_sorted hp list hs k hk 64 0 (by omega)

example : quickselect diff (List.replicate 65 7) 64 = some (List.replicate 65 7, none) :=
  C39_gives_up diff diff_preorder _ (List.pairwise_replicate.2 (Or.inr (by decide))) 64 (by simp) (by omega)

/-- **C40** (`isort` on a range): the positions `low..high-1` (the segment `S`) get sorted, equal
elements stay in order, the other elements stay. -/
theorem C40_isort_range (cmp : α → α → Int) (hp : Preorder cmp) (A S B : List α) :
    ∃ S', isort cmp (A ++ S ++ B) A.length (A.length + S.length) = some (A ++ S' ++ B) ∧
      S'.Perm S ∧ Sorted cmp S' ∧
      ∀ x, S'.filter (fun y => cmp x y == 0) = S.filter (fun y => cmp x y == 0) := by
  obtain ⟨S', e1, e2, e3, e4⟩ := isortLoop_spec hp A B S [] [] List.Pairwise.nil (List.Perm.refl _) (fun _ => rfl)
  refine ⟨S', ?_, by simpa using e3, e2, e4⟩
  simpa [isort] using e1

/-- **C40** (`insertionsort`): every list becomes a sorted permutation of itself that keeps the order
of equal elements. -/
theorem C40_insertionsort (cmp : α → α → Int) (hp : Preorder cmp) (list : List α) :
    ∃ out, insertionsort cmp list = some out ∧ out.Perm list ∧ Sorted cmp out ∧
      ∀ x, out.filter (fun y => cmp x y == 0) = list.filter (fun y => cmp x y == 0) := by
  obtain ⟨S', e1, e2, e3, e4⟩ := C40_isort_range cmp hp [] list []
  exact ⟨S', by simpa [insertionsort] using e1, e2, e3, e4⟩

example : ∃ out, insertionsort diff [3, 1, 2, 3, 0] = some out ∧ Sorted diff out := by
  obtain ⟨out, h1, -, h3, -⟩ := C40_insertionsort diff diff_preorder [3, 1, 2, 3, 0]
  exact ⟨out, h1, h3⟩

/-- **C41** (`binarysearch`): the result is the index of an equal element, or, if there is none, the
position that separates the smaller elements from the larger ones. -/
theorem C41_binarysearch (cmp : α → α → Int) (hp : Preorder cmp) (list : List α) (hs : Sorted cmp list) (x : α) :
    ∃ r, binarysearch cmp list x = some r ∧ r ≤ list.length ∧
      ((∃ y, list[r]? = some y ∧ cmp y x = 0) ∨
       ((∀ y ∈ list.take r, cmp y x < 0) ∧ (∀ y ∈ list.drop r, 0 < cmp y x))) := by
  obtain ⟨r, e1, e2, e3⟩ := bsLoop_spec cmp hp list hs x _ 0 list.length rfl (Nat.zero_le _) (Nat.le_refl _)
    (fun a h => by omega) (fun a h y hy => by have := lt_of_get hy; omega)
  refine ⟨r, e1, e2, e3.imp_right fun ⟨h1, h2⟩ => ⟨fun y hy => ?_, fun y hy => ?_⟩⟩
  · obtain ⟨i, hi, rfl⟩ := List.getElem_of_mem hy
    have hir : i < r := by rw [List.length_take] at hi; omega
    exact h1 i hir _ (by rw [← List.getElem?_take_of_lt hir, List.getElem?_eq_getElem hi])
  · obtain ⟨i, hi, rfl⟩ := List.getElem_of_mem hy
    exact h2 (r + i) (by omega) _ (by rw [← List.getElem?_drop, List.getElem?_eq_getElem hi])

/-- **C41**: an element that is present is found. -/
theorem C41_found (cmp : α → α → Int) (hp : Preorder cmp) (list : List α) (hs : Sorted cmp list) (x z : α)
    (hz : z ∈ list) (hzx : cmp z x = 0) :
    ∃ r y, binarysearch cmp list x = some r ∧ list[r]? = some y ∧ cmp y x = 0 := by
  obtain ⟨r, e1, -, ⟨y, e2, e3⟩ | ⟨h1, h2⟩⟩ := C41_binarysearch cmp hp list hs x
  · exact ⟨r, y, e1, e2, e3⟩
  · rw [← List.take_append_drop r list] at hz
    rcases List.mem_append.1 hz with h | h
    · have := h1 z h; omega
    · have := h2 z h; omega

example : Sorted diff [1, 3, 3, 7] ∧ (3 : Int) ∈ [1, 3, 3, 7] :=
  ⟨by unfold Sorted diff; decide, by decide⟩

/-- **C42** as far as it holds: `is_sorted` tells whether the list is ascending or descending,
provided the comparison returns values between -46340 and 46340.

Missing for the full property: larger results of the comparison, whose product overflows
(`C42_overflow`). -/
theorem C42_is_sorted_partial (cmp : α → α → Int) (hp : Preorder cmp)
    (hb : ∀ x y, -46340 ≤ cmp x y ∧ cmp x y ≤ 46340) (list : List α) :
    ∃ b, is_sorted cmp list = some b ∧ (b = true ↔ Sorted cmp list ∨ Sorted (fun x y => cmp y x) list) := by
  unfold is_sorted
  by_cases h1 : list.length ≤ 1
  · rw [if_pos h1]
    refine ⟨true, rfl, iff_of_true rfl (Or.inl ?_)⟩
    match list, h1 with
    | [], _ => exact List.Pairwise.nil
    | [a], _ => exact List.pairwise_singleton _ _
    | _ :: _ :: _, h => simp at h
  · rw [if_neg h1]
    obtain ⟨o, k, e1, e2, e3, e4⟩ := orderLoop_spec cmp list _ 0 rfl (Nat.zero_le _) (fun a h => by omega)
    rw [e1, Option.bind_eq_bind, Option.bind_some]
    simp only []
    have hasc : Sorted cmp list ↔ ∀ a : Nat, ∀ x y, list[a]? = some x → list[a + 1]? = some y → cmp x y ≤ 0 :=
      sorted_iff_adjacent hp.trans list
    have hdesc : Sorted (fun x y => cmp y x) list ↔
        ∀ a : Nat, ∀ x y, list[a]? = some x → list[a + 1]? = some y → cmp y x ≤ 0 :=
      sorted_iff_adjacent (R := fun x y => cmp y x ≤ 0) (fun x y z h1 h2 => hp.trans z y x h2 h1) list
    by_cases h0 : o = 0
    · rw [if_pos h0]
      refine ⟨true, rfl, iff_of_true rfl (Or.inl (hasc.2 ?_))⟩
      intro a x y hx hy
      have := e3 h0 a x y hx hy
      omega
    · rw [if_neg h0]
      obtain ⟨m, rfl, f1, f2⟩ := e4 h0
      obtain ⟨u, hu⟩ := get_of_lt list (i := m) (by omega)
      obtain ⟨v, hv⟩ := get_of_lt list (i := m + 1) (by omega)
      have huv := f1 u v hu hv
      obtain ⟨b, g1, g2⟩ := checkLoop_spec cmp list o hb (huv ▸ hb u v) _ (m + 1) rfl e2
      refine ⟨b, g1, g2.trans ?_⟩
      rcases Int.lt_or_gt_of_ne h0 with hneg | hpos
      · -- ascending
        have : ¬ Sorted (fun x y => cmp y x) list := by
          intro h
          have h' := hdesc.1 h m u v hu hv
          have := (hp.sym v u).1 h'
          omega
        rw [or_iff_left this, hasc]
        constructor
        · intro h a x y hx hy
          rcases Nat.lt_trichotomy a m with ha | ha | ha
          · have := f2 a ha x y hx hy; omega
          · subst ha; have := f1 x y hx hy; omega
          · have := h a (by omega) x y hx hy
            by_contra hc
            have := Int.mul_neg_of_neg_of_pos hneg (b := cmp x y) (by omega)
            omega
        · intro h a ha x y hx hy
          have := h a x y hx hy
          exact Int.mul_nonneg_of_nonpos_of_nonpos (by omega) this
      · have : ¬ Sorted cmp list := by
          intro h
          have h' := hasc.1 h m u v hu hv
          omega
        rw [or_iff_right this, hdesc]
        constructor
        · intro h a x y hx hy
          apply hp.of_ge
          rcases Nat.lt_trichotomy a m with ha | ha | ha
          · have := f2 a ha x y hx hy; omega
          · subst ha; have := f1 x y hx hy; omega
          · have := h a (by omega) x y hx hy
            by_contra hc
            have := Int.mul_neg_of_pos_of_neg hpos (b := cmp x y) (by omega)
            omega
        · intro h a ha x y hx hy
          have := (hp.sym _ _).1 (h a x y hx hy)
          exact Int.mul_nonneg (by omega) this

/-- A comparison with small results. -/
def sign (a b : Int) : Int := if a < b then -1 else if a = b then 0 else 1

example : Preorder sign ∧ ∀ x y, -46340 ≤ sign x y ∧ sign x y ≤ 46340 := by
  refine ⟨⟨fun x y => ?_, fun x y z => ?_⟩, fun x y => ?_⟩ <;> unfold sign <;> (repeat' split) <;> omega

/-- **C42**, negation: with the difference as comparison (which fits an `int` here) the list
`0, 50000, 0` is reported as sorted. -/
theorem C42_overflow : is_sorted diff [0, 50000, 0] = some true ∧ ¬ Sorted diff [0, 50000, 0] ∧
    ¬ Sorted (fun x y => diff y x) [0, 50000, 0] := by
  refine ⟨?_, by unfold Sorted diff; decide, by unfold Sorted diff; decide⟩
  have h1 : orderLoop diff [0, 50000, 0] 2 0 0 = some (-50000, 1) := by
    rw [orderLoop]; simp [diff]; rw [orderLoop]; simp
  have h2 : checkLoop diff [0, 50000, 0] 2 1 (-50000) = some true := by
    rw [checkLoop]
    have : ¬ mul32 (-50000) (diff 50000 0) < 0 := by decide
    simp only [List.getElem?_cons_succ, List.getElem?_cons_zero, Option.bind_eq_bind, Option.bind_some]
    rw [if_pos (by omega), if_neg this, checkLoop, if_neg (by omega)]
  unfold is_sorted
  rw [if_neg (by simp)]
  show (orderLoop diff [0, 50000, 0] 2 0 0).bind _ = _
  rw [h1, Option.bind_some]
  simp only []
  rw [if_neg (by omega)]
  exact h2

end C3.Sort
