import Verif.Sort.LemmasQs
import Mathlib.Tactic.Linarith

/-! # Helper lemmas for sorting: insertion sort, binary search, `is_sorted` -/

set_option autoImplicit false

namespace C3.Sort

variable {α : Type}

theorem get_mid (a : List α) (x : α) (t : List α) (i : Nat) (h : a.length = i) : (a ++ x :: t)[i]? = some x := by
  rw [List.getElem?_append_right (by omega)]; simp [h]

theorem store_mid' (a : List α) (x v : α) (t : List α) (i : Nat) (h : a.length = i) :
    C3.Codec.store (a ++ x :: t) i v = some (a ++ v :: t) := by
  unfold C3.Codec.store
  rw [if_pos (by rw [List.length_append, List.length_cons]; omega), List.set_append_right _ _ (by omega)]
  simp [h]

/-- The inner loop moves `x` in front of the larger elements at the end of `S`. -/
theorem isortInner_spec (cmp : α → α → Int) (A : List α) : ∀ (n : Nat) (S : List α) (x : α) (B : List α), S.length = n →
    ∃ S1 S2, S = S1 ++ S2 ∧ isortInner cmp (A ++ S ++ x :: B) A.length (A.length + n) = some (A ++ (S1 ++ x :: S2) ++ B) ∧
      (∀ s ∈ S1.getLast?, 0 ≤ cmp x s) ∧ ∀ s ∈ S2, cmp x s < 0
  | 0, S, x, B, h => by
    have : S = [] := List.eq_nil_of_length_eq_zero h
    subst this
    refine ⟨[], [], rfl, ?_, by simp, by simp⟩
    rw [isortInner, if_neg (by omega)]; simp
  | n + 1, S, x, B, h => by
    have hne : S ≠ [] := by intro h'; rw [h'] at h; simp at h
    obtain ⟨S', s, rfl⟩ : ∃ S' s, S = S' ++ [s] := ⟨S.dropLast, S.getLast hne, (List.dropLast_append_getLast hne).symm⟩
    have hn : S'.length = n := by simpa using h
    have e1 : A ++ (S' ++ [s]) ++ x :: B = (A ++ S') ++ s :: (x :: B) := by simp
    have e2 : (A ++ S') ++ s :: (x :: B) = (A ++ S' ++ [s]) ++ x :: B := by simp
    rw [isortInner, if_pos (by omega)]
    have g1 : (A ++ (S' ++ [s]) ++ x :: B)[A.length + (n + 1)]? = some x := by
      rw [e1, e2]; exact get_mid _ _ _ _ (by simp; omega)
    have g2 : (A ++ (S' ++ [s]) ++ x :: B)[A.length + (n + 1) - 1]? = some s := by
      rw [e1]; exact get_mid _ _ _ _ (by simp; omega)
    rw [g1, g2, Option.bind_eq_bind, Option.bind_some, Option.bind_eq_bind, Option.bind_some]
    by_cases hc : cmp x s ≥ 0
    · rw [if_pos hc]
      refine ⟨S' ++ [s], [], by simp, by simp, ?_, by simp⟩
      intro t ht
      rw [List.getLast?_concat] at ht
      simp only [Option.mem_def, Option.some.injEq] at ht
      subst ht; exact hc
    · rw [if_neg hc, e1, e2, store_mid' _ _ _ _ _ (by simp; omega)]
      simp only [Option.bind_eq_bind, Option.bind_some]
      rw [show A ++ S' ++ [s] ++ s :: B = (A ++ S') ++ s :: (s :: B) by simp,
        store_mid' _ _ _ _ _ (by simp; omega), Option.bind_some]
      obtain ⟨S1, S2, q1, q2, q3, q4⟩ := isortInner_spec cmp A n S' x (s :: B) hn
      rw [show A.length + (n + 1) - 1 = A.length + n by omega, q2]
      refine ⟨S1, S2 ++ [s], by rw [q1]; simp, by simp, q3, ?_⟩
      intro t ht
      rcases List.mem_append.1 ht with ht | ht
      · exact q4 t ht
      · rw [List.mem_singleton.1 ht]; omega

/-- Same elements in every class of equal elements, in the same order. -/
def SameClasses (cmp : α → α → Int) (l l' : List α) : Prop :=
  ∀ x, l.filter (fun y => cmp x y == 0) = l'.filter (fun y => cmp x y == 0)

theorem insert_spec {cmp : α → α → Int} (hp : Preorder cmp) (S1 S2 : List α) (x : α)
    (hs : Sorted cmp (S1 ++ S2)) (h1 : ∀ s ∈ S1.getLast?, 0 ≤ cmp x s) (h2 : ∀ s ∈ S2, cmp x s < 0) :
    Sorted cmp (S1 ++ x :: S2) ∧ (S1 ++ x :: S2).Perm (S1 ++ S2 ++ [x]) ∧
      SameClasses cmp (S1 ++ x :: S2) (S1 ++ S2 ++ [x]) := by
  have hS1 : ∀ s ∈ S1, cmp s x ≤ 0 := by
    intro s hs1
    rcases List.eq_nil_or_concat S1 with rfl | ⟨S', t, rfl⟩
    · simp at hs1
    · have ht := h1 t (by simp)
      rw [List.concat_eq_append] at hs1 hs
      rcases List.mem_append.1 hs1 with hm | hm
      · have hst : cmp s t ≤ 0 := by
          have := (List.pairwise_append.1 (List.pairwise_append.1 hs).1).2.2 s hm t (by simp)
          exact this
        exact hp.trans _ _ _ hst (hp.of_ge ht)
      · rw [List.mem_singleton.1 hm]; exact hp.of_ge ht
  obtain ⟨p1, p2, p3⟩ := List.pairwise_append.1 hs
  refine ⟨?_, ?_, ?_⟩
  · refine List.pairwise_append.2 ⟨p1, List.pairwise_cons.2 ⟨fun s h => Int.le_of_lt (h2 s h), p2⟩, ?_⟩
    intro a ha b hb
    rcases List.mem_cons.1 hb with rfl | hb
    · exact hS1 a ha
    · exact p3 a ha b hb
  · rw [List.append_assoc]
    exact List.Perm.append_left S1 (List.perm_append_comm (l₁ := [x]) (l₂ := S2))
  · intro z
    simp only [List.filter_append, List.filter_cons, List.filter_nil, List.append_assoc]
    congr 1
    by_cases hz : (cmp z x == 0) = true
    · have : S2.filter (fun y => cmp z y == 0) = [] := by
        rw [List.filter_eq_nil_iff]
        intro y hy hzy
        have h0 := h2 y hy
        simp only [beq_iff_eq] at hz hzy
        have a : cmp y z ≤ 0 := (hp.sym y z).2 (by omega)
        have b := hp.trans y z x a (by omega)
        have := (hp.sym y x).1 b
        omega
      rw [if_pos hz, if_pos hz, this, List.nil_append]
    · rw [if_neg hz, if_neg hz, List.append_nil]

theorem isortLoop_spec {cmp : α → α → Int} (hp : Preorder cmp) (A C : List α) : ∀ (R D S : List α),
    Sorted cmp S → S.Perm D → SameClasses cmp S D →
    ∃ S', isortLoop cmp (A ++ S ++ (R ++ C)) A.length (A.length + S.length + R.length) (A.length + S.length) =
        some (A ++ S' ++ C) ∧ Sorted cmp S' ∧ S'.Perm (D ++ R) ∧ SameClasses cmp S' (D ++ R)
  | [], D, S, h1, h2, h3 => by
    refine ⟨S, ?_, h1, by simpa using h2, by simpa using h3⟩
    rw [isortLoop, if_neg (by simp)]; simp
  | x :: R, D, S, h1, h2, h3 => by
    rw [isortLoop, if_pos (by simp)]
    obtain ⟨S1, S2, rfl, q2, q3, q4⟩ := isortInner_spec cmp A S.length S x (R ++ C) rfl
    rw [List.cons_append, q2, Option.bind_eq_bind, Option.bind_some]
    obtain ⟨r1, r2, r3⟩ := insert_spec hp S1 S2 x h1 q3 q4
    have hcls : SameClasses cmp (S1 ++ x :: S2) (D ++ [x]) := by
      intro z
      rw [r3 z, List.filter_append, h3 z, ← List.filter_append]
    obtain ⟨S', t1, t2, t3, t4⟩ := isortLoop_spec hp A C R (D ++ [x]) (S1 ++ x :: S2) r1
      (r2.trans (h2.append_right [x])) hcls
    refine ⟨S', ?_, t2, by simpa using t3, by simpa using t4⟩
    rw [← t1]
    congr 1
    · simp only [List.length_append, List.length_cons]; omega
    · simp only [List.length_append, List.length_cons]; omega

/-! ## Binary search -/

theorem bsLoop_spec (cmp : α → α → Int) (hp : Preorder cmp) (L : List α) (hs : Sorted cmp L) (x : α) : ∀ (n i j : Nat), j - i = n → i ≤ j → j ≤ L.length →
    (∀ a : Nat, a < i → ∀ y, L[a]? = some y → cmp y x < 0) →
    (∀ a : Nat, j ≤ a → ∀ y, L[a]? = some y → 0 < cmp y x) →
    ∃ r, bsLoop cmp L x i j = some r ∧ r ≤ L.length ∧ ((∃ y, L[r]? = some y ∧ cmp y x = 0) ∨
      ((∀ a : Nat, a < r → ∀ y, L[a]? = some y → cmp y x < 0) ∧ (∀ a : Nat, r ≤ a → ∀ y, L[a]? = some y → 0 < cmp y x))) := by
  intro n
  induction n using Nat.strongRecOn with
  | ind n ih =>
  intro i j hn hij hj hlo hhi
  have mono : ∀ a b : Nat, a ≤ b → ∀ y z, L[a]? = some y → L[b]? = some z → cmp y z ≤ 0 := by
    intro a b hab y z hy hz
    have ha := lt_of_get hy
    have hb := lt_of_get hz
    rw [List.getElem?_eq_getElem ha, Option.some.injEq] at hy
    rw [List.getElem?_eq_getElem hb, Option.some.injEq] at hz
    by_cases h : a = b
    · subst h
      rw [← hy, ← hz, hp.refl']
    · have := List.pairwise_iff_getElem.1 hs a b ha hb (by omega)
      rw [hy, hz] at this
      exact this
  rw [bsLoop]
  by_cases hlt : i < j
  · rw [if_pos hlt]
    obtain ⟨y, hy⟩ := get_of_lt L (i := i + (j - i) / 2) (by omega)
    simp only [hy, Option.bind_eq_bind, Option.bind_some]
    by_cases h1 : cmp y x > 0
    · rw [if_pos h1]
      refine ih _ (by omega) i _ rfl (by omega) (by omega) hlo ?_
      intro a ha z hz
      have h3 := mono _ a ha y z hy hz
      by_contra hc
      have h4 := hp.trans y z x h3 (by omega)
      omega
    · rw [if_neg h1]
      by_cases h2 : cmp y x < 0
      · rw [if_pos h2]
        refine ih _ (by omega) _ j rfl (by omega) (by omega) ?_ hhi
        intro a ha z hz
        have h3 := mono a _ (by omega) z y hz hy
        by_contra hc
        have h4 : cmp x z ≤ 0 := hp.of_ge (by omega)
        have h5 := hp.trans x z y h4 h3
        have := (hp.sym x y).1 h5
        omega
      · rw [if_neg h2]
        exact ⟨_, rfl, by omega, Or.inl ⟨y, hy, by omega⟩⟩
  · rw [if_neg hlt]
    have : j = i := by omega
    subst this
    exact ⟨j, rfl, hj, Or.inr ⟨hlo, hhi⟩⟩

/-! ## `is_sorted` -/

theorem mul32_exact (a b : Int) (ha : -46340 ≤ a ∧ a ≤ 46340) (hb : -46340 ≤ b ∧ b ≤ 46340) : mul32 a b = a * b := by
  have h1 : a * b ≤ 46340 * 46340 := by nlinarith [ha.1, ha.2, hb.1, hb.2]
  have h2 : -(46340 * 46340) ≤ a * b := by nlinarith [ha.1, ha.2, hb.1, hb.2]
  unfold mul32
  rw [BitVec.toInt_ofInt, Int.bmod_def]
  omega

theorem orderLoop_spec (cmp : α → α → Int) (L : List α) : ∀ (n i : Nat), L.length - 1 - i = n → i ≤ L.length - 1 →
    (∀ a : Nat, a < i → ∀ x y, L[a]? = some x → L[a + 1]? = some y → cmp x y = 0) →
    ∃ o k, orderLoop cmp L (L.length - 1) i 0 = some (o, k) ∧ k ≤ L.length - 1 ∧
      (o = 0 → ∀ a : Nat, ∀ x y, L[a]? = some x → L[a + 1]? = some y → cmp x y = 0) ∧
      (o ≠ 0 → ∃ m, k = m + 1 ∧ (∀ x y, L[m]? = some x → L[m + 1]? = some y → cmp x y = o) ∧
        ∀ a : Nat, a < m → ∀ x y, L[a]? = some x → L[a + 1]? = some y → cmp x y = 0)
  | n, i, hn, hi, h => by
    rw [orderLoop]
    by_cases hlt : i < L.length - 1
    · rw [if_pos ⟨hlt, rfl⟩]
      obtain ⟨x, hx⟩ := get_of_lt L (i := i) (by omega)
      obtain ⟨y, hy⟩ := get_of_lt L (i := i + 1) (by omega)
      rw [hx, hy]
      simp only [Option.bind_eq_bind, Option.bind_some]
      by_cases h0 : cmp x y = 0
      · rw [h0]
        refine orderLoop_spec cmp L (n - 1) (i + 1) (by omega) (by omega) ?_
        intro a ha u v hu hv
        by_cases hai : a = i
        · subst hai
          rw [hx, Option.some.injEq] at hu
          rw [hy, Option.some.injEq] at hv
          rw [← hu, ← hv, h0]
        · exact h a (by omega) u v hu hv
      · rw [orderLoop, if_neg (by omega)]
        refine ⟨_, _, rfl, by omega, fun h => absurd h h0, fun _ => ⟨i, rfl, ?_, h⟩⟩
        intro u v hu hv
        rw [hx, Option.some.injEq] at hu
        rw [hy, Option.some.injEq] at hv
        rw [← hu, ← hv]
    · rw [if_neg (by omega)]
      refine ⟨0, i, rfl, hi, fun _ a x y hx hy => h a ?_ x y hx hy, fun h => absurd rfl h⟩
      have := lt_of_get hy
      omega
termination_by n => n

theorem checkLoop_spec (cmp : α → α → Int) (L : List α) (o : Int) (hb : ∀ x y, -46340 ≤ cmp x y ∧ cmp x y ≤ 46340)
    (ho : -46340 ≤ o ∧ o ≤ 46340) : ∀ (n i : Nat), L.length - 1 - i = n → i ≤ L.length - 1 →
    ∃ b, checkLoop cmp L (L.length - 1) i o = some b ∧
      (b = true ↔ ∀ a : Nat, i ≤ a → ∀ x y, L[a]? = some x → L[a + 1]? = some y → 0 ≤ o * cmp x y)
  | n, i, hn, hi => by
    rw [checkLoop]
    by_cases hlt : i < L.length - 1
    · rw [if_pos hlt]
      obtain ⟨x, hx⟩ := get_of_lt L (i := i) (by omega)
      obtain ⟨y, hy⟩ := get_of_lt L (i := i + 1) (by omega)
      rw [hx, hy]
      simp only [Option.bind_eq_bind, Option.bind_some]
      rw [mul32_exact o _ ho (hb x y)]
      by_cases h0 : o * cmp x y < 0
      · rw [if_pos h0]
        refine ⟨false, rfl, ?_⟩
        simp only [Bool.false_eq_true, false_iff]
        intro h
        have := h i (Nat.le_refl _) x y hx hy
        omega
      · rw [if_neg h0]
        obtain ⟨b, e1, e2⟩ := checkLoop_spec cmp L o hb ho (n - 1) (i + 1) (by omega) (by omega)
        refine ⟨b, e1, e2.trans ⟨fun h a ha u v hu hv => ?_, fun h a ha => h a (by omega)⟩⟩
        by_cases hai : a = i
        · subst hai
          rw [hx, Option.some.injEq] at hu
          rw [hy, Option.some.injEq] at hv
          rw [← hu, ← hv]; omega
        · exact h a (by omega) u v hu hv
    · rw [if_neg hlt]
      refine ⟨true, rfl, ?_⟩
      simp only [true_iff]
      intro a ha x y hx hy
      have := lt_of_get hy
      omega
termination_by n => n

/-- Adjacent pairs decide sortedness. -/
theorem sorted_iff_adjacent {R : α → α → Prop} (htr : ∀ x y z, R x y → R y z → R x z) (L : List α) :
    L.Pairwise R ↔ ∀ a : Nat, ∀ x y, L[a]? = some x → L[a + 1]? = some y → R x y := by
  constructor
  · intro h a x y hx hy
    have ha := lt_of_get hx
    have hb := lt_of_get hy
    rw [List.getElem?_eq_getElem ha, Option.some.injEq] at hx
    rw [List.getElem?_eq_getElem hb, Option.some.injEq] at hy
    have := List.pairwise_iff_getElem.1 h a (a + 1) ha hb (by omega)
    rw [hx, hy] at this
    exact this
  · intro h
    rw [List.pairwise_iff_getElem]
    intro i j hi hj hij
    obtain ⟨d, rfl⟩ : ∃ d, j = i + 1 + d := ⟨j - (i + 1), by omega⟩
    clear hij
    induction d with
    | zero => exact h i _ _ (List.getElem?_eq_getElem hi) (List.getElem?_eq_getElem hj)
    | succ d ih =>
      exact htr _ _ _ (ih (by omega)) (h (i + 1 + d) _ _ (List.getElem?_eq_getElem _) (List.getElem?_eq_getElem hj))

end C3.Sort
