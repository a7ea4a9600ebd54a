import Verif.Sort.Model
import Verif.Sort.Spec
import Mathlib.Data.List.Perm.Basic

/-! # Helper lemmas for sorting: partition -/

set_option autoImplicit false

namespace C3.Sort
open C3.Codec (store)

variable {α : Type}

theorem store_some {l : List α} {i : Nat} (v : α) (h : i < l.length) : store l i v = some (l.set i v) := by
  unfold store; rw [if_pos h]

theorem cons_set_perm : ∀ (l : List α) (k : Nat) (x y : α), k < l.length → (x :: l.set k y).Perm (y :: l.set k x)
  | [], k, x, y, h => by simp at h
  | a :: l, 0, x, y, _ => by simpa using List.Perm.swap y x l
  | a :: l, k + 1, x, y, h => by
    simp only [List.set_cons_succ]
    refine (List.Perm.swap a x _).trans (List.Perm.trans ?_ (List.Perm.swap y a _))
    exact List.Perm.cons a (cons_set_perm l k x y (by simpa using h))

theorem set_set_perm : ∀ (l : List α) (i j : Nat) (x y : α), i ≠ j → i < l.length → j < l.length →
    ((l.set i x).set j y).Perm ((l.set i y).set j x)
  | [], i, j, x, y, _, h, _ => by simp at h
  | a :: l, 0, 0, x, y, h, _, _ => absurd rfl h
  | a :: l, 0, j + 1, x, y, _, _, h => by
    simpa using cons_set_perm l j x y (by simpa using h)
  | a :: l, i + 1, 0, x, y, _, h, _ => by
    simpa using (cons_set_perm l i y x (by simpa using h))
  | a :: l, i + 1, j + 1, x, y, h, hi, hj => by
    simpa using set_set_perm l i j x y (by omega) (by simpa using hi) (by simpa using hj)

/-- Moving the element at `j` into the hole at `i`, so that the hole is at `j`. -/
theorem hole_move (l : List α) (i j : Nat) (x p : α) (hij : i ≠ j) (hi : i < l.length) (hj : l[j]? = some x) :
    ((l.set i x).set j p).Perm (l.set i p) := by
  have hjl : j < l.length := by
    by_contra h
    rw [List.getElem?_eq_none (by omega)] at hj
    simp at hj
  refine (set_set_perm l i j x p hij hi hjl).trans ?_
  rw [List.set_comm _ _ hij]
  have : l.set j x = l := by
    rw [List.getElem?_eq_getElem hjl, Option.some.injEq] at hj
    rw [← hj, List.set_getElem_self]
  rw [this]

theorem get_of_lt (l : List α) {i : Nat} (h : i < l.length) : ∃ x, l[i]? = some x :=
  ⟨l[i], List.getElem?_eq_getElem h⟩

theorem lt_of_get {l : List α} {i : Nat} {x : α} (h : l[i]? = some x) : i < l.length := by
  by_contra hn
  rw [List.getElem?_eq_none (by omega)] at h
  simp at h

theorem scanDown_spec (cmp : α → α → Int) (L : List α) (pivot : α) (l : Nat) : ∀ (n h : Nat), h - l = n → l ≤ h →
    h < L.length → ∃ h', scanDown cmp L pivot l h = some h' ∧ l ≤ h' ∧ h' ≤ h ∧
      (∀ i, h' < i → i ≤ h → ∀ x, L[i]? = some x → 0 ≤ cmp x pivot) ∧
      (l < h' → ∀ x, L[h']? = some x → cmp x pivot < 0)
  | n, h, hn, hl, hh => by
    obtain ⟨x, hx⟩ := get_of_lt L hh
    rw [scanDown, hx, Option.bind_eq_bind, Option.bind_some]
    by_cases hc : cmp x pivot ≥ 0 ∧ l < h
    · rw [if_pos hc]
      obtain ⟨h', e1, e2, e3, e4, e5⟩ := scanDown_spec cmp L pivot l (n - 1) (h - 1) (by omega) (by omega) (by omega)
      refine ⟨h', e1, e2, by omega, ?_, e5⟩
      intro i hi hi' y hy
      by_cases hih : i = h
      · subst hih
        rw [hx, Option.some.injEq] at hy
        subst hy; exact hc.1
      · exact e4 i hi (by omega) y hy
    · rw [if_neg hc]
      refine ⟨h, rfl, hl, Nat.le_refl _, fun i hi hi' => by omega, fun hlt y hy => ?_⟩
      rw [hx, Option.some.injEq] at hy
      subst hy; omega
termination_by n => n

theorem scanUp_spec (cmp : α → α → Int) (L : List α) (pivot : α) (h : Nat) : ∀ (n l : Nat), h - l = n → l ≤ h →
    h < L.length → ∃ l', scanUp cmp L pivot l h = some l' ∧ l ≤ l' ∧ l' ≤ h ∧
      (∀ i, l ≤ i → i < l' → ∀ x, L[i]? = some x → cmp x pivot ≤ 0) ∧
      (l' < h → ∀ x, L[l']? = some x → 0 < cmp x pivot)
  | n, l, hn, hl, hh => by
    obtain ⟨x, hx⟩ := get_of_lt L (i := l) (by omega)
    rw [scanUp, hx, Option.bind_eq_bind, Option.bind_some]
    by_cases hc : cmp x pivot ≤ 0 ∧ l < h
    · rw [if_pos hc]
      obtain ⟨l', e1, e2, e3, e4, e5⟩ := scanUp_spec cmp L pivot h (n - 1) (l + 1) (by omega) (by omega) hh
      refine ⟨l', e1, by omega, e3, ?_, e5⟩
      intro i hi hi' y hy
      by_cases hil : i = l
      · subst hil
        rw [hx, Option.some.injEq] at hy
        subst hy; exact hc.1
      · exact e4 i (by omega) hi' y hy
    · rw [if_neg hc]
      refine ⟨l, rfl, Nat.le_refl _, hl, fun i hi hi' => by omega, fun hlt y hy => ?_⟩
      rw [hx, Option.some.injEq] at hy
      subst hy; omega
termination_by n => n

/-- The state of the partition loop: `L0` is the list at the start, `hole` the position whose element
was moved away (the pivot belongs there). -/
structure Inv (cmp : α → α → Int) (L0 : List α) (lo hi : Nat) (pivot : α) (cur : List α) (l h hole : Nat) : Prop where
  bounds : lo ≤ l ∧ l ≤ h ∧ h ≤ hi ∧ hi < L0.length ∧ lo ≤ hole ∧ hole ≤ hi
  len : cur.length = L0.length
  perm : (cur.set hole pivot).Perm L0
  outside : ∀ i : Nat, i < lo ∨ hi < i → cur[i]? = L0[i]?
  inside : ∀ i : Nat, lo ≤ i → i ≤ hi → i ≠ hole → ∃ j : Nat, lo ≤ j ∧ j ≤ hi ∧ cur[i]? = L0[j]?
  cover : ∀ j : Nat, lo ≤ j → j ≤ hi → L0[j]? = some pivot ∨
    ∃ i : Nat, lo ≤ i ∧ i ≤ hi ∧ i ≠ hole ∧ cur[i]? = L0[j]?
  low : ∀ i : Nat, lo ≤ i → i < l → ∀ x, cur[i]? = some x → cmp x pivot ≤ 0
  high : ∀ i : Nat, h < i → i ≤ hi → i ≠ hole → ∀ x, cur[i]? = some x → 0 ≤ cmp x pivot
  first : l = lo ∨ ∀ x, cur[lo]? = some x → cmp x pivot < 0

theorem partLoop_spec (cmp : α → α → Int) (L0 : List α) (lo hi : Nat) (pivot : α) :
    ∀ (n : Nat) (cur : List α) (l h : Nat), h - l = n → Inv cmp L0 lo hi pivot cur l h l →
    ∃ cur' p, partLoop cmp pivot cur l h = some (cur', p) ∧ Inv cmp L0 lo hi pivot cur' p p p := by
  intro n
  induction n using Nat.strongRecOn with
  | ind n ih =>
  intro cur l h hn inv
  obtain ⟨b1, b2, b3, b4, b5, b6⟩ := inv.bounds
  have hlen := inv.len
  rw [partLoop]
  by_cases hlh : l < h
  · rw [if_pos hlh]
    obtain ⟨h1, s1, s2, s3, s4, s5⟩ := scanDown_spec cmp cur pivot l (h - l) h rfl (by omega) (by omega)
    rw [s1, Option.bind_eq_bind, Option.bind_some]
    by_cases hl1 : l < h1
    · obtain ⟨a, ha⟩ := get_of_lt cur (i := h1) (by omega)
      have ha0 := s5 hl1 a ha
      rw [if_pos hl1, ha]
      simp only [Option.bind_eq_bind, Option.bind_some]
      rw [store_some a (by omega)]
      simp only [Option.bind_some]
      have hlen1 : (cur.set l a).length = L0.length := by rw [List.length_set]; exact hlen
      -- the state with the hole at `h1`
      have get1 : ∀ i : Nat, i ≠ l → (cur.set l a)[i]? = cur[i]? := fun i hi =>
        List.getElem?_set_ne (Ne.symm hi)
      have getl : (cur.set l a)[l]? = some a := by
        rw [List.getElem?_set_self (by omega)]
      have inv1 : Inv cmp L0 lo hi pivot (cur.set l a) (l + 1) h1 h1 := by
        refine ⟨by omega, hlen1, (hole_move cur l h1 a pivot (by omega) (by omega) ha).trans inv.perm, ?_, ?_, ?_, ?_, ?_, ?_⟩
        · intro i hi'; rw [get1 i (by omega)]; exact inv.outside i hi'
        · intro i hi1 hi2 hi3
          by_cases hil : i = l
          · subst hil
            rw [getl, ← ha]
            exact inv.inside h1 (by omega) (by omega) (by omega)
          · rw [get1 i hil]; exact inv.inside i hi1 hi2 hil
        · intro j hj1 hj2
          rcases inv.cover j hj1 hj2 with h' | ⟨i, c1, c2, c3, c4⟩
          · exact Or.inl h'
          · right
            by_cases hih : i = h1
            · subst hih
              exact ⟨l, by omega, by omega, by omega, by rw [getl, ← c4, ha]⟩
            · exact ⟨i, c1, c2, hih, by rw [get1 i c3, c4]⟩
        · intro i hi1 hi2 x hx
          by_cases hil : i = l
          · subst hil
            rw [getl, Option.some.injEq] at hx
            subst hx; omega
          · rw [get1 i hil] at hx; exact inv.low i hi1 (by omega) x hx
        · intro i hi1 hi2 hi3 x hx
          rw [get1 i (by omega)] at hx
          by_cases hih : i ≤ h
          · exact s4 i hi1 hih x hx
          · exact inv.high i (by omega) hi2 (by omega) x hx
        · right
          intro x hx
          by_cases hlo : lo = l
          · rw [hlo, getl, Option.some.injEq] at hx
            subst hx; exact ha0
          · rw [get1 lo hlo] at hx
            rcases inv.first with h' | h'
            · omega
            · exact h' x hx
      obtain ⟨l2, u1, u2, u3, u4, u5⟩ := scanUp_spec cmp (cur.set l a) pivot h1 (h1 - (l + 1)) (l + 1) rfl (by omega) (by omega)
      rw [u1]
      simp only [Option.bind_some]
      have inv2 : Inv cmp L0 lo hi pivot (cur.set l a) l2 h1 h1 := by
        refine ⟨by omega, hlen1, inv1.perm, inv1.outside, inv1.inside, inv1.cover, ?_, inv1.high, ?_⟩
        · intro i hi1 hi2 x hx
          by_cases hil : i < l + 1
          · exact inv1.low i hi1 hil x hx
          · exact u4 i (by omega) hi2 x hx
        · rcases inv1.first with h' | h'
          · omega
          · exact Or.inr h'
      by_cases hl2 : l2 < h1
      · obtain ⟨c, hc⟩ := get_of_lt (cur.set l a) (i := l2) (by omega)
        have hc0 := u5 hl2 c hc
        rw [if_pos hl2, hc]
        simp only [Option.bind_some]
        rw [store_some c (by omega)]
        simp only [Option.bind_some]
        have get2 : ∀ i : Nat, i ≠ h1 → ((cur.set l a).set h1 c)[i]? = (cur.set l a)[i]? := fun i hi =>
          List.getElem?_set_ne (Ne.symm hi)
        have geth : ((cur.set l a).set h1 c)[h1]? = some c := by
          rw [List.getElem?_set_self (by omega)]
        refine ih ((h1 - 1) - l2) (by omega) _ l2 (h1 - 1) rfl ?_
        refine ⟨by omega, by rw [List.length_set]; exact hlen1,
          (hole_move (cur.set l a) h1 l2 c pivot (by omega) (by omega) hc).trans inv2.perm, ?_, ?_, ?_, ?_, ?_, ?_⟩
        · intro i hi'; rw [get2 i (by omega)]; exact inv2.outside i hi'
        · intro i hi1 hi2 hi3
          by_cases hih : i = h1
          · subst hih
            rw [geth, ← hc]
            exact inv2.inside l2 (by omega) (by omega) (by omega)
          · rw [get2 i hih]; exact inv2.inside i hi1 hi2 hih
        · intro j hj1 hj2
          rcases inv2.cover j hj1 hj2 with h' | ⟨i, c1, c2, c3, c4⟩
          · exact Or.inl h'
          · right
            by_cases hih : i = l2
            · subst hih
              exact ⟨h1, by omega, by omega, by omega, by rw [geth, ← c4, hc]⟩
            · exact ⟨i, c1, c2, hih, by rw [get2 i c3, c4]⟩
        · intro i hi1 hi2 x hx
          rw [get2 i (by omega)] at hx
          exact inv2.low i hi1 hi2 x hx
        · intro i hi1 hi2 hi3 x hx
          by_cases hih : i = h1
          · subst hih
            rw [geth, Option.some.injEq] at hx
            subst hx; omega
          · rw [get2 i hih] at hx
            exact inv2.high i (by omega) hi2 hih x hx
        · rcases inv2.first with h' | h'
          · exact Or.inl h'
          · right; intro x hx
            rw [get2 lo (by omega)] at hx
            exact h' x hx
      · rw [if_neg hl2]
        have : l2 = h1 := by omega
        subst this
        exact ih 0 (by omega) _ l2 l2 (by omega) inv2
    · have hl1' : h1 = l := by omega
      subst hl1'
      rw [if_neg hl1]
      simp only [Option.bind_eq_bind, Option.bind_some]
      obtain ⟨l2, u1, u2, u3, u4, u5⟩ := scanUp_spec cmp cur pivot h1 (h1 - h1) h1 rfl (by omega) (by omega)
      have : l2 = h1 := by omega
      subst this
      rw [u1]
      simp only [Option.bind_some]
      rw [if_neg hl1]
      refine ih 0 (by omega) _ l2 l2 (by omega) ⟨by omega, hlen, inv.perm, inv.outside, inv.inside, inv.cover, inv.low, ?_, inv.first⟩
      intro i hi1 hi2 hi3 x hx
      by_cases hih : i ≤ h
      · exact s4 i hi1 hih x hx
      · exact inv.high i (by omega) hi2 hi3 x hx
  · rw [if_neg hlh]
    have : h = l := by omega
    subst this
    exact ⟨cur, h, rfl, inv⟩

/-- `L'` is `L` with the elements of the positions `lo..hi` rearranged. -/
structure Rearr (L L' : List α) (lo hi : Nat) : Prop where
  len : L'.length = L.length
  perm : L'.Perm L
  outside : ∀ i : Nat, i < lo ∨ hi < i → L'[i]? = L[i]?
  inside : ∀ i : Nat, lo ≤ i → i ≤ hi → ∃ j : Nat, lo ≤ j ∧ j ≤ hi ∧ L'[i]? = L[j]?
  cover : ∀ j : Nat, lo ≤ j → j ≤ hi → ∃ i : Nat, lo ≤ i ∧ i ≤ hi ∧ L'[i]? = L[j]?

theorem Rearr.refl (L : List α) (lo hi : Nat) : Rearr L L lo hi :=
  ⟨rfl, List.Perm.refl _, fun _ _ => rfl, fun i h1 h2 => ⟨i, h1, h2, rfl⟩, fun i h1 h2 => ⟨i, h1, h2, rfl⟩⟩

theorem Rearr.trans {L1 L2 L3 : List α} {lo hi : Nat} (h1 : Rearr L1 L2 lo hi) (h2 : Rearr L2 L3 lo hi) :
    Rearr L1 L3 lo hi := by
  refine ⟨h2.len.trans h1.len, h2.perm.trans h1.perm, fun i hi => (h2.outside i hi).trans (h1.outside i hi), ?_, ?_⟩
  · intro i hi1 hi2
    obtain ⟨j, a1, a2, a3⟩ := h2.inside i hi1 hi2
    obtain ⟨k, b1, b2, b3⟩ := h1.inside j a1 a2
    exact ⟨k, b1, b2, a3.trans b3⟩
  · intro i hi1 hi2
    obtain ⟨j, a1, a2, a3⟩ := h1.cover i hi1 hi2
    obtain ⟨k, b1, b2, b3⟩ := h2.cover j a1 a2
    exact ⟨k, b1, b2, b3.trans a3⟩

theorem Rearr.mono {L1 L2 : List α} {lo hi lo' hi' : Nat} (h : Rearr L1 L2 lo hi) (h1 : lo' ≤ lo) (h2 : hi ≤ hi') :
    Rearr L1 L2 lo' hi' := by
  refine ⟨h.len, h.perm, fun i hi => h.outside i (by omega), ?_, ?_⟩
  · intro i hi1 hi2
    by_cases hin : lo ≤ i ∧ i ≤ hi
    · obtain ⟨j, a1, a2, a3⟩ := h.inside i hin.1 hin.2
      exact ⟨j, by omega, by omega, a3⟩
    · exact ⟨i, hi1, hi2, h.outside i (by omega)⟩
  · intro i hi1 hi2
    by_cases hin : lo ≤ i ∧ i ≤ hi
    · obtain ⟨j, a1, a2, a3⟩ := h.cover i hin.1 hin.2
      exact ⟨j, by omega, by omega, a3⟩
    · exact ⟨i, hi1, hi2, h.outside i (by omega)⟩

theorem partition_spec (cmp : α → α → Int) (hc : ∀ x, cmp x x = 0) (L : List α) (lo hi : Nat) (h : lo ≤ hi)
    (hh : hi < L.length) :
    ∃ L' p pivot, partition cmp L lo hi = some (L', p) ∧ lo ≤ p ∧ p ≤ hi ∧ Rearr L L' lo hi ∧
      L'[p]? = some pivot ∧ L[lo]? = some pivot ∧
      (∀ i : Nat, lo ≤ i → i ≤ p → ∀ x, L'[i]? = some x → cmp x pivot ≤ 0) ∧
      (∀ i : Nat, p ≤ i → i ≤ hi → ∀ x, L'[i]? = some x → 0 ≤ cmp x pivot) ∧
      (p = lo ∨ ∀ x, L'[lo]? = some x → cmp x pivot < 0) := by
  obtain ⟨pivot, hp⟩ := get_of_lt L (i := lo) (by omega)
  have hset : L.set lo pivot = L := by
    rw [List.getElem?_eq_getElem (by omega), Option.some.injEq] at hp
    rw [← hp, List.set_getElem_self]
  obtain ⟨cur, p, e1, inv⟩ := partLoop_spec cmp L lo hi pivot (hi - lo) L lo hi rfl
    ⟨by omega, rfl, by rw [hset], fun _ _ => rfl, fun i h1 h2 _ => ⟨i, h1, h2, rfl⟩,
      fun j h1 h2 => by
        by_cases hj : j = lo
        · exact Or.inl (by rw [hj, hp])
        · exact Or.inr ⟨j, h1, h2, hj, rfl⟩,
      fun i h1 h2 => by omega, fun i h1 h2 => by omega, Or.inl rfl⟩
  obtain ⟨b1, b2, b3, b4, b5, b6⟩ := inv.bounds
  have hlen := inv.len
  have get1 : ∀ i : Nat, i ≠ p → (cur.set p pivot)[i]? = cur[i]? := fun i hi => List.getElem?_set_ne (Ne.symm hi)
  have getp : (cur.set p pivot)[p]? = some pivot := by rw [List.getElem?_set_self (by omega)]
  refine ⟨cur.set p pivot, p, pivot, ?_, b1, b3, ⟨by rw [List.length_set]; exact hlen, inv.perm, ?_, ?_, ?_⟩, getp, hp,
    ?_, ?_, ?_⟩
  · unfold partition
    rw [hp, Option.bind_eq_bind, Option.bind_some, e1]
    simp only [Option.bind_eq_bind, Option.bind_some]
    rw [store_some _ (by omega), Option.bind_some]
  · intro i hi'; rw [get1 i (by omega)]; exact inv.outside i hi'
  · intro i hi1 hi2
    by_cases hip : i = p
    · subst hip
      rw [getp, ← hp]
      exact ⟨lo, by omega, by omega, rfl⟩
    · rw [get1 i hip]; exact inv.inside i hi1 hi2 hip
  · intro j hj1 hj2
    rcases inv.cover j hj1 hj2 with h' | ⟨i, c1, c2, c3, c4⟩
    · exact ⟨p, b1, b3, by rw [getp, h']⟩
    · exact ⟨i, c1, c2, by rw [get1 i c3, c4]⟩
  · intro i hi1 hi2 x hx
    by_cases hip : i = p
    · subst hip
      rw [getp, Option.some.injEq] at hx
      subst hx; rw [hc]
    · rw [get1 i hip] at hx; exact inv.low i hi1 (by omega) x hx
  · intro i hi1 hi2 x hx
    by_cases hip : i = p
    · subst hip
      rw [getp, Option.some.injEq] at hx
      subst hx; rw [hc]
    · rw [get1 i hip] at hx; exact inv.high i (by omega) hi2 hip x hx
  · rcases inv.first with h' | h'
    · exact Or.inl h'
    · by_cases hlo : p = lo
      · exact Or.inl hlo
      · right; intro x hx
        rw [get1 lo (Ne.symm hlo)] at hx
        exact h' x hx

end C3.Sort
