import Verif.PQueue.Lemmas

/-! # Properties of priority queues -/

set_option autoImplicit false

namespace C3.PQueue

variable {α : Type}

theorem bag_perm {max : Bool} {lt : α → α → Bool} : ∀ (ops : List (Op α)) (c d : List α) (rs : List (Res α)),
    c.Perm d → Bag max lt c ops rs → Bag max lt d ops rs
  | [], _, _, _, _, h => h
  | .push x :: ops, c, d, rs, hp, ⟨rs', h1, h2⟩ => ⟨rs', h1, bag_perm ops _ _ rs' (hp.cons x) h2⟩
  | .pop :: ops, c, d, rs, hp, h => by
    rcases h with ⟨h1, rs', h2, h3⟩ | ⟨m, c', rs', h1, h2, h3, h4⟩
    · subst h1
      have : d = [] := List.Perm.nil_eq hp |>.symm
      subst this
      exact .inl ⟨rfl, rs', h2, h3⟩
    · exact .inr ⟨m, c', rs', h1, hp.symm.trans h2, fun y hy => h3 y (hp.symm.subset hy), h4⟩
  | .first :: ops, c, d, rs, hp, h => by
    rcases h with ⟨h1, rs', h2, h3⟩ | ⟨m, rs', h1, h2, h3, h4⟩
    · subst h1
      have : d = [] := List.Perm.nil_eq hp |>.symm
      subst this
      exact .inl ⟨rfl, rs', h2, h3⟩
    · exact .inr ⟨m, rs', h1, hp.subset h2, fun y hy => h3 y (hp.symm.subset hy), bag_perm ops _ _ rs' hp h4⟩
  | .removeAt i :: ops, c, d, rs, hp, ⟨m, c', rs', h1, h2, h3, h4⟩ =>
    ⟨m, c', rs', h1, hp.symm.trans h2, fun y hy => h3 y (hp.symm.subset hy), h4⟩
  | .len :: ops, c, d, rs, hp, ⟨rs', h1, h2⟩ => ⟨rs', by rw [h1, hp.length_eq], bag_perm ops _ _ rs' hp h2⟩

theorem run_bag {max : Bool} {lt : α → α → Bool} (hsw : StrictWeak lt) : ∀ (ops : List (Op α)) (h h' : List α)
    (rs : List (Res α)), IsHeap max lt h → (∀ i, .removeAt i ∈ ops → i = 0) → run max lt h ops = some (h', rs) →
    Bag max lt h ops rs
  | [], h, h', rs, _, _, hr => by
    simp only [run, Option.some.injEq, Prod.mk.injEq] at hr
    exact hr.2.symm
  | op :: ops, h, h', rs, hh, ho, hr => by
    simp only [run, Option.bind_eq_bind, Option.bind_eq_some_iff] at hr
    obtain ⟨⟨h1, r⟩, e1, ⟨h2, rs'⟩, e2, e3⟩ := hr
    simp only [Option.some.injEq, Prod.mk.injEq] at e1 e2 e3
    obtain ⟨rfl, rfl⟩ := e3
    have ho' : ∀ i, .removeAt i ∈ ops → i = 0 := fun i hi => ho i (by simp [hi])
    cases op with
    | push x =>
      obtain ⟨h3, g1, g2, g3⟩ := push_spec (max := max) hsw h x hh
      simp only [step, g1, Option.map_some, Option.some.injEq, Prod.mk.injEq] at e1
      obtain ⟨rfl, rfl⟩ := e1
      exact ⟨rs', rfl, bag_perm ops _ _ rs' g2 (run_bag hsw ops h3 h2 rs' g3 ho' e2)⟩
    | pop =>
      by_cases hne : h = []
      · subst hne
        simp only [step, pop, List.length_nil, if_true, Option.map_some, Option.some.injEq, Prod.mk.injEq] at e1
        obtain ⟨rfl, rfl⟩ := e1
        exact .inl ⟨rfl, rs', rfl, run_bag hsw ops [] h2 rs' hh ho' e2⟩
      · obtain ⟨h3, m, g1, g2, g3, g4⟩ := pop_spec (max := max) hsw h hh hne
        simp only [step, g1, Option.map_some, Option.some.injEq, Prod.mk.injEq] at e1
        obtain ⟨rfl, rfl⟩ := e1
        exact .inr ⟨m, h3, rs', rfl, g2, head_extremal hsw h hh m g3, run_bag hsw ops h3 h2 rs' g4 ho' e2⟩
    | first =>
      simp only [step, Option.some.injEq, Prod.mk.injEq] at e1
      obtain ⟨rfl, rfl⟩ := e1
      cases hm : h.head? with
      | none =>
        have : h = [] := List.head?_eq_none_iff.1 hm
        subst this
        exact .inl ⟨rfl, rs', rfl, run_bag hsw ops [] h2 rs' hh ho' e2⟩
      | some m =>
        exact .inr ⟨m, rs', rfl, List.mem_of_head? hm, head_extremal hsw h hh m hm,
          run_bag hsw ops h h2 rs' hh ho' e2⟩
    | removeAt i =>
      have hi : i = 0 := ho i (by simp)
      subst hi
      by_cases hl : 0 < h.length
      · obtain ⟨h3, m, g1, g2, g3, g4⟩ := pop_spec (max := max) hsw h hh (List.length_pos_iff.1 hl)
        simp only [step, removeAt, hl, not_true, if_false, if_true, g1, Option.bind_eq_bind, Option.bind_some,
          Option.map_some, Option.some.injEq, Prod.mk.injEq] at e1
        obtain ⟨rfl, rfl⟩ := e1
        exact ⟨m, h3, rs', rfl, g2, head_extremal hsw h hh m g3, run_bag hsw ops h3 h2 rs' g4 ho' e2⟩
      · simp [step, removeAt, hl] at e1
    | len =>
      simp only [step, Option.some.injEq, Prod.mk.injEq] at e1
      obtain ⟨rfl, rfl⟩ := e1
      exact ⟨rs', rfl, run_bag hsw ops h h2 rs' hh ho' e2⟩

theorem run_total {max : Bool} {lt : α → α → Bool} (hsw : StrictWeak lt) : ∀ (ops : List (Op α)) (h : List α),
    IsHeap max lt h → (∀ i, .removeAt i ∉ ops) → ∃ h' rs, run max lt h ops = some (h', rs)
  | [], h, _, _ => ⟨h, [], rfl⟩
  | op :: ops, h, hh, ho => by
    have ho' : ∀ i, .removeAt i ∉ ops := fun i hi => ho i (by simp [hi])
    have key : ∃ h1 r, step max lt h op = some (h1, r) ∧ IsHeap max lt h1 := by
      cases op with
      | push x =>
        obtain ⟨h3, g1, g2, g3⟩ := push_spec (max := max) hsw h x hh
        exact ⟨h3, _, by simp [step, g1]; rfl, g3⟩
      | pop =>
        by_cases hne : h = []
        · subst hne; exact ⟨[], _, by simp [step, pop]; rfl, hh⟩
        · obtain ⟨h3, m, g1, g2, g3, g4⟩ := pop_spec (max := max) hsw h hh hne
          exact ⟨h3, _, by simp [step, g1]; rfl, g4⟩
      | first => exact ⟨h, _, rfl, hh⟩
      | removeAt i => exact absurd (List.mem_cons_self ..) (ho i)
      | len => exact ⟨h, _, rfl, hh⟩
    obtain ⟨h1, r, e1, e2⟩ := key
    obtain ⟨h2, rs, e3⟩ := run_total hsw ops h1 e2 ho'
    exact ⟨h2, r :: rs, by simp [run, e1, e3]⟩

/-- C37, with `remove_at` limited to index 0: on a queue that starts empty, for any strict weak order
and any history, `pop` returns an extremal element (minimal for `PriorityQueue`, maximal for
`PriorityQueueMax`) of the elements pushed and not yet removed and removes exactly that one; `first`
shows it; `len` counts them.  Missing: `remove_at` at any other index, for which the claim is false
(`C37_remove_at`). -/
theorem C37_history_partial (max : Bool) (lt : α → α → Bool) (hsw : StrictWeak lt) (ops : List (Op α))
    (ho : ∀ i, .removeAt i ∈ ops → i = 0) (h' : List α) (rs : List (Res α))
    (hr : run max lt [] ops = some (h', rs)) : Bag max lt [] ops rs :=
  run_bag hsw ops [] h' rs (fun _ _ k _ hk => absurd hk (Nat.not_lt_zero k)) ho hr

/-- C37: no history of pushes, pops and lookups faults or fails to terminate. -/
theorem C37_total (max : Bool) (lt : α → α → Bool) (hsw : StrictWeak lt) (ops : List (Op α))
    (ho : ∀ i, .removeAt i ∉ ops) : ∃ h' rs, run max lt [] ops = some (h', rs) :=
  run_total hsw ops [] (fun _ _ k _ hk => absurd hk (Nat.not_lt_zero k)) ho

/-- `<` on the naturals. -/
def natLt (a b : Nat) : Bool := decide (a < b)

theorem natLt_sw : StrictWeak natLt :=
  ⟨fun a b h => by simp [natLt] at *; omega, fun a b c h1 h2 => by simp [natLt] at *; omega⟩

/-- The history of the counterexample: after the pushes `remove_at(1)` removes the element 1; the
elements left are 0, 3, 4, 2, 5. -/
def removeHistory : List (Op Nat) :=
  [.push 0, .push 1, .push 3, .push 4, .push 2, .push 5, .removeAt 1, .pop, .pop]

/-- `siftUp` with a bound on the number of rounds, to compute examples with. -/
def siftUpF (max : Bool) (lt : α → α → Bool) : Nat → List α → Nat → Option (List α)
  | 0, _, _ => none
  | n + 1, h, i =>
    if i > 0 then do
      let item ← h[i]?
      let parentItem ← h[(i - 1) / 2]?
      if !(if max then greater lt item parentItem else lt item parentItem) then some h
      else do
        let h' ← swap h i ((i - 1) / 2)
        siftUpF max lt n h' ((i - 1) / 2)
    else some h

theorem siftUpF_sound {max : Bool} {lt : α → α → Bool} : ∀ (n : Nat) (h : List α) (i : Nat) (r : List α),
    siftUpF max lt n h i = some r → siftUp max lt h i = some r
  | 0, _, _, _, hr => by simp [siftUpF] at hr
  | n + 1, h, i, r, hr => by
    rw [siftUp]
    simp only [siftUpF] at hr
    by_cases hi : i > 0
    · rw [if_pos hi] at hr ⊢
      simp only [Option.bind_eq_bind, Option.bind_eq_some_iff] at hr ⊢
      obtain ⟨a, ha, b, hb, hr⟩ := hr
      refine ⟨a, ha, b, hb, ?_⟩
      generalize (if max then greater lt a b else lt a b) = ok at hr ⊢
      cases ok with
      | false => exact hr
      | true =>
        simp only [Bool.not_true, Bool.false_eq_true, if_false] at hr ⊢
        simp only [Option.bind_eq_some_iff] at hr ⊢
        obtain ⟨h', h1, h2⟩ := hr
        exact ⟨h', h1, siftUpF_sound n h' _ r h2⟩
    · rw [if_neg hi] at hr ⊢; exact hr

/-- `siftDown` with a bound on the number of rounds. -/
def siftDownF (max : Bool) (lt : α → α → Bool) : Nat → List α → Nat → Nat → Option (List α)
  | 0, _, _, _ => none
  | n + 1, h, newCount, i =>
    if 2 * i + 1 < newCount then do
      match ← pick max lt h newCount i with
      | none => some h
      | some j => do
        let h' ← swap h i j
        siftDownF max lt n h' newCount j
    else some h

theorem siftDownF_sound {max : Bool} {lt : α → α → Bool} : ∀ (n : Nat) (h : List α) (c i : Nat) (r : List α),
    siftDownF max lt n h c i = some r → siftDown max lt h c i = some r
  | 0, _, _, _, _, hr => by simp [siftDownF] at hr
  | n + 1, h, c, i, r, hr => by
    rw [siftDown]
    simp only [siftDownF] at hr
    by_cases hi : 2 * i + 1 < c
    · rw [if_pos hi] at hr ⊢
      simp only [Option.bind_eq_bind, Option.bind_eq_some_iff] at hr ⊢
      obtain ⟨a, ha, hr⟩ := hr
      refine ⟨a, ha, ?_⟩
      cases a with
      | none => exact hr
      | some j =>
        simp only [Option.bind_eq_some_iff] at hr ⊢
        obtain ⟨h', h1, h2⟩ := hr
        exact ⟨h', h1, siftDownF_sound n h' c j r h2⟩
    · rw [if_neg hi] at hr ⊢; exact hr

theorem push_of {max : Bool} {lt : α → α → Bool} (n : Nat) {h r : List α} {x : α}
    (hr : siftUpF max lt n (h ++ [x]) h.length = some r) : push max lt h x = some r := by
  unfold push
  rw [show (h ++ [x]).length - 1 = h.length by simp]
  exact siftUpF_sound n _ _ _ hr

theorem pop_of {max : Bool} {lt : α → α → Bool} (n : Nat) {h h1 h2 : List α} (h0 : h.length ≠ 0)
    (hs : swap h 0 (h.length - 1) = some h1) (hr : siftDownF max lt n h1 (h.length - 1) 0 = some h2) :
    pop max lt h = some (h2.dropLast, h2.getLast?) := by
  unfold pop
  rw [if_neg h0]
  simp only [hs, siftDownF_sound n _ _ _ _ hr, Option.bind_eq_bind, Option.bind_some]

/-- C37 fails for `remove_at` at a middle index, which removes the element from the array without
restoring the heap: in this history the second `pop` returns 3 although 2 is still in the queue. -/
theorem C37_remove_at : ∃ h', run false natLt [] removeHistory =
    some (h', [.unit, .unit, .unit, .unit, .unit, .unit, .unit, .value (some 0), .value (some 3)]) ∧ 2 ∈ h' := by
  refine ⟨[2, 5, 4], ?_, by decide⟩
  have p0 : push false natLt [] 0 = some [0] := push_of 9 rfl
  have p1 : push false natLt [0] 1 = some [0, 1] := push_of 9 rfl
  have p2 : push false natLt [0, 1] 3 = some [0, 1, 3] := push_of 9 rfl
  have p3 : push false natLt [0, 1, 3] 4 = some [0, 1, 3, 4] := push_of 9 rfl
  have p4 : push false natLt [0, 1, 3, 4] 2 = some [0, 1, 3, 4, 2] := push_of 9 rfl
  have p5 : push false natLt [0, 1, 3, 4, 2] 5 = some [0, 1, 3, 4, 2, 5] := push_of 9 rfl
  have p6 : removeAt false natLt [0, 1, 3, 4, 2, 5] 1 = some [0, 3, 4, 2, 5] := rfl
  have p7 : pop false natLt [0, 3, 4, 2, 5] = some ([3, 2, 4, 5], some 0) :=
    pop_of 9 (h1 := [5, 3, 4, 2, 0]) (h2 := [3, 2, 4, 5, 0]) (by decide) rfl rfl
  have p8 : pop false natLt [3, 2, 4, 5] = some ([2, 5, 4], some 3) :=
    pop_of 9 (h1 := [5, 2, 4, 3]) (h2 := [2, 5, 4, 3]) (by decide) rfl rfl
  simp only [removeHistory, run, step, p0, p1, p2, p3, p4, p5, p6, p7, p8, Option.map_some, Option.bind_eq_bind,
    Option.bind_some]

-- The hypotheses of the partial theorem are met by a history with duplicates.
example : Bag false natLt [] [.push 2, .push 1, .push 2, .pop, .first]
    [.unit, .unit, .unit, .value (some 1), .value (some 2)] := by
  refine C37_history_partial false natLt natLt_sw _ (by simp) [2, 2] _ ?_
  have p0 : push false natLt [] 2 = some [2] := push_of 9 rfl
  have p1 : push false natLt [2] 1 = some [1, 2] := push_of 9 rfl
  have p2 : push false natLt [1, 2] 2 = some [1, 2, 2] := push_of 9 rfl
  have p3 : pop false natLt [1, 2, 2] = some ([2, 2], some 1) :=
    pop_of 9 (h1 := [2, 2, 1]) (h2 := [2, 2, 1]) (by decide) rfl rfl
  simp only [run, step, p0, p1, p2, p3, Option.map_some, Option.bind_eq_bind, Option.bind_some, List.head?_cons]

end C3.PQueue
