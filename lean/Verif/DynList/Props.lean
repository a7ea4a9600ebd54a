import Verif.DynList.LemmasRm

/-! # Properties of `List` -/

set_option autoImplicit false

namespace C3.DynList
open C3.Codec (store)

variable {α : Type}

/-- One call has the effect and the result the specification gives it. -/
theorem step_spec {sz : Nat} {eq : α → α → Bool} {l : DList α} {s s' : List α} {r : Res α} (op : Op α)
    (hw : op.WellFormed) (hf : Fits sz (s.length + op.adds)) (h : Holds l s) (hs : specStep eq s op = some (s', r)) :
    ∃ l', step sz eq l op = some (l', r) ∧ Holds l' s' := by
  obtain ⟨rest, hr⟩ := (holds_iff l s).1 h
  cases op with
  | push x =>
    simp only [specStep, Option.some.injEq, Prod.mk.injEq] at hs
    obtain ⟨rfl, rfl⟩ := hs
    obtain ⟨l', e1, e2⟩ := push_spec x hf hr
    exact ⟨l', by simp [step, e1], e2⟩
  | pop =>
    simp only [specStep, Option.some.injEq, Prod.mk.injEq] at hs
    obtain ⟨rfl, rfl⟩ := hs
    obtain ⟨l', e1, e2⟩ := pop_spec hr
    exact ⟨l', by simp [step, e1], e2⟩
  | popFirst =>
    simp only [specStep, Option.some.injEq, Prod.mk.injEq] at hs
    obtain ⟨rfl, rfl⟩ := hs
    obtain ⟨l', e1, e2⟩ := popFirst_spec hr
    exact ⟨l', by simp [step, e1], e2⟩
  | clear =>
    simp only [specStep, Option.some.injEq, Prod.mk.injEq] at hs
    obtain ⟨rfl, rfl⟩ := hs
    obtain ⟨l', e1, e2⟩ := clear_spec hr
    exact ⟨l', by simp [step, e1], e2⟩
  | removeAt i =>
    simp only [specStep] at hs
    by_cases hi : i < s.length
    · rw [if_pos hi] at hs
      simp only [Option.some.injEq, Prod.mk.injEq] at hs
      obtain ⟨rfl, rfl⟩ := hs
      obtain ⟨l', e1, e2⟩ := removeAt_spec hr hi
      exact ⟨l', by simp [step, e1], e2⟩
    · rw [if_neg hi] at hs; simp at hs
  | addAll other =>
    obtain ⟨t, ht⟩ := hw
    simp only [specStep, toArray_spec ht, Option.map_some, Option.some.injEq, Prod.mk.injEq] at hs
    obtain ⟨rfl, rfl⟩ := hs
    have hsz : other.size = t.length := ht.1
    obtain ⟨l', e1, e2⟩ := addAll_spec ht (by rw [← hsz]; exact hf) hr
    exact ⟨l', by simp [step, e1], e2⟩
  | addArray xs =>
    simp only [specStep, Option.some.injEq, Prod.mk.injEq] at hs
    obtain ⟨rfl, rfl⟩ := hs
    obtain ⟨l', e1, e2⟩ := addArray_spec xs hf hr
    exact ⟨l', by simp [step, e1], e2⟩
  | reverse =>
    simp only [specStep, Option.some.injEq, Prod.mk.injEq] at hs
    obtain ⟨rfl, rfl⟩ := hs
    obtain ⟨l', e1, e2⟩ := reverse_spec hr
    exact ⟨l', by simp [step, e1], e2⟩
  | pushFront x =>
    simp only [specStep, Option.some.injEq, Prod.mk.injEq] at hs
    obtain ⟨rfl, rfl⟩ := hs
    obtain ⟨l', e1, e2⟩ := insertAt_spec (i := 0) x hf hr (Nat.zero_le _)
    exact ⟨l', by simp [step, pushFront, e1], by simpa using e2⟩
  | insertAt i x =>
    simp only [specStep] at hs
    by_cases hi : i ≤ s.length
    · rw [if_pos hi] at hs
      simp only [Option.some.injEq, Prod.mk.injEq] at hs
      obtain ⟨rfl, rfl⟩ := hs
      obtain ⟨l', e1, e2⟩ := insertAt_spec x hf hr hi
      exact ⟨l', by simp [step, e1], e2⟩
    · rw [if_neg hi] at hs; simp at hs
  | setAt i x =>
    simp only [specStep] at hs
    by_cases hi : i < s.length
    · rw [if_pos hi] at hs
      simp only [Option.some.injEq, Prod.mk.injEq] at hs
      obtain ⟨rfl, rfl⟩ := hs
      obtain ⟨l', e1, e2⟩ := setAt_spec x hr hi
      exact ⟨l', by simp [step, e1], e2⟩
    · rw [if_neg hi] at hs; simp at hs
  | removeLast =>
    simp only [specStep, Option.some.injEq, Prod.mk.injEq] at hs
    obtain ⟨rfl, rfl⟩ := hs
    obtain ⟨l', e1, e2⟩ := removeLast_spec hr
    exact ⟨l', by simp [step, e1], e2⟩
  | removeFirst =>
    simp only [specStep, Option.some.injEq, Prod.mk.injEq] at hs
    obtain ⟨rfl, rfl⟩ := hs
    obtain ⟨l', e1, e2⟩ := removeFirst_spec hr
    exact ⟨l', by simp [step, e1], e2⟩
  | first =>
    simp only [specStep, Option.some.injEq, Prod.mk.injEq] at hs
    obtain ⟨rfl, rfl⟩ := hs
    exact ⟨l, by simp [step, first_spec hr], h⟩
  | last =>
    simp only [specStep, Option.some.injEq, Prod.mk.injEq] at hs
    obtain ⟨rfl, rfl⟩ := hs
    exact ⟨l, by simp [step, last_spec hr], h⟩
  | len =>
    simp only [specStep, Option.some.injEq, Prod.mk.injEq] at hs
    obtain ⟨rfl, rfl⟩ := hs
    exact ⟨l, by simp [step, h.1], h⟩
  | get i =>
    simp only [specStep, Option.map_eq_some_iff, Prod.mk.injEq] at hs
    obtain ⟨v, hv, rfl, rfl⟩ := hs
    exact ⟨l, by simp [step, get_spec hr hv], h⟩
  | swap i j =>
    simp only [specStep, Option.bind_eq_bind, Option.bind_eq_some_iff, Option.some.injEq, Prod.mk.injEq] at hs
    obtain ⟨a, ha, b, hb, rfl, rfl⟩ := hs
    obtain ⟨l', e1, e2⟩ := swap_spec hr ha hb
    exact ⟨l', by simp [step, e1], e2⟩
  | removeIf f =>
    simp only [specStep, Option.some.injEq, Prod.mk.injEq] at hs
    obtain ⟨rfl, rfl⟩ := hs
    obtain ⟨l', e1, e2⟩ := removeIf_spec f false hr
    exact ⟨l', by simp [step, e1], by simpa using e2⟩
  | retainIf f =>
    simp only [specStep, Option.some.injEq, Prod.mk.injEq] at hs
    obtain ⟨rfl, rfl⟩ := hs
    obtain ⟨l', e1, e2⟩ := removeIf_spec f true hr
    exact ⟨l', by simp [step, e1], by simpa using e2⟩
  | removeItem x =>
    simp only [specStep, Option.some.injEq, Prod.mk.injEq] at hs
    obtain ⟨rfl, rfl⟩ := hs
    obtain ⟨l', e1, e2⟩ := removeItem_spec eq x hr
    exact ⟨l', by simp [step, e1], e2⟩
  | removeFirstItem x =>
    simp only [specStep, Option.some.injEq, Prod.mk.injEq] at hs
    obtain ⟨rfl, rfl⟩ := hs
    obtain ⟨l', e1, e2⟩ := removeFirstItem_spec eq x hr
    exact ⟨l', by simp [step, e1], e2⟩
  | removeLastItem x =>
    simp only [specStep, Option.some.injEq, Prod.mk.injEq] at hs
    obtain ⟨rfl, rfl⟩ := hs
    obtain ⟨l', e1, e2⟩ := removeLastItem_spec eq x hr
    exact ⟨l', by simp [step, e1], e2⟩
  | indexOf x =>
    simp only [specStep, Option.some.injEq, Prod.mk.injEq] at hs
    obtain ⟨rfl, rfl⟩ := hs
    exact ⟨l, by simp [step, indexOf_spec eq x hr], h⟩
  | rindexOf x =>
    simp only [specStep, Option.some.injEq, Prod.mk.injEq] at hs
    obtain ⟨rfl, rfl⟩ := hs
    exact ⟨l, by simp [step, rindexOf_spec eq x hr], h⟩
  | contains x =>
    simp only [specStep, Option.some.injEq, Prod.mk.injEq] at hs
    obtain ⟨rfl, rfl⟩ := hs
    exact ⟨l, by simp [step, contains_spec eq x hr], h⟩
  | compact isNull =>
    simp only [specStep, Option.some.injEq, Prod.mk.injEq] at hs
    obtain ⟨rfl, rfl⟩ := hs
    obtain ⟨l', e1, e2⟩ := compact_spec isNull hr
    exact ⟨l', by simp [step, e1], e2⟩
  | toArray =>
    simp only [specStep, Option.some.injEq, Prod.mk.injEq] at hs
    obtain ⟨rfl, rfl⟩ := hs
    exact ⟨l, by simp [step, toArray_spec h], h⟩

theorem length_eraseP_le (p : α → Bool) (s : List α) : (s.eraseP p).length ≤ s.length :=
  (List.eraseP_sublist (p := p)).length_le

theorem specStep_length {eq : α → α → Bool} {s s' : List α} {r : Res α} (op : Op α) (hw : op.WellFormed)
    (hs : specStep eq s op = some (s', r)) : s'.length ≤ s.length + op.adds := by
  cases op <;> simp only [specStep, Option.some.injEq, Prod.mk.injEq] at hs
  case addAll other =>
    obtain ⟨t, ht⟩ := hw
    simp only [toArray_spec ht, Option.map_some, Option.some.injEq, Prod.mk.injEq] at hs
    rw [← hs.1]; simp [Op.adds, ht.1]
  case removeAt i =>
    split at hs
    · simp only [Option.some.injEq, Prod.mk.injEq] at hs
      rw [← hs.1, List.length_eraseIdx]; split <;> omega
    · simp at hs
  case insertAt i x =>
    split at hs
    · simp only [Option.some.injEq, Prod.mk.injEq] at hs
      rw [← hs.1]; simp [Op.adds]; omega
    · simp at hs
  case setAt i x =>
    split at hs
    · simp only [Option.some.injEq, Prod.mk.injEq] at hs
      rw [← hs.1]; simp
    · simp at hs
  case get i =>
    simp only [Option.map_eq_some_iff, Prod.mk.injEq] at hs
    obtain ⟨v, hv, rfl, rfl⟩ := hs
    omega
  case swap i j =>
    simp only [Option.bind_eq_bind, Option.bind_eq_some_iff, Option.some.injEq, Prod.mk.injEq] at hs
    obtain ⟨a, ha, b, hb, rfl, rfl⟩ := hs
    simp
  case removeFirstItem x => rw [← hs.1]; exact Nat.le_trans (length_eraseP_le _ _) (Nat.le_add_right _ _)
  case removeLastItem x =>
    rw [← hs.1, List.length_reverse]
    exact Nat.le_trans (length_eraseP_le _ _) (by simp)
  case removeIf f => rw [← hs.1]; exact Nat.le_trans (List.length_filter_le _ _) (Nat.le_add_right _ _)
  case retainIf f => rw [← hs.1]; exact Nat.le_trans (List.length_filter_le _ _) (Nat.le_add_right _ _)
  case removeItem f => rw [← hs.1]; exact Nat.le_trans (List.length_filter_le _ _) (Nat.le_add_right _ _)
  case compact f => rw [← hs.1]; exact Nat.le_trans (List.length_filter_le _ _) (Nat.le_add_right _ _)
  all_goals (rw [← hs.1]; simp [Op.adds])

theorem fits_mono {sz m n : Nat} (h : m ≤ n) (hf : Fits sz n) : Fits sz m :=
  ⟨hf.1, Nat.lt_of_le_of_lt (Nat.mul_le_mul_left _ (by omega)) hf.2⟩

theorem run_spec {sz : Nat} {eq : α → α → Bool} : ∀ (ops : List (Op α)) (l : DList α) (s s' : List α)
    (rs : List (Res α)), (∀ op ∈ ops, op.WellFormed) → Fits sz (s.length + adds ops) → Holds l s →
    specRun eq s ops = some (s', rs) → ∃ l', run sz eq l ops = some (l', rs) ∧ Holds l' s'
  | [], l, s, s', rs, _, _, h, hs => by
    simp only [specRun, Option.some.injEq, Prod.mk.injEq] at hs
    obtain ⟨rfl, rfl⟩ := hs
    exact ⟨l, rfl, h⟩
  | op :: ops, l, s, s', rs, hw, hf, h, hs => by
    simp only [specRun, Option.bind_eq_bind, Option.bind_eq_some_iff] at hs
    obtain ⟨⟨s1, r⟩, h1, ⟨s2, rs'⟩, h2, h3⟩ := hs
    simp only [Option.some.injEq, Prod.mk.injEq] at h2 h3
    obtain ⟨rfl, rfl⟩ := h3
    have hadd : adds (op :: ops) = op.adds + adds ops := by simp [adds]
    rw [hadd] at hf
    have hwop := hw op (by simp)
    obtain ⟨l1, e1, e2⟩ := step_spec op hwop (fits_mono (by omega) hf) h h1
    obtain ⟨l2, g1, g2⟩ := run_spec ops l1 s1 s2 rs' (fun o ho => hw o (by simp [ho]))
      (fits_mono (by have := specStep_length op hwop h1; omega) hf) e2 h2
    refine ⟨l2, ?_, g2⟩
    simp [run, e1, g1]

/-- C35: any history of calls on a `List` that keeps to the calls' preconditions has, call by call,
the results the same history has on a mathematical sequence, ends with the list holding that
sequence, and never accesses a cell outside the allocation or an uninitialised one (those would be
`none`).  `sz` is the size of an element; the bound says that four times the elements ever added,
and 64 more, fit in the address space. -/
theorem C35_history (sz : Nat) (eq : α → α → Bool) (l : DList α) (s s' : List α) (ops : List (Op α))
    (results : List (Res α)) (hl : Holds l s) (hw : ∀ op ∈ ops, op.WellFormed) (hsz : 0 < sz)
    (hbound : sz * (64 + 4 * (s.length + adds ops)) < 2 ^ 64) (hs : specRun eq s ops = some (s', results)) :
    ∃ l', run sz eq l ops = some (l', results) ∧ Holds l' s' :=
  run_spec ops l s s' results hw ⟨hsz, hbound⟩ hl hs

/-- C35, from the start: a zero-initialised list is empty, and so is one set up with `init`. -/
theorem C35_init (sz initialCapacity : Nat) (hsz : 0 < sz) (hb : sz * (64 + 4 * initialCapacity) < 2 ^ 64) :
    Holds (.zero : DList α) [] ∧
      ∃ l : DList α, init sz initialCapacity = some l ∧ Holds l [] ∧ initialCapacity ≤ l.capacity := by
  refine ⟨⟨rfl, rfl, rfl, Nat.le_refl _⟩, ?_⟩
  obtain ⟨rest, e1, e2, _⟩ := reserve_spec (α := α) (s := []) (rest := []) (added := initialCapacity) (sz := sz)
    (l := .zero) ⟨hsz, by simpa using hb⟩ rfl
  exact ⟨_, e1, holds_of_rep rest rfl, by simpa using e2⟩

-- Several growths, shifts in both directions, a removal by predicate.
example : specRun (fun a b => a == b) ([] : List Nat)
    [.push 1, .addArray [2, 3, 4, 5], .insertAt 2 9, .removeAt 0, .reverse, .removeIf (· % 2 == 1), .pop] =
    some ([4], [.unit, .unit, .unit, .unit, .unit, .nat 3, .value (some 2)]) := by
  rfl

theorem addSelfLoop_fault (e : List (Option α)) (len : Nat) : ∀ (n i : Nat) (e : List (Option α)) (index : Nat),
    len - i = n → index ≤ e.length → e.length < index + (len - i) → addSelfLoop len i e index = none
  | n, i, e, index, hn, hle, h => by
    rw [addSelfLoop, if_pos (by omega)]
    cases hv : load e i with
    | none => rfl
    | some v =>
      rw [Option.bind_eq_bind, Option.bind_some]
      unfold store
      by_cases hi : index < e.length
      · rw [if_pos hi, Option.bind_eq_bind, Option.bind_some]
        exact addSelfLoop_fault e len (n - 1) (i + 1) _ (index + 1) (by omega) (by simp; omega) (by simp; omega)
      · rw [if_neg hi]; rfl
termination_by n => n

/-- C35 does not extend to `add_all` of a list to itself: the loop length is read after the size was
doubled, so it writes `2 * size` elements from index `size` on.  Whenever three times the elements do
not fit in the capacity the doubled list was given, the call writes past the allocation. -/
theorem C35_add_all_self (sz : Nat) (l l1 : DList α) (s : List α) (hl : Holds l s) (hne : s ≠ [])
    (hbound : 0 < sz ∧ sz * (64 + 4 * (s.length + s.length)) < 2 ^ 64) (h1 : reserve sz l s.length = some l1)
    (hcap : l1.capacity < 3 * s.length) : addAllSelf sz l = none := by
  obtain ⟨rest, hr⟩ := (holds_iff l s).1 hl
  obtain ⟨rest', e1, e2, _⟩ := reserve_spec (added := s.length) hbound hr
  have hpos : 0 < s.length := List.length_pos_iff.2 hne
  rw [h1, Option.some.injEq] at e1
  have hlsz : l.size = s.length := hl.1
  unfold addAllSelf
  rw [if_neg (by omega), hlsz, h1, Option.bind_eq_bind, Option.bind_some, e1]
  rw [e1] at hcap
  simp only at hcap ⊢
  rw [setSize_pos _ _ _ _ (by omega), Option.bind_eq_bind, Option.bind_some]
  simp only
  rw [addSelfLoop_fault [] (s.length + s.length) _ 0 _ s.length rfl (by simp) (by simp; omega)]
  rfl

/-- A list of 16 elements in 16 cells gets 32 cells, and the call would write up to index 47. -/
example : addAllSelf 4 (⟨16, 16, (List.range 16).map some⟩ : DList Nat) = none := by
  have hl : Holds (⟨16, 16, (List.range 16).map some⟩ : DList Nat) (List.range 16) := by
    refine ⟨by simp, by simp, by simp [List.take_of_length_le], Nat.le_refl _⟩
  have hr : reserve 4 (⟨16, 16, (List.range 16).map some⟩ : DList Nat) 16 =
      some ⟨16, 32, (List.range 16).map some ++ List.replicate 16 none⟩ := by
    have hg : growLoop 32 32 = some 32 := by rw [growLoop, if_neg (by decide)]
    have hp : nextPow2Loop 32 1 = some 32 := by
      iterate 5 rw [nextPow2Loop, if_pos (by decide)]
      rw [nextPow2Loop, if_neg (by decide)]
    simp [reserve, hg, ensureCapacity, hp, realloc, List.take_of_length_le]
  exact C35_add_all_self 4 _ _ _ hl (by simp) (by simp) (by simpa using hr) (by simp)

end C3.DynList
