import Verif.Linked.LemmasOps

set_option autoImplicit false

namespace C3.Linked

variable {α : Type}

abbrev vals (xs : List (Nat × α)) : List α := xs.map Prod.snd

theorem rep_nil {h0 : Heap α} {s : State α} {xs : List (Nat × α)} (r : Rep h0 s xs) : s.list.first = 0 ↔ xs = [] := by
  rw [r.first]; exact hd_zero r.nz

theorem rep_nil_last {h0 : Heap α} {s : State α} {xs : List (Nat × α)} (r : Rep h0 s xs) : s.list.last = 0 ↔ xs = [] := by
  rw [r.last]; exact lst_zero r.nz

theorem split_last {xs : List (Nat × α)} (ne : xs ≠ []) : ∃ as p v, xs = as ++ [(p, v)] :=
  ⟨xs.dropLast, (xs.getLast ne).1, (xs.getLast ne).2, (List.dropLast_concat_getLast ne).symm⟩

/-- One call on a state that holds the nodes does what it does on the sequence. -/
def Agrees (h0 : Heap α) (s : State α) (p : Nat) (xs : List (Nat × α)) (op : Op α) : Prop :=
  match onSequence (vals xs) op with
  | none => exec s p op = none
  | some (vs, o) => ∃ s' xs', exec s p op = some (s', o) ∧ Rep h0 s' xs' ∧ vals xs' = vs

theorem insertAt_rep {h0 : Heap α} {s : State α} {xs : List (Nat × α)} (r : Rep h0 s xs) {p : Nat} (f : Free s.heap p) (v : α)
    {i : Nat} (h : i ≤ xs.length) :
    ∃ s', insertAt s p i v = some s' ∧ Rep h0 s' (xs.take i ++ (p, v) :: xs.drop i) := by
  unfold insertAt
  rw [if_neg (by rw [r.size]; omega)]
  by_cases h1 : i = 0
  · subst h1
    rw [if_pos rfl]
    exact pushFront_rep r f v
  · rw [if_neg h1]
    by_cases h2 : i = s.list.size
    · rw [if_pos h2]
      have : i = xs.length := h2.trans r.size
      rw [this, List.take_length, List.drop_length]
      exact push_rep r f v
    · rw [if_neg h2]
      rw [r.size] at h2
      obtain ⟨as, q, w, bs, rfl, rfl⟩ := split_at (show i < xs.length by omega)
      rw [nodeAtIndex_eq r]
      have e1 : (as ++ (q, w) :: bs).take as.length = as := by simp
      have e2 : (as ++ (q, w) :: bs).drop as.length = (q, w) :: bs := by simp
      rw [e1, e2]
      exact linkBefore_rep r f v

theorem filter_count (l : List α) (f : α → Bool) : l.length - (l.filter fun x => !f x).length = (l.filter f).length := by
  have : (l.filter fun x => !f x).length + (l.filter f).length = l.length := by
    induction l with
    | nil => rfl
    | cons a l ih =>
      cases h : f a <;> simp [h] <;> omega
  omega

theorem vals_eraseP (xs : List (Nat × α)) (eq : α → Bool) : vals (xs.eraseP fun x => eq x.2) = (vals xs).eraseP eq := by
  induction xs with
  | nil => rfl
  | cons x xs ih =>
    cases h : eq x.2
    · rw [List.eraseP_cons_of_neg (by simp [h]), vals, List.map_cons, vals, List.map_cons, List.eraseP_cons_of_neg (by simp [h])]
      exact congrArg _ ih
    · rw [List.eraseP_cons_of_pos (by simp [h])]
      exact (List.eraseP_cons_of_pos (l := vals xs) h).symm

theorem vals_filter (xs : List (Nat × α)) (f : α → Bool) : vals (xs.filter fun x => f x.2) = (vals xs).filter f := by
  rw [vals, vals, List.filter_map]; rfl

theorem vals_any (xs : List (Nat × α)) (f : α → Bool) : (xs.any fun x => f x.2) = (vals xs).any f := by
  rw [vals, List.any_map]; rfl

theorem agrees {h0 : Heap α} {s : State α} {xs : List (Nat × α)} (r : Rep h0 s xs) {p : Nat} (f : Free s.heap p) (op : Op α) :
    Agrees h0 s p xs op := by
  unfold Agrees
  cases op with
  | pushFront v =>
    obtain ⟨s', e, r'⟩ := pushFront_rep r f v
    exact ⟨s', _, by simp [exec, e], r', rfl⟩
  | push v =>
    obtain ⟨s', e, r'⟩ := push_rep r f v
    exact ⟨s', _, by simp [exec, e], r', by simp⟩
  | first =>
    refine ⟨s, xs, ?_, r, rfl⟩
    cases xs with
    | nil =>
      have : s.list.first = 0 := r.first
      simp [exec, first, this, Out.ofRes, Out.ofOption]
    | cons x xs =>
      have hn : s.list.first ≠ 0 := fun e => by simpa using (rep_nil r).1 e
      have e : s.list.first = x.1 := r.first
      simp only [exec, first, if_neg hn]
      rw [e, r.seg.1]; rfl
  | last =>
    refine ⟨s, xs, ?_, r, rfl⟩
    by_cases hx : xs = []
    · subst hx
      have : s.list.last = 0 := r.last
      simp [exec, last, this, Out.ofRes, Out.ofOption]
    · have hn : s.list.last ≠ 0 := fun e => hx ((rep_nil_last r).1 e)
      obtain ⟨as, q, w, rfl⟩ := split_last hx
      have e : s.list.last = q := by rw [r.last, lst_append]; rfl
      simp only [exec, last, if_neg hn]
      rw [e, r.at]
      simp [Out.ofRes, Out.ofOption]
  | clear =>
    obtain ⟨s', e, _, r'⟩ := clear_rep r
    exact ⟨s', [], by simp [exec, e], r', rfl⟩
  | len => exact ⟨s, xs, by simp [exec, len, r.size], r, rfl⟩
  | get i =>
    by_cases h : i < xs.length
    · obtain ⟨as, q, w, bs, rfl, rfl⟩ := split_at h
      have e : (vals (as ++ (q, w) :: bs))[as.length]? = some w := by simp [vals]
      simp only [onSequence, e, Option.map_some]
      refine ⟨s, _, ?_, r, rfl⟩
      simp [exec, get, nodeAtIndex_eq r, r.at]
    · have e : (vals xs)[i]? = none := by simp [vals]; omega
      simp only [onSequence, e, Option.map_none]
      simp [exec, get, nodeAtIndex_none r (show xs.length ≤ i by omega)]
  | set i v =>
    simp only [onSequence]
    by_cases h : i < xs.length
    · rw [if_pos (by simpa using h)]
      obtain ⟨as, q, w, bs, rfl, rfl⟩ := split_at h
      obtain ⟨s', e, r'⟩ := set_rep r v
      refine ⟨s', _, by simp [exec, e], r', ?_⟩
      simp [vals]
    · rw [if_neg (by simpa using h)]
      simp [exec, set, nodeAtIndex_none r (show xs.length ≤ i by omega)]
  | removeAt i =>
    simp only [onSequence]
    by_cases h : i < xs.length
    · rw [if_pos (by simpa using h)]
      obtain ⟨as, q, w, bs, rfl, rfl⟩ := split_at h
      obtain ⟨s', e, r'⟩ := unlink_rep r
      refine ⟨s', _, by simp [exec, removeAt, nodeAtIndex_eq r, e], r', ?_⟩
      have : (vals as).length = as.length := by simp
      simp only [vals, List.map_append, List.map_cons]
      rw [← this, List.eraseIdx_append_of_length_le (by simp)]
      simp
    · rw [if_neg (by simpa using h)]
      simp [exec, removeAt, nodeAtIndex_none r (show xs.length ≤ i by omega)]
  | insertAt i v =>
    simp only [onSequence]
    by_cases h : i ≤ xs.length
    · rw [if_pos (by simpa using h)]
      obtain ⟨s', e, r'⟩ := insertAt_rep r f v h
      exact ⟨s', _, by simp [exec, e], r', by simp [vals, List.map_take, List.map_drop]⟩
    · rw [if_neg (by simpa using h)]
      have : insertAt s p i v = none := if_pos (by rw [r.size]; omega)
      simp [exec, this]
  | remove eq =>
    obtain ⟨s', e, r'⟩ := removeLoop_rep eq xs s.list.size [] s r (by rw [r.size]; exact Nat.le_refl _)
    refine ⟨s', _, ?_, r', vals_filter xs fun v => !eq v⟩
    rw [← r.first] at e
    have hc := filter_count (vals xs) eq
    have hl : s'.list.size = ((vals xs).filter fun v => !eq v).length := by
      rw [r'.size, ← vals_filter]; simp [vals]
    have hs : s.list.size = (vals xs).length := by rw [r.size]; simp
    simp only [exec, remove, e, Option.map_some]
    rw [hl, hs, hc]
  | pop =>
    by_cases hx : xs = []
    · subst hx
      have : s.list.last = 0 := r.last
      exact ⟨s, [], by simp [exec, pop, this, Out.ofRes, Out.ofOption], r, rfl⟩
    · have hn : s.list.last ≠ 0 := fun e => hx ((rep_nil_last r).1 e)
      obtain ⟨as, q, w, rfl⟩ := split_last hx
      have hl : s.list.last = q := by rw [r.last, lst_append]; rfl
      have hat : s.heap s.list.last = some ⟨0, lst 0 as, w⟩ := by rw [hl]; exact r.at
      obtain ⟨s', e, r'⟩ := unlinkLast_rep r
      refine ⟨s', _, ?_, r', by simp [vals]⟩
      simp [exec, pop, hn, hat, e, Out.ofRes, Out.ofOption]
  | isEmpty =>
    refine ⟨s, xs, ?_, r, rfl⟩
    have : isEmpty s = (vals xs).isEmpty := by
      rw [Bool.eq_iff_iff]
      simp [isEmpty, rep_nil r]
    simp [exec, this]
  | popFront =>
    cases xs with
    | nil =>
      have : s.list.first = 0 := r.first
      exact ⟨s, [], by simp [exec, popFront, this, Out.ofRes, Out.ofOption], r, rfl⟩
    | cons x xs =>
      have hn : s.list.first ≠ 0 := fun e => by simpa using (rep_nil r).1 e
      have hat : s.heap s.list.first = some ⟨hd xs 0, 0, x.2⟩ := by rw [r.first]; exact r.seg.1
      obtain ⟨s', e, r'⟩ := unlinkFirst_rep r
      refine ⟨s', _, ?_, r', by simp [vals]⟩
      simp [exec, popFront, hn, hat, e, Out.ofRes, Out.ofOption]
  | removeLast =>
    by_cases hx : xs = []
    · subst hx
      have : s.list.first = 0 := r.first
      exact ⟨s, [], by simp [exec, removeLast, this, Out.ofDone], r, rfl⟩
    · have hn : s.list.first ≠ 0 := fun e => hx ((rep_nil r).1 e)
      obtain ⟨as, q, w, rfl⟩ := split_last hx
      obtain ⟨s', e, r'⟩ := unlinkLast_rep r
      refine ⟨s', _, ?_, r', by simp [vals]⟩
      simp [exec, removeLast, hn, e, Out.ofDone]
  | removeFirst =>
    cases xs with
    | nil =>
      have : s.list.first = 0 := r.first
      exact ⟨s, [], by simp [exec, removeFirst, this, Out.ofDone], r, rfl⟩
    | cons x xs =>
      have hn : s.list.first ≠ 0 := fun e => by simpa using (rep_nil r).1 e
      obtain ⟨s', e, r'⟩ := unlinkFirst_rep r
      refine ⟨s', _, ?_, r', by simp [vals]⟩
      simp [exec, removeFirst, hn, e, Out.ofDone]
  | removeFirstMatch eq =>
    obtain ⟨s', e, r'⟩ := firstMatch_rep eq xs s.list.size [] s r (by rw [r.size]; exact Nat.le_refl _)
    refine ⟨s', _, ?_, r', vals_eraseP xs eq⟩
    rw [← r.first, vals_any] at e
    simp [exec, removeFirstMatch, e]
  | removeLastMatch eq =>
    obtain ⟨s', e, r'⟩ := lastMatch_rep eq s.list.size xs [] s (by simpa using r) (by rw [r.size]; exact Nat.le_refl _)
    refine ⟨s', _, ?_, r', ?_⟩
    · rw [← r.last, vals_any] at e
      simp [exec, removeLastMatch, e]
    · have := vals_eraseP xs.reverse eq
      simp only [vals, List.append_nil, List.map_reverse] at this ⊢
      rw [this]

theorem runs_rep {h0 : Heap α} {s t : State α} {xs : List (Nat × α)} {ops : List (Op α)} {os : List (Out α)}
    (r : Rep h0 s xs) (run : Runs s ops os t) :
    ∃ ys, Rep h0 t ys ∧ onSequenceAll (vals xs) ops = some (vals ys, os) := by
  induction run generalizing xs with
  | nil s => exact ⟨xs, r, rfl⟩
  | @cons s s' t p op o ops os f e _ ih =>
    have a := agrees r f op
    unfold Agrees at a
    cases h : onSequence (vals xs) op with
    | none =>
      rw [h] at a
      rw [a] at e
      exact absurd e (by simp)
    | some w =>
      rw [h] at a
      obtain ⟨vs, o1⟩ := w
      obtain ⟨s1, zs, e1, r1, rfl⟩ := a
      rw [e1] at e
      obtain ⟨rfl, rfl⟩ : s1 = s' ∧ o1 = o := by simpa using e
      obtain ⟨ys, ry, ey⟩ := ih r1
      refine ⟨ys, ry, ?_⟩
      simp [onSequenceAll, h, ey]

theorem rep_start {h : Heap α} {l : LinkedList} (hl : l = zero ∨ l = init) : Rep h ⟨h, l⟩ [] := by
  rcases hl with rfl | rfl <;>
    exact ⟨trivial, by simp, by simp, rfl, rfl, rfl, fun h => absurd rfl h, by simp, fun _ _ => rfl⟩

end C3.Linked
