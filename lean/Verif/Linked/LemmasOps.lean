import Verif.Linked.Lemmas

set_option autoImplicit false

namespace C3.Linked

variable {α : Type}

theorem linkBefore_rep {h0 : Heap α} {s : State α} {xs ys : List (Nat × α)} {p c : Nat} {w : α}
    (r : Rep h0 s (xs ++ (c, w) :: ys)) (f : Free s.heap p) (v : α) :
    ∃ s', linkBefore s p c v = some s' ∧ Rep h0 s' (xs ++ (p, v) :: (c, w) :: ys) := by
  obtain ⟨ndx, ndy, cx, cy, dis⟩ := nodup_mid.1 r.nodup
  have hp := r.fresh f
  have hpx : p ∉ ptrs xs := fun e => hp ((mem_mid p).2 (Or.inl e))
  have hpc : p ≠ c := fun e => hp ((mem_mid p).2 (Or.inr (Or.inl e)))
  have hpy : p ∉ ptrs ys := fun e => hp ((mem_mid p).2 (Or.inr (Or.inr e)))
  have hpcy : p ∉ ptrs ((c, w) :: ys) := fun e => (List.mem_cons.1 e).elim hpc hpy
  have zx : 0 ∉ ptrs xs := fun e => r.nz ((mem_mid 0).2 (Or.inl e))
  have disc : ∀ q ∈ ptrs xs, q ∉ ptrs ((c, w) :: ys) := by
    intro q hq e
    rcases List.mem_cons.1 e with e | e
    · have e' : q = c := e
      exact cx (e' ▸ hq)
    · exact dis q hq e
  have ndc : (ptrs ((c, w) :: ys)).Nodup := List.nodup_cons.2 ⟨cy, ndy⟩
  obtain ⟨sx, sc⟩ := (seg_append _ _ _ _ _).1 r.seg
  have sc1 : Seg (s.heap.new p ⟨c, lst 0 xs, v⟩) (lst 0 xs) ((c, w) :: ys) 0 :=
    seg_congr (fun q hq => new_other _ _ _ _ (fun e => hpcy (e ▸ hq))) sc
  have sx1 : Seg (s.heap.new p ⟨c, lst 0 xs, v⟩) 0 xs c :=
    seg_congr (fun q hq => new_other _ _ _ _ (fun e => hpx (e ▸ hq))) sx
  obtain ⟨h1, e1, s1, f1⟩ := setPrev_head p sc1 ndc (by simp) 0
  have e1' : (s.heap.new p ⟨c, lst 0 xs, v⟩).setPrev c p = some h1 := e1
  have sx2 : Seg h1 0 xs c := seg_congr (fun q hq => f1 q (disc q hq)) sx1
  have al : s.list.allocator = true := r.alloc (by simp)
  have step2 : ∃ h2, (if lst 0 xs = 0 then some h1 else h1.setNext (lst 0 xs) p) = some h2 ∧
      Seg h2 0 xs p ∧ ∀ q, q ∉ ptrs xs → h2 q = h1 q := by
    by_cases hx : xs = []
    · subst hx
      exact ⟨h1, if_pos rfl, trivial, fun _ _ => rfl⟩
    · rw [if_neg (fun e => hx ((lst_zero zx).1 e))]
      exact setNext_last _ sx2 ndx hx
  obtain ⟨h2, e2, s2, f2⟩ := step2
  have mem : ∀ q, q ∈ ptrs (xs ++ (p, v) :: (c, w) :: ys) ↔ q ∈ ptrs xs ∨ q = p ∨ q ∈ ptrs ((c, w) :: ys) :=
    fun q => mem_mid q
  have fin : Rep h0 ⟨h2, ⟨true, s.list.size + 1, hd (xs ++ (p, v) :: (c, w) :: ys) 0, s.list.last⟩⟩ (xs ++ (p, v) :: (c, w) :: ys) := by
    refine ⟨(seg_append _ _ _ _ _).2 ⟨s2, ?_, ?_⟩, ?_, ?_, rfl, ?_, ?_, fun _ => rfl, ?_, ?_⟩
    · show h2 p = _
      rw [f2 p hpx, f1 p hpcy, new_self]; rfl
    · exact seg_congr (fun q hq => f2 q (fun e => disc q e hq)) s1
    · exact nodup_mid.2 ⟨ndx, ndc, hpx, hpcy, disc⟩
    · intro e
      rcases (mem 0).1 e with e | e | e
      · exact zx e
      · exact f.1 e.symm
      · refine r.nz ((mem_mid 0).2 (Or.inr ?_))
        exact List.mem_cons.1 e
    · show s.list.last = _
      rw [r.last, lst_append, lst_append]; rfl
    · simp [r.size]; omega
    · intro q hq
      rcases (mem q).1 hq with e | e | e
      · exact r.own q ((mem_mid q).2 (Or.inl e))
      · rw [e, ← r.frame p hp]; exact f.2
      · exact r.own q ((mem_mid q).2 (Or.inr (List.mem_cons.1 e)))
    · intro q hq
      have h := fun e => hq ((mem q).2 e)
      show h2 q = _
      rw [f2 q (fun e => h (Or.inl e)), f1 q (fun e => h (Or.inr (Or.inr e))), new_other _ _ _ _ (fun e => h (Or.inr (Or.inl e)))]
      refine r.frame q (fun e => ?_)
      rcases (mem_mid q).1 e with e | e
      · exact h (Or.inl e)
      · exact h (Or.inr (Or.inr (List.mem_cons.2 e)))
  refine ⟨_, ?_, fin⟩
  unfold linkBefore
  rw [r.at]
  simp only [e1']
  by_cases hx : xs = []
  · subst hx
    have : h1 = h2 := by simpa [lst] using e2
    rw [if_pos (show lst 0 ([] : List (Nat × α)) = 0 from rfl), this]; rfl
  · have hn : lst 0 xs ≠ 0 := fun e => hx ((lst_zero zx).1 e)
    rw [if_neg hn] at e2 ⊢
    rw [e2]
    have : s.list.first = hd (xs ++ (p, v) :: (c, w) :: ys) 0 := by
      rw [r.first, hd_append, hd_append]
      cases xs with
      | nil => exact absurd rfl hx
      | cons => rfl
    rw [this]

theorem unlinkFirst_rep {h0 : Heap α} {s : State α} {ys : List (Nat × α)} {p : Nat} {v : α} (r : Rep h0 s ((p, v) :: ys)) :
    ∃ s', unlinkFirst s = some s' ∧ Rep h0 s' ys := by
  have r' : Rep h0 s ([] ++ (p, v) :: ys) := r
  obtain ⟨_, ndy, _, py, _⟩ := nodup_mid.1 r'.nodup
  have zy : 0 ∉ ptrs ys := fun e => r.nz (List.mem_cons_of_mem _ e)
  have al : s.list.allocator = true := r.alloc (by simp)
  have hf : s.list.first = p := r.first
  have hat : s.heap p = some ⟨hd ys 0, 0, v⟩ := r'.at
  have sy : Seg (fun q => if q = p then none else s.heap q) p ys 0 :=
    seg_congr (fun q hq => if_neg (fun e : q = p => py (e ▸ hq))) r.seg.2
  have own : ∀ q ∈ ptrs ys, h0 q = none := fun q hq => r.own q (List.mem_cons_of_mem _ hq)
  have fr : ∀ q, q ∉ ptrs ys → (if q = p then none else s.heap q) = h0 q := by
    intro q hq
    by_cases e : q = p
    · rw [if_pos e, e]; exact (r.own p (by simp)).symm
    · rw [if_neg e]
      exact r.frame q (fun h => (List.mem_cons.1 h).elim e hq)
  unfold unlinkFirst
  rw [hf, hat]
  simp only [al, freeNode_eq (show s.heap p ≠ none by rw [hat]; simp)]
  by_cases hy : ys = []
  · subst hy
    rw [if_pos (show hd ([] : List (Nat × α)) 0 = 0 from rfl)]
    refine ⟨_, rfl, trivial, by simp, by simp, rfl, rfl, ?_, fun h => absurd rfl h, own, fr⟩
    simp [r.size]
  · rw [if_neg (fun e => hy ((hd_zero zy).1 e))]
    obtain ⟨h1, e1, s1, f1⟩ := setPrev_head 0 sy ndy hy 0
    rw [e1]
    refine ⟨_, rfl, s1, ndy, zy, rfl, ?_, ?_, fun _ => rfl, own, ?_⟩
    · show s.list.last = _
      rw [r.last]
      cases ys with
      | nil => exact absurd rfl hy
      | cons => rfl
    · simp [r.size]
    · intro q hq
      show h1 q = _
      rw [f1 q hq]; exact fr q hq

theorem unlinkLast_rep {h0 : Heap α} {s : State α} {xs : List (Nat × α)} {p : Nat} {v : α} (r : Rep h0 s (xs ++ [(p, v)])) :
    ∃ s', unlinkLast s = some s' ∧ Rep h0 s' xs := by
  obtain ⟨ndx, _, px, _, _⟩ := nodup_mid.1 r.nodup
  have zx : 0 ∉ ptrs xs := fun e => r.nz ((mem_mid 0).2 (Or.inl e))
  have al : s.list.allocator = true := r.alloc (by simp)
  have hf : s.list.last = p := by rw [r.last, lst_append]; rfl
  have hat : s.heap p = some ⟨0, lst 0 xs, v⟩ := r.at
  have sx : Seg (fun q => if q = p then none else s.heap q) 0 xs p :=
    seg_congr (fun q hq => if_neg (fun e : q = p => px (e ▸ hq))) ((seg_append _ _ _ _ _).1 r.seg).1
  have own : ∀ q ∈ ptrs xs, h0 q = none := fun q hq => r.own q ((mem_mid q).2 (Or.inl hq))
  have fr : ∀ q, q ∉ ptrs xs → (if q = p then none else s.heap q) = h0 q := by
    intro q hq
    by_cases e : q = p
    · rw [if_pos e, e]; exact (r.own p ((mem_mid p).2 (Or.inr (Or.inl rfl)))).symm
    · rw [if_neg e]
      refine r.frame q (fun h => ?_)
      rcases (mem_mid q).1 h with h | h | h
      · exact hq h
      · exact e h
      · simp at h
  unfold unlinkLast
  rw [hf, hat]
  simp only [al, freeNode_eq (show s.heap p ≠ none by rw [hat]; simp)]
  by_cases hx : xs = []
  · subst hx
    rw [if_pos (show lst 0 ([] : List (Nat × α)) = 0 from rfl)]
    refine ⟨_, rfl, trivial, by simp, by simp, rfl, rfl, ?_, fun h => absurd rfl h, own, fr⟩
    simp [r.size]
  · rw [if_neg (fun e => hx ((lst_zero zx).1 e))]
    obtain ⟨h1, e1, s1, f1⟩ := setNext_last 0 sx ndx hx
    rw [e1]
    refine ⟨_, rfl, s1, ndx, zx, ?_, rfl, ?_, fun _ => rfl, own, ?_⟩
    · show s.list.first = _
      rw [r.first, hd_append]
      cases xs with
      | nil => exact absurd rfl hx
      | cons => rfl
    · simp [r.size]
    · intro q hq
      show h1 q = _
      rw [f1 q hq]; exact fr q hq

theorem walkNext_eq {h : Heap α} {xs ys : List (Nat × α)} {prev nxt : Nat} (s : Seg h prev (xs ++ ys) nxt) :
    walkNext h xs.length (hd (xs ++ ys) nxt) = some (hd ys nxt) := by
  induction xs generalizing prev with
  | nil => rfl
  | cons x r ih =>
    have e : h x.1 = some ⟨hd (r ++ ys) nxt, prev, x.2⟩ := s.1
    show walkNext h (r.length + 1) x.1 = _
    simp only [walkNext, e]
    exact ih s.2

theorem walkPrev_eq {h : Heap α} (n : Nat) {xs ys : List (Nat × α)} {prev nxt : Nat} (hn : ys.length = n)
    (s : Seg h prev (xs ++ ys) nxt) : walkPrev h n (lst prev (xs ++ ys)) = some (lst prev xs) := by
  induction n generalizing ys nxt with
  | zero =>
    have : ys = [] := List.length_eq_zero_iff.1 hn
    subst this
    rw [List.append_nil]; rfl
  | succ n ih =>
    have ne : ys ≠ [] := by rintro rfl; simp at hn
    obtain ⟨r, x, rfl⟩ : ∃ r x, ys = r ++ [x] := ⟨ys.dropLast, ys.getLast ne, (List.dropLast_concat_getLast ne).symm⟩
    rw [← List.append_assoc] at s ⊢
    obtain ⟨s1, s2, _⟩ := (seg_append _ _ _ _ _).1 s
    rw [lst_append]
    show walkPrev h (n + 1) x.1 = _
    simp only [walkPrev, s2]
    exact ih (by simpa using hn) s1

theorem nodeAtIndex_eq {h0 : Heap α} {s : State α} {xs ys : List (Nat × α)} {p : Nat} {v : α}
    (r : Rep h0 s (xs ++ (p, v) :: ys)) : nodeAtIndex s xs.length = some p := by
  have hs : s.list.size = xs.length + (ys.length + 1) := by rw [r.size]; simp
  unfold nodeAtIndex
  rw [if_neg (by omega)]
  by_cases c : xs.length * 2 % 2 ^ 64 ≥ s.list.size
  · rw [if_pos c, r.last]
    have e : xs ++ (p, v) :: ys = (xs ++ [(p, v)]) ++ ys := by simp
    have sg := r.seg
    rw [e] at sg ⊢
    rw [walkPrev_eq (s.list.size - xs.length - 1) (by omega) sg, lst_append]; rfl
  · rw [if_neg c, r.first, walkNext_eq r.seg]; rfl

theorem nodeAtIndex_none {h0 : Heap α} {s : State α} {xs : List (Nat × α)} (r : Rep h0 s xs) {i : Nat} (h : xs.length ≤ i) :
    nodeAtIndex s i = none := if_pos (by rw [r.size]; exact h)

theorem split_at {xs : List (Nat × α)} {i : Nat} (h : i < xs.length) :
    ∃ as p v bs, xs = as ++ (p, v) :: bs ∧ as.length = i := by
  refine ⟨xs.take i, xs[i].1, xs[i].2, xs.drop (i + 1), ?_, ?_⟩
  · have := List.take_append_drop i xs
    rw [List.drop_eq_getElem_cons h] at this
    exact this.symm
  · simp; omega

theorem set_rep {h0 : Heap α} {s : State α} {xs ys : List (Nat × α)} {p : Nat} {w : α}
    (r : Rep h0 s (xs ++ (p, w) :: ys)) (v : α) :
    ∃ s', set s xs.length v = some s' ∧ Rep h0 s' (xs ++ (p, v) :: ys) := by
  obtain ⟨ndx, ndy, px, py, dis⟩ := nodup_mid.1 r.nodup
  obtain ⟨sx, sp, sy⟩ := (seg_append _ _ _ _ _).1 r.seg
  unfold set
  simp only [nodeAtIndex_eq r, r.at, Heap.write]
  refine ⟨_, rfl, (seg_append _ _ _ _ _).2 ⟨?_, ?_, ?_⟩, ?_, ?_, ?_, ?_, ?_, fun _ => r.alloc (by simp), ?_, ?_⟩
  · exact seg_congr (fun q hq => if_neg (fun e : q = p => px (e ▸ hq))) sx
  · exact if_pos rfl
  · exact seg_congr (fun q hq => if_neg (fun e : q = p => py (e ▸ hq))) sy
  · exact nodup_mid.2 ⟨ndx, ndy, px, py, dis⟩
  · exact fun e => r.nz ((mem_mid 0).2 ((mem_mid 0).1 e))
  · show s.list.first = _
    rw [r.first, hd_append, hd_append]; rfl
  · show s.list.last = _
    rw [r.last, lst_append, lst_append]; rfl
  · show s.list.size = _
    rw [r.size]; simp
  · exact fun q e => r.own q ((mem_mid q).2 ((mem_mid q).1 e))
  · intro q hq
    have hq' : q ∉ ptrs (xs ++ (p, w) :: ys) := fun e => hq ((mem_mid q).2 ((mem_mid q).1 e))
    have hqp : q ≠ p := fun e => hq ((mem_mid q).2 (Or.inr (Or.inl e)))
    show (if q = p then _ else s.heap q) = _
    rw [if_neg hqp]
    exact r.frame q hq'

theorem clearLoop_eq {h0 : Heap α} (xs : List (Nat × α)) (h : Heap α) (prev : Nat) (s : Seg h prev xs 0) (nd : (ptrs xs).Nodup)
    (nz : 0 ∉ ptrs xs) (own : ∀ q ∈ ptrs xs, h0 q = none) (fr : ∀ q, q ∉ ptrs xs → h q = h0 q) :
    clearLoop true xs.length h (hd xs 0) = some h0 := by
  induction xs generalizing h prev with
  | nil =>
    have : h = h0 := funext fun q => fr q (by simp)
    simp [clearLoop, hd, this]
  | cons x r ih =>
    have nx : x.1 ∉ ptrs r := (List.nodup_cons.1 nd).1
    have hz : x.1 ≠ 0 := fun e => nz (by rw [← e]; simp)
    show clearLoop true (r.length + 1) h x.1 = _
    unfold clearLoop
    rw [if_neg hz]
    simp only [s.1, freeNode_eq (show h x.1 ≠ none by rw [s.1]; simp)]
    refine ih _ x.1 (seg_congr (fun q hq => if_neg (fun e : q = x.1 => nx (e ▸ hq))) s.2) (List.nodup_cons.1 nd).2
      (fun e => nz (List.mem_cons_of_mem _ e)) (fun q hq => own q (List.mem_cons_of_mem _ hq)) ?_
    intro q hq
    show (if q = x.1 then none else h q) = _
    by_cases e : q = x.1
    · rw [if_pos e, e]; exact (own x.1 (by simp)).symm
    · rw [if_neg e]
      exact fr q (fun hm => (List.mem_cons.1 hm).elim e hq)

theorem clear_rep {h0 : Heap α} {s : State α} {xs : List (Nat × α)} (r : Rep h0 s xs) :
    ∃ s', clear s = some s' ∧ s'.heap = h0 ∧ Rep h0 s' [] := by
  have e : clearLoop s.list.allocator s.list.size s.heap s.list.first = some h0 := by
    rw [r.size, r.first]
    by_cases hx : xs = []
    · subst hx
      have : s.heap = h0 := funext fun q => r.frame q (by simp)
      simp [clearLoop, hd, this]
    · rw [r.alloc hx]
      exact clearLoop_eq xs s.heap 0 r.seg r.nodup r.nz r.own r.frame
  unfold clear
  rw [e]
  exact ⟨_, rfl, rfl, trivial, by simp, by simp, rfl, rfl, rfl, fun h => absurd rfl h, by simp, fun q _ => rfl⟩

theorem removeLoop_rep {h0 : Heap α} (eq : α → Bool) (ys : List (Nat × α)) (fuel : Nat) (xs : List (Nat × α)) (s : State α)
    (r : Rep h0 s (xs ++ ys)) (hf : ys.length ≤ fuel) :
    ∃ s', removeLoop eq fuel s (hd ys 0) = some s' ∧ Rep h0 s' (xs ++ ys.filter fun x => !eq x.2) := by
  induction ys generalizing fuel xs s with
  | nil => exact ⟨s, by unfold removeLoop; exact if_pos rfl, by simpa using r⟩
  | cons y ys ih =>
    obtain ⟨p, v⟩ := y
    cases fuel with
    | zero => simp at hf
    | succ fuel =>
      have hz : p ≠ 0 := fun e => r.nz ((mem_mid 0).2 (Or.inr (Or.inl e.symm)))
      have hl : ys.length ≤ fuel := by simpa using hf
      show ∃ s', removeLoop eq (fuel + 1) s p = some s' ∧ _
      unfold removeLoop
      rw [if_neg hz]
      simp only [r.at]
      by_cases hv : eq v = true
      · rw [if_pos hv]
        obtain ⟨s1, e1, r1⟩ := unlink_rep r
        rw [e1]
        obtain ⟨s2, e2, r2⟩ := ih fuel xs s1 r1 hl
        refine ⟨s2, e2, ?_⟩
        rw [List.filter_cons_of_neg (by simpa using hv)]; exact r2
      · rw [if_neg hv]
        obtain ⟨s2, e2, r2⟩ := ih fuel (xs ++ [(p, v)]) s (by simpa using r) hl
        refine ⟨s2, e2, ?_⟩
        rw [List.filter_cons_of_pos (by simpa using hv)]; simpa using r2

theorem firstMatch_rep {h0 : Heap α} (eq : α → Bool) (ys : List (Nat × α)) (fuel : Nat) (xs : List (Nat × α)) (s : State α)
    (r : Rep h0 s (xs ++ ys)) (hf : ys.length ≤ fuel) :
    ∃ s', firstMatchLoop eq fuel s (hd ys 0) = some (s', ys.any fun x => eq x.2) ∧
      Rep h0 s' (xs ++ ys.eraseP fun x => eq x.2) := by
  induction ys generalizing fuel xs s with
  | nil => exact ⟨s, by unfold firstMatchLoop; exact if_pos rfl, by simpa using r⟩
  | cons y ys ih =>
    obtain ⟨p, v⟩ := y
    cases fuel with
    | zero => simp at hf
    | succ fuel =>
      have hz : p ≠ 0 := fun e => r.nz ((mem_mid 0).2 (Or.inr (Or.inl e.symm)))
      have hl : ys.length ≤ fuel := by simpa using hf
      show ∃ s', firstMatchLoop eq (fuel + 1) s p = some (s', _) ∧ _
      unfold firstMatchLoop
      rw [if_neg hz]
      simp only [r.at]
      by_cases hv : eq v = true
      · rw [if_pos hv]
        obtain ⟨s1, e1, r1⟩ := unlink_rep r
        rw [e1]
        refine ⟨s1, by simp [hv], ?_⟩
        rw [List.eraseP_cons_of_pos (by simpa using hv)]; exact r1
      · rw [if_neg hv]
        obtain ⟨s2, e2, r2⟩ := ih fuel (xs ++ [(p, v)]) s (by simpa using r) hl
        refine ⟨s2, by simpa [hv] using e2, ?_⟩
        rw [List.eraseP_cons_of_neg (by simpa using hv)]; simpa using r2

theorem lastMatch_rep {h0 : Heap α} (eq : α → Bool) (fuel : Nat) (xs ys : List (Nat × α)) (s : State α)
    (r : Rep h0 s (xs ++ ys)) (hf : xs.length ≤ fuel) :
    ∃ s', lastMatchLoop eq fuel s (lst 0 xs) = some (s', xs.any fun x => eq x.2) ∧
      Rep h0 s' ((xs.reverse.eraseP fun x => eq x.2).reverse ++ ys) := by
  induction fuel generalizing xs ys with
  | zero =>
    have : xs = [] := List.length_eq_zero_iff.1 (by omega)
    subst this
    exact ⟨s, by unfold lastMatchLoop; exact if_pos rfl, by simpa using r⟩
  | succ fuel ih =>
    by_cases ne : xs = []
    · subst ne
      exact ⟨s, by unfold lastMatchLoop; exact if_pos rfl, by simpa using r⟩
    · obtain ⟨as, x, rfl⟩ : ∃ r x, xs = r ++ [x] := ⟨xs.dropLast, xs.getLast ne, (List.dropLast_concat_getLast ne).symm⟩
      obtain ⟨p, v⟩ := x
      have r' : Rep h0 s (as ++ (p, v) :: ys) := by simpa using r
      have hz : p ≠ 0 := fun e => r'.nz ((mem_mid 0).2 (Or.inr (Or.inl e.symm)))
      have hl : as.length ≤ fuel := by simpa using hf
      rw [lst_append]
      show ∃ s', lastMatchLoop eq (fuel + 1) s p = some (s', _) ∧ _
      unfold lastMatchLoop
      rw [if_neg hz]
      simp only [r'.at]
      by_cases hv : eq v = true
      · rw [if_pos hv]
        obtain ⟨s1, e1, r1⟩ := unlink_rep r'
        rw [e1]
        refine ⟨s1, by simp [hv], ?_⟩
        rw [List.reverse_append, List.reverse_singleton, List.singleton_append, List.eraseP_cons_of_pos (by simpa using hv)]
        simpa using r1
      · rw [if_neg hv]
        obtain ⟨s2, e2, r2⟩ := ih as ((p, v) :: ys) r' hl
        refine ⟨s2, by simpa [hv] using e2, ?_⟩
        rw [List.reverse_append, List.reverse_singleton, List.singleton_append, List.eraseP_cons_of_neg (by simpa using hv)]
        simpa using r2

end C3.Linked
