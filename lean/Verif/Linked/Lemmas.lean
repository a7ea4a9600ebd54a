import Verif.Linked.Spec

set_option autoImplicit false

namespace C3.Linked

variable {α : Type}

def hd : List (Nat × α) → Nat → Nat
  | [], d => d
  | x :: _, _ => x.1

def lst : Nat → List (Nat × α) → Nat
  | d, [] => d
  | _, x :: r => lst x.1 r

abbrev ptrs (xs : List (Nat × α)) : List Nat := xs.map Prod.fst

/-- The nodes of a stretch of the list. -/
def Seg (h : Heap α) : Nat → List (Nat × α) → Nat → Prop
  | _, [], _ => True
  | prev, x :: r, nxt => h x.1 = some ⟨hd r nxt, prev, x.2⟩ ∧ Seg h x.1 r nxt

theorem hd_append (xs ys : List (Nat × α)) (d : Nat) : hd (xs ++ ys) d = hd xs (hd ys d) := by
  cases xs <;> rfl

theorem lst_append (xs ys : List (Nat × α)) (d : Nat) : lst d (xs ++ ys) = lst (lst d xs) ys := by
  induction xs generalizing d with
  | nil => rfl
  | cons x r ih => exact ih x.1

theorem seg_append (h : Heap α) (xs ys : List (Nat × α)) (prev nxt : Nat) :
    Seg h prev (xs ++ ys) nxt ↔ Seg h prev xs (hd ys nxt) ∧ Seg h (lst prev xs) ys nxt := by
  induction xs generalizing prev with
  | nil => simp [Seg, lst]
  | cons x r ih =>
    simp only [List.cons_append, Seg, lst, hd_append, ih, and_assoc]

theorem seg_congr {h h' : Heap α} {xs : List (Nat × α)} {prev nxt : Nat} (e : ∀ q ∈ ptrs xs, h' q = h q)
    (s : Seg h prev xs nxt) : Seg h' prev xs nxt := by
  induction xs generalizing prev with
  | nil => trivial
  | cons x r ih =>
    refine ⟨?_, ih (fun q hq => e q ?_) s.2⟩
    · rw [e x.1 (by simp)]; exact s.1
    · exact List.mem_cons_of_mem _ hq

theorem seg_live {h : Heap α} {xs : List (Nat × α)} {prev nxt : Nat} (s : Seg h prev xs nxt) :
    ∀ q ∈ ptrs xs, h q ≠ none := by
  induction xs generalizing prev with
  | nil => simp
  | cons x r ih =>
    intro q hq
    rcases List.mem_cons.1 hq with e | e
    · rw [e, s.1]; simp
    · exact ih s.2 q e

theorem lst_mem (d : Nat) (xs : List (Nat × α)) (h : xs ≠ []) : lst d xs ∈ ptrs xs := by
  induction xs generalizing d with
  | nil => exact absurd rfl h
  | cons x r ih =>
    cases r with
    | nil => simp [lst]
    | cons y r => exact List.mem_cons_of_mem _ (ih x.1 (by simp))

theorem hd_zero {xs : List (Nat × α)} (nz : 0 ∉ ptrs xs) : hd xs 0 = 0 ↔ xs = [] := by
  cases xs with
  | nil => simp [hd]
  | cons x r =>
    simp only [ptrs, List.map_cons, List.mem_cons, not_or] at nz
    simp only [hd, reduceCtorEq, iff_false]
    exact fun e => nz.1 e.symm

theorem lst_zero {xs : List (Nat × α)} (nz : 0 ∉ ptrs xs) : lst 0 xs = 0 ↔ xs = [] := by
  constructor
  · intro e
    cases xs with
    | nil => rfl
    | cons x r => exact absurd (e ▸ lst_mem 0 (x :: r) (by simp)) nz
  · intro e; rw [e]; rfl

theorem setNext_eq {h : Heap α} {p n : Nat} {x : Node α} (hx : h p = some x) :
    h.setNext p n = some fun q => if q = p then some { x with next := n } else h q := by
  simp [Heap.setNext, Heap.write, hx]

theorem setPrev_eq {h : Heap α} {p n : Nat} {x : Node α} (hx : h p = some x) :
    h.setPrev p n = some fun q => if q = p then some { x with prev := n } else h q := by
  simp [Heap.setPrev, Heap.write, hx]

theorem freeNode_eq {h : Heap α} {p : Nat} (hx : h p ≠ none) :
    freeNode true h p = some fun q => if q = p then none else h q := by
  cases e : h p with
  | none => exact absurd e hx
  | some x => simp [freeNode, e]

/-- Writing the next pointer of the last node of a stretch. -/
theorem setNext_last {h : Heap α} {xs : List (Nat × α)} {prev nxt : Nat} (n : Nat) (s : Seg h prev xs nxt)
    (nd : (ptrs xs).Nodup) (ne : xs ≠ []) :
    ∃ h', h.setNext (lst prev xs) n = some h' ∧ Seg h' prev xs n ∧ ∀ q, q ∉ ptrs xs → h' q = h q := by
  obtain ⟨r, x, rfl⟩ : ∃ r x, xs = r ++ [x] := ⟨xs.dropLast, xs.getLast ne, (List.dropLast_concat_getLast ne).symm⟩
  have hs := (seg_append h r [x] prev nxt).1 s
  have hx := hs.2.1
  have hl : lst prev (r ++ [x]) = x.1 := by rw [lst_append]; rfl
  rw [hl]
  simp only [ptrs, List.map_append, List.map_cons, List.map_nil, List.nodup_append, List.mem_cons, List.not_mem_nil, or_false] at nd
  refine ⟨_, setNext_eq hx, ?_, ?_⟩
  · refine (seg_append _ r [x] prev n).2 ⟨seg_congr (fun q hq => if_neg ?_) hs.1, ?_, trivial⟩
    · exact fun e => nd.2.2 q hq x.1 rfl e
    · simp only [if_pos, hd]
  · intro q hq
    refine if_neg ?_
    rintro rfl
    exact hq (by simp)

/-- Writing the previous pointer of the first node of a stretch. -/
theorem setPrev_head {h : Heap α} {xs : List (Nat × α)} {prev nxt : Nat} (n : Nat) (s : Seg h prev xs nxt)
    (nd : (ptrs xs).Nodup) (ne : xs ≠ []) (d : Nat) :
    ∃ h', h.setPrev (hd xs d) n = some h' ∧ Seg h' n xs nxt ∧ ∀ q, q ∉ ptrs xs → h' q = h q := by
  cases xs with
  | nil => exact absurd rfl ne
  | cons x r =>
    simp only [ptrs, List.map_cons, List.nodup_cons] at nd
    show ∃ h', h.setPrev x.1 n = some h' ∧ _
    refine ⟨_, setPrev_eq s.1, ⟨?_, seg_congr (fun q hq => if_neg ?_) s.2⟩, ?_⟩
    · exact if_pos rfl
    · rintro rfl; exact nd.1 hq
    · intro q hq
      refine if_neg ?_
      rintro rfl
      exact hq (by simp)

/-- The state holds the nodes, and the memory is otherwise as it was before (`h0`). -/
structure Rep (h0 : Heap α) (s : State α) (xs : List (Nat × α)) : Prop where
  seg : Seg s.heap 0 xs 0
  nodup : (ptrs xs).Nodup
  nz : 0 ∉ ptrs xs
  first : s.list.first = hd xs 0
  last : s.list.last = lst 0 xs
  size : s.list.size = xs.length
  alloc : xs ≠ [] → s.list.allocator = true
  own : ∀ q ∈ ptrs xs, h0 q = none
  frame : ∀ q, q ∉ ptrs xs → s.heap q = h0 q

theorem Rep.fresh {h0 : Heap α} {s : State α} {xs : List (Nat × α)} (r : Rep h0 s xs) {p : Nat} (f : Free s.heap p) :
    p ∉ ptrs xs := fun hp => seg_live r.seg p hp f.2

theorem new_other (h : Heap α) (p : Nat) (v : Node α) (q : Nat) (hq : q ≠ p) : h.new p v q = h q := if_neg hq

theorem new_self (h : Heap α) (p : Nat) (v : Node α) : h.new p v p = some v := if_pos rfl

theorem pushFront_rep {h0 : Heap α} {s : State α} {xs : List (Nat × α)} (r : Rep h0 s xs) {p : Nat} (f : Free s.heap p) (v : α) :
    ∃ s', pushFront s p v = some s' ∧ Rep h0 s' ((p, v) :: xs) := by
  have hp := r.fresh f
  have seg : Seg (s.heap.new p ⟨s.list.first, 0, v⟩) 0 xs 0 :=
    seg_congr (fun q hq => new_other _ _ _ _ (fun e => hp (e ▸ hq))) r.seg
  have own : ∀ q ∈ ptrs ((p, v) :: xs), h0 q = none := by
    intro q hq
    rcases List.mem_cons.1 hq with e | e
    · rw [e, ← r.frame _ hp]; exact f.2
    · exact r.own q e
  have nd : (ptrs ((p, v) :: xs)).Nodup := List.nodup_cons.2 ⟨hp, r.nodup⟩
  have nz : 0 ∉ ptrs ((p, v) :: xs) := fun e => by
    rcases List.mem_cons.1 e with e | e
    · exact f.1 e.symm
    · exact r.nz e
  unfold pushFront
  by_cases hx : xs = []
  · subst hx
    have hf : s.list.first = 0 := r.first
    rw [if_pos hf]
    refine ⟨_, rfl, ⟨?_, trivial⟩, nd, nz, rfl, rfl, ?_, fun _ => rfl, own, ?_⟩
    · show Heap.new _ _ _ p = _
      rw [new_self, hf]; rfl
    · simp [r.size]
    · intro q hq
      exact (new_other _ _ _ _ (fun e => hq (by rw [e]; simp))).trans (r.frame q (by simp))
  · have hf : s.list.first ≠ 0 := fun e => hx ((hd_zero r.nz).1 (r.first ▸ e))
    rw [if_neg hf]
    obtain ⟨h', e, sg, fr⟩ := setPrev_head p seg r.nodup hx 0
    rw [← r.first] at e
    rw [e]
    refine ⟨_, rfl, ⟨?_, sg⟩, nd, nz, rfl, ?_, ?_, fun _ => rfl, own, ?_⟩
    · show h' p = _
      rw [fr p hp, new_self, r.first]
    · show s.list.last = lst 0 ((p, v) :: xs)
      rw [r.last]
      cases xs with
      | nil => exact absurd rfl hx
      | cons => rfl
    · simp [r.size]
    · intro q hq
      have hq1 : q ∉ ptrs xs := fun e => hq (List.mem_cons_of_mem _ e)
      show h' q = _
      rw [fr q hq1, new_other _ _ _ _ (fun e => hq (by rw [e]; simp)), r.frame q hq1]

theorem push_rep {h0 : Heap α} {s : State α} {xs : List (Nat × α)} (r : Rep h0 s xs) {p : Nat} (f : Free s.heap p) (v : α) :
    ∃ s', push s p v = some s' ∧ Rep h0 s' (xs ++ [(p, v)]) := by
  have hp := r.fresh f
  have seg : Seg (s.heap.new p ⟨0, s.list.last, v⟩) 0 xs 0 :=
    seg_congr (fun q hq => new_other _ _ _ _ (fun e => hp (e ▸ hq))) r.seg
  have mem : ∀ q, q ∈ ptrs (xs ++ [(p, v)]) ↔ q ∈ ptrs xs ∨ q = p := by intro q; simp [ptrs]
  have own : ∀ q ∈ ptrs (xs ++ [(p, v)]), h0 q = none := by
    intro q hq
    rcases (mem q).1 hq with e | e
    · exact r.own q e
    · rw [e, ← r.frame _ hp]; exact f.2
  have nd : (ptrs (xs ++ [(p, v)])).Nodup := by
    rw [ptrs, List.map_append, List.nodup_append]
    refine ⟨r.nodup, by simp, ?_⟩
    intro a ha b hb e
    simp at hb
    exact hp (by rw [← hb, ← e]; exact ha)
  have nz : 0 ∉ ptrs (xs ++ [(p, v)]) := fun e => by
    rcases (mem 0).1 e with e | e
    · exact r.nz e
    · exact f.1 e.symm
  unfold push
  by_cases hx : xs = []
  · subst hx
    have hf : s.list.last = 0 := r.last
    rw [if_pos hf]
    refine ⟨_, rfl, ⟨?_, trivial⟩, nd, nz, rfl, rfl, ?_, fun _ => rfl, own, ?_⟩
    · show Heap.new _ _ _ p = _
      rw [new_self, hf]; rfl
    · simp [r.size]
    · intro q hq
      exact (new_other _ _ _ _ (fun e => hq (by rw [e]; simp))).trans (r.frame q (by simp))
  · have hf : s.list.last ≠ 0 := fun e => hx ((lst_zero r.nz).1 (r.last ▸ e))
    rw [if_neg hf]
    obtain ⟨h', e, sg, fr⟩ := setNext_last p seg r.nodup hx
    rw [← r.last] at e
    rw [e]
    refine ⟨_, rfl, (seg_append _ _ _ _ _).2 ⟨sg, ?_, trivial⟩, nd, nz, ?_, ?_, ?_, fun _ => rfl, own, ?_⟩
    · show h' p = _
      rw [fr p hp, new_self, r.last]; rfl
    · show s.list.first = _
      rw [r.first, hd_append]
      cases xs with
      | nil => exact absurd rfl hx
      | cons => rfl
    · rw [lst_append]; rfl
    · simp [r.size]
    · intro q hq
      have hq1 : q ∉ ptrs xs := fun e => hq ((mem q).2 (Or.inl e))
      show h' q = _
      rw [fr q hq1, new_other _ _ _ _ (fun e => hq ((mem q).2 (Or.inr e))), r.frame q hq1]

theorem mem_mid {xs ys : List (Nat × α)} {p : Nat} {v : α} (q : Nat) :
    q ∈ ptrs (xs ++ (p, v) :: ys) ↔ q ∈ ptrs xs ∨ q = p ∨ q ∈ ptrs ys := by
  simp [ptrs]

theorem nodup_mid {xs ys : List (Nat × α)} {p : Nat} {v : α} :
    (ptrs (xs ++ (p, v) :: ys)).Nodup ↔
      (ptrs xs).Nodup ∧ (ptrs ys).Nodup ∧ p ∉ ptrs xs ∧ p ∉ ptrs ys ∧ ∀ q ∈ ptrs xs, q ∉ ptrs ys := by
  rw [ptrs, List.map_append, List.map_cons, List.nodup_append, List.nodup_cons]
  constructor
  · rintro ⟨a, ⟨b, c⟩, d⟩
    refine ⟨a, c, fun e => d p e p (by simp) rfl, b, fun q hq e => d q hq q (List.mem_cons_of_mem _ e) rfl⟩
  · rintro ⟨a, c, d, b, e⟩
    refine ⟨a, ⟨b, c⟩, ?_⟩
    intro q hq t ht eq
    subst eq
    rcases List.mem_cons.1 ht with f | f
    · have f' : q = p := f
      exact d (f' ▸ hq)
    · exact e q hq f

theorem Rep.at {h0 : Heap α} {s : State α} {xs ys : List (Nat × α)} {p : Nat} {v : α} (r : Rep h0 s (xs ++ (p, v) :: ys)) :
    s.heap p = some ⟨hd ys 0, lst 0 xs, v⟩ := ((seg_append _ _ _ _ _).1 r.seg).2.1

theorem unlink_rep {h0 : Heap α} {s : State α} {xs ys : List (Nat × α)} {p : Nat} {v : α} (r : Rep h0 s (xs ++ (p, v) :: ys)) :
    ∃ s', unlink s p = some s' ∧ Rep h0 s' (xs ++ ys) := by
  obtain ⟨ndx, ndy, px, py, dis⟩ := nodup_mid.1 r.nodup
  obtain ⟨sx, sp, sy⟩ := (seg_append _ _ _ _ _).1 r.seg
  have zx : 0 ∉ ptrs xs := fun e => r.nz ((mem_mid 0).2 (Or.inl e))
  have zy : 0 ∉ ptrs ys := fun e => r.nz ((mem_mid 0).2 (Or.inr (Or.inr e)))
  have step1 : ∃ h1, (if lst 0 xs = 0 then some s.heap else s.heap.setNext (lst 0 xs) (hd ys 0)) = some h1 ∧
      Seg h1 0 xs (hd ys 0) ∧ ∀ q, q ∉ ptrs xs → h1 q = s.heap q := by
    by_cases hx : xs = []
    · subst hx
      exact ⟨s.heap, if_pos rfl, trivial, fun _ _ => rfl⟩
    · rw [if_neg (fun e => hx ((lst_zero zx).1 e))]
      exact setNext_last _ sx ndx hx
  obtain ⟨h1, e1, s1, f1⟩ := step1
  have sy1 : Seg h1 p ys 0 := seg_congr (fun q hq => f1 q (fun e => dis q e hq)) sy
  have step2 : ∃ h2, (if hd ys 0 = 0 then some h1 else h1.setPrev (hd ys 0) (lst 0 xs)) = some h2 ∧
      Seg h2 (lst 0 xs) ys 0 ∧ ∀ q, q ∉ ptrs ys → h2 q = h1 q := by
    by_cases hy : ys = []
    · subst hy
      exact ⟨h1, if_pos rfl, trivial, fun _ _ => rfl⟩
    · rw [if_neg (fun e => hy ((hd_zero zy).1 e))]
      exact setPrev_head _ sy1 ndy hy 0
  obtain ⟨h2, e2, s2, f2⟩ := step2
  have live : h2 p ≠ none := by rw [f2 p py, f1 p px, r.at]; simp
  have al : s.list.allocator = true := r.alloc (by simp)
  unfold unlink
  rw [r.at]
  simp only [e1, e2, al, freeNode_eq live]
  refine ⟨_, rfl, (seg_append _ _ _ _ _).2 ⟨?_, ?_⟩, ?_, ?_, ?_, ?_, ?_, fun _ => rfl, ?_, ?_⟩
  · refine seg_congr (fun q hq => ?_) s1
    show (if q = p then none else h2 q) = _
    rw [if_neg (fun e : q = p => px (e ▸ hq)), f2 q (dis q hq)]
  · refine seg_congr (fun q hq => ?_) s2
    show (if q = p then none else h2 q) = _
    rw [if_neg (fun e : q = p => py (e ▸ hq))]
  · rw [ptrs, List.map_append, List.nodup_append]
    exact ⟨ndx, ndy, fun a ha b hb e => dis a ha (e ▸ hb)⟩
  · rw [ptrs, List.map_append, List.mem_append]
    exact fun e => e.elim zx zy
  · show (if lst 0 xs = 0 then hd ys 0 else s.list.first) = hd (xs ++ ys) 0
    rw [hd_append]
    by_cases hx : xs = []
    · subst hx; rfl
    · rw [if_neg (fun e => hx ((lst_zero zx).1 e)), r.first, hd_append]
      cases xs with
      | nil => exact absurd rfl hx
      | cons => rfl
  · show (if hd ys 0 = 0 then lst 0 xs else s.list.last) = lst 0 (xs ++ ys)
    rw [lst_append]
    by_cases hy : ys = []
    · subst hy; rfl
    · rw [if_neg (fun e => hy ((hd_zero zy).1 e)), r.last, lst_append]
      cases ys with
      | nil => exact absurd rfl hy
      | cons => rfl
  · simp [r.size]
  · intro q hq
    refine r.own q ((mem_mid q).2 ?_)
    rw [ptrs, List.map_append, List.mem_append] at hq
    exact hq.elim Or.inl (fun e => Or.inr (Or.inr e))
  · intro q hq
    rw [ptrs, List.map_append, List.mem_append, not_or] at hq
    show (if q = p then none else h2 q) = _
    by_cases e : q = p
    · rw [if_pos e, e]
      exact (r.own p ((mem_mid p).2 (Or.inr (Or.inl rfl)))).symm
    · rw [if_neg e, f2 q hq.2, f1 q hq.1]
      exact r.frame q (fun h => ((mem_mid q).1 h).elim hq.1 (fun h => h.elim e hq.2))

end C3.Linked
