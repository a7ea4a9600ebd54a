import Verif.Elastic.Spec

set_option autoImplicit false

namespace C3.Elastic

variable {α : Type}

theorem holds_mk {m n : Nat} (s rest : List α) (hn : n = s.length) (h : s.length + rest.length = m) :
    Holds m ⟨n, s ++ rest⟩ s := by
  subst hn
  exact ⟨by simp [h], rfl, by omega, by simp⟩

theorem holds_elim {m : Nat} {a : EA α} {s : List α} (h : Holds m a s) :
    ∃ rest, a = ⟨s.length, s ++ rest⟩ ∧ s.length + rest.length = m := by
  obtain ⟨h1, h2, h3, h4⟩ := h
  refine ⟨a.entries.drop s.length, ?_, ?_⟩
  · obtain ⟨n, e⟩ := a
    simp only at h2 h4 ⊢
    rw [h2]
    congr 1
    rw [← List.take_append_drop s.length e, h4]
    simp
  · rw [List.length_drop]; omega

theorem store_at (p q : List α) (v x : α) {i : Nat} (h : i = p.length) : store (p ++ v :: q) i x = some (p ++ x :: q) := by
  subst h
  simp [store]

theorem get_at (p q : List α) (v : α) {i : Nat} (h : i = p.length) : (p ++ v :: q)[i]? = some v := by
  subst h
  simp

theorem snoc_of_ne {s : List α} (h : s ≠ []) : ∃ t x, s = t ++ [x] :=
  ⟨s.dropLast, s.getLast h, (List.dropLast_concat_getLast h).symm⟩

theorem split_at (s : List α) {i : Nat} (h : i < s.length) : ∃ p x q, s = p ++ x :: q ∧ p.length = i :=
  ⟨s.take i, s[i], s.drop (i + 1), by rw [List.getElem_cons_drop, List.take_append_drop], by simp; omega⟩

theorem pushTry_spec {m : Nat} {a : EA α} {s : List α} (x : α) (h : Holds m a s) :
    ∃ b, pushTry a x = some (b, decide (s.length < m)) ∧ Holds m b (if s.length < m then s ++ [x] else s) := by
  obtain ⟨rest, rfl, hl⟩ := holds_elim h
  cases rest with
  | nil =>
    simp only [List.length_nil, Nat.add_zero] at hl
    refine ⟨_, ?_, by rw [if_neg (by omega)]; exact h⟩
    rw [pushTry, if_pos (by simp), decide_eq_false (by omega)]
  | cons r rest =>
    simp only [List.length_cons] at hl
    refine ⟨⟨s.length + 1, s ++ x :: rest⟩, ?_, ?_⟩
    · rw [pushTry, if_neg (by simp)]
      simp only
      rw [store_at _ _ _ _ rfl, decide_eq_true (by omega)]
    · rw [if_pos (by omega), show s ++ x :: rest = (s ++ [x]) ++ rest by simp]
      exact holds_mk _ _ (by simp) (by simp; omega)

theorem pop_spec {m : Nat} {a : EA α} {s : List α} (h : Holds m a s) :
    ∃ b, pop a = some (b, s.getLast?) ∧ Holds m b s.dropLast := by
  obtain ⟨rest, rfl, hl⟩ := holds_elim h
  by_cases hs : s = []
  · subst hs
    exact ⟨_, by simp [pop], h⟩
  · obtain ⟨t, x, rfl⟩ := snoc_of_ne hs
    refine ⟨⟨t.length, t ++ x :: rest⟩, ?_, ?_⟩
    · rw [pop, if_neg (by simp)]
      simp only
      rw [show t ++ [x] ++ rest = t ++ x :: rest by simp, get_at _ _ _ (by simp)]
      simp
    · rw [List.dropLast_concat]
      exact holds_mk t (x :: rest) rfl (by simp at hl ⊢; omega)

theorem removeAt_spec {m : Nat} {a : EA α} {s : List α} {i : Nat} (h : Holds m a s) (hi : i < s.length) :
    ∃ b, removeAt a i = some b ∧ Holds m b (s.eraseIdx i) := by
  obtain ⟨rest, rfl, hl⟩ := holds_elim h
  obtain ⟨p, x, q, rfl, rfl⟩ := split_at s hi
  have he : (p ++ x :: q).eraseIdx p.length = p ++ q := by
    rw [List.eraseIdx_append_of_length_le (by omega)]; simp
  rw [he]
  unfold removeAt
  rw [if_pos hi]
  simp only [List.length_append, List.length_cons] at hl ⊢
  cases q with
  | nil =>
    refine ⟨_, by rw [if_pos (Or.inr (by simp))], ?_⟩
    rw [List.append_nil, show p ++ [x] ++ rest = p ++ x :: rest by simp]
    exact holds_mk _ _ (by simp) (by simp at hl ⊢; omega)
  | cons y q =>
    simp only [List.length_cons] at hl ⊢
    refine ⟨_, by rw [if_neg (by omega), if_pos (by omega)], ?_⟩
    have e : (p ++ x :: y :: q ++ rest).take p.length ++
        ((p ++ x :: y :: q ++ rest).drop (p.length + 1)).take (p.length + (q.length + 1 + 1) - 1 - p.length) = p ++ y :: q := by
      rw [show p ++ x :: y :: q ++ rest = p ++ (x :: y :: q ++ rest) by simp, List.take_left, List.drop_append]
      simp only [List.drop_eq_nil_of_le (show p.length ≤ p.length + 1 by omega), List.nil_append,
        show p.length + 1 - p.length = 1 by omega, List.cons_append, List.drop_succ_cons, List.drop_zero]
      rw [show p.length + (q.length + 1 + 1) - 1 - p.length = q.length + 1 by omega, List.take_succ_cons, List.take_left]
    rw [e]
    exact holds_mk _ _ (by simp) (by simp only [List.length_append, List.length_cons, List.length_drop]; omega)

theorem insertLoop_spec (p : List α) (q : List α) : ∀ (r : α) (rest : List α),
    ∃ y, insertLoop p.length (p.length + q.length) (p ++ q ++ r :: rest) = some (p ++ y :: q ++ rest) := by
  induction hn : q.length generalizing q with
  | zero =>
    intro r rest
    have : q = [] := List.length_eq_zero_iff.1 hn
    subst this
    refine ⟨r, ?_⟩
    cases p with
    | nil => simp [insertLoop]
    | cons z p => simp [insertLoop]
  | succ n ih =>
    intro r rest
    obtain ⟨t, z, rfl⟩ := snoc_of_ne (s := q) (fun h => by subst h; cases hn)
    have ht : t.length = n := by simpa using hn
    obtain ⟨y, hy⟩ := ih t ht z (z :: rest)
    refine ⟨y, ?_⟩
    rw [show p.length + (n + 1) = (p.length + n) + 1 by omega, insertLoop, if_pos (by omega),
      show p ++ (t ++ [z]) ++ r :: rest = (p ++ t) ++ z :: r :: rest by simp,
      get_at (p ++ t) (r :: rest) z (by simp [ht])]
    simp only
    rw [show (p ++ t) ++ z :: r :: rest = (p ++ t ++ [z]) ++ r :: rest by simp,
      store_at (p ++ t ++ [z]) rest r z (by simp [ht]; omega)]
    simp only
    rw [show (p ++ t ++ [z]) ++ z :: rest = p ++ t ++ z :: z :: rest by simp, hy]
    simp

theorem insertIdx_append (p q : List α) (x : α) : (p ++ q).insertIdx p.length x = p ++ x :: q := by
  induction p with
  | nil => simp
  | cons y p ih => simp [ih]

theorem insertAtTry_spec {m : Nat} {a : EA α} {s : List α} {i : Nat} (x : α) (h : Holds m a s) (hi : i ≤ s.length) :
    ∃ b, insertAtTry a i x = some (b, decide (s.length < m)) ∧ Holds m b (if s.length < m then s.insertIdx i x else s) := by
  obtain ⟨rest, rfl, hl⟩ := holds_elim h
  cases rest with
  | nil =>
    simp only [List.length_nil, Nat.add_zero] at hl
    refine ⟨_, ?_, by rw [if_neg (by omega)]; exact h⟩
    rw [insertAtTry, if_pos hi, if_pos (by simp), decide_eq_false (by omega)]
  | cons r rest =>
    simp only [List.length_cons] at hl
    obtain ⟨y, hy⟩ := insertLoop_spec (s.take i) (s.drop i) r rest
    have hp : (s.take i).length = i := by simp; omega
    rw [List.take_append_drop, hp, show i + (s.drop i).length = s.length by simp; omega] at hy
    refine ⟨⟨s.length + 1, s.take i ++ x :: s.drop i ++ rest⟩, ?_, ?_⟩
    · rw [insertAtTry, if_pos hi, if_neg (by simp)]
      simp only [insertAt]
      rw [if_pos ⟨by simp, hi⟩, hy]
      simp only
      rw [show s.take i ++ y :: s.drop i ++ rest = s.take i ++ y :: (s.drop i ++ rest) by simp, store_at _ _ _ _ hp.symm,
        decide_eq_true (by omega)]
      simp
    · have e : s.insertIdx i x = s.take i ++ x :: s.drop i := by
        have := insertIdx_append (s.take i) (s.drop i) x
        rwa [List.take_append_drop, hp] at this
      rw [if_pos (by omega), e]
      exact holds_mk _ _ (by simp; omega) (by simp; omega)

theorem addToLimit_spec {m : Nat} (l : List α) : ∀ {a : EA α} {s : List α}, Holds m a s →
    ∃ b, addToLimit a l = some (b, l.length - (m - s.length)) ∧ Holds m b (s ++ l.take (m - s.length)) := by
  induction l with
  | nil => intro a s h; exact ⟨a, by simp [addToLimit], by simpa using h⟩
  | cons v l ih =>
    intro a s h
    obtain ⟨rest, rfl, hl⟩ := holds_elim h
    cases rest with
    | nil =>
      simp only [List.length_nil, Nat.add_zero] at hl
      refine ⟨_, ?_, by rw [hl, Nat.sub_self, List.take_zero, List.append_nil]; exact h⟩
      rw [addToLimit, if_pos (by simp), hl]; simp
    | cons r rest =>
      simp only [List.length_cons] at hl
      have h' : Holds m ⟨s.length + 1, s ++ v :: rest⟩ (s ++ [v]) := by
        rw [show s ++ v :: rest = (s ++ [v]) ++ rest by simp]
        exact holds_mk _ _ (by simp) (by simp; omega)
      obtain ⟨b, hb, hh⟩ := ih h'
      refine ⟨b, ?_, ?_⟩
      · rw [addToLimit, if_neg (by simp)]
        simp only
        rw [store_at _ _ _ _ rfl]
        simp only
        rw [hb, List.length_append, List.length_cons, List.length_cons, List.length_nil]
        congr 2
        omega
      · rw [List.length_append, List.length_cons, List.length_nil] at hh
        rw [show m - s.length = m - (s.length + (0 + 1)) + 1 by omega, List.take_succ_cons]
        simpa using hh

theorem shiftLoop_spec (q : List α) : ∀ (p : List α) (x : α) (rest : List α),
    ∃ y, shiftLoop q.length (p.length + 1) (p ++ x :: q ++ rest) = some (p ++ q ++ y :: rest) := by
  induction q with
  | nil => intro p x rest; exact ⟨x, by simp [shiftLoop]⟩
  | cons z q ih =>
    intro p x rest
    obtain ⟨y, hy⟩ := ih (p ++ [z]) z rest
    refine ⟨y, ?_⟩
    rw [List.length_cons, shiftLoop, show p ++ x :: z :: q ++ rest = (p ++ [x]) ++ z :: (q ++ rest) by simp,
      get_at (p ++ [x]) _ z (by simp)]
    simp only
    rw [show (p ++ [x]) ++ z :: (q ++ rest) = p ++ x :: (z :: (q ++ rest)) by simp, store_at p _ x z (by omega)]
    simp only
    rw [List.length_append, List.length_cons, List.length_nil] at hy
    rw [show p ++ z :: z :: (q ++ rest) = p ++ [z] ++ z :: q ++ rest by simp, hy]
    simp

theorem removeItemLoop_spec (eq : α → α → Bool) (value : α) (p : List α) : ∀ (q rest : List α),
    ∃ rest', removeItemLoop eq value p.length ⟨p.length + q.length, p ++ q ++ rest⟩ =
      some ⟨(p.filter fun v => !eq v value).length + q.length, (p.filter fun v => !eq v value) ++ q ++ rest'⟩ ∧
      (p.filter fun v => !eq v value).length + rest'.length = p.length + rest.length := by
  induction hn : p.length generalizing p with
  | zero =>
    intro q rest
    have : p = [] := List.length_eq_zero_iff.1 hn
    subst this
    exact ⟨rest, by simp [removeItemLoop], by simp⟩
  | succ n ih =>
    intro q rest
    obtain ⟨t, x, rfl⟩ := snoc_of_ne (s := p) (fun h => by subst h; cases hn)
    have ht : t.length = n := by simpa using hn
    rw [removeItemLoop]
    simp only
    rw [show t ++ [x] ++ q ++ rest = t ++ x :: (q ++ rest) by simp, get_at t _ x ht.symm]
    simp only
    cases hx : eq x value with
    | true =>
      obtain ⟨y, hy⟩ := shiftLoop_spec q t x rest
      obtain ⟨rest', h1, h2⟩ := ih t ht q (y :: rest)
      refine ⟨rest', ?_, ?_⟩
      · rw [if_pos rfl, show n + 1 + q.length - (n + 1) = q.length by omega,
          show t ++ x :: (q ++ rest) = t ++ x :: q ++ rest by simp, ← ht, hy]
        simp only
        rw [ht, show n + 1 + q.length - 1 = n + q.length by omega, h1]
        simp [hx]
      · simp only [List.filter_append, List.filter_cons, hx, Bool.not_true, Bool.false_eq_true, if_false, List.filter_nil,
          List.append_nil, List.length_cons] at h2 ⊢
        omega
    | false =>
      obtain ⟨rest', h1, h2⟩ := ih t ht (x :: q) rest
      refine ⟨rest', ?_, ?_⟩
      · rw [if_neg (by simp), show n + 1 + q.length = n + (x :: q).length by simp; omega,
          show t ++ x :: (q ++ rest) = t ++ x :: q ++ rest by simp, h1]
        simp [hx]; omega
      · simp only [List.filter_append, List.filter_cons, hx, Bool.not_false, if_true, List.filter_nil, List.length_append,
          List.length_cons, List.length_nil] at h2 ⊢
        omega

theorem removeItem_spec {m : Nat} {a : EA α} {s : List α} (eq : α → α → Bool) (x : α) (h : Holds m a s) :
    ∃ b, removeItem eq a x = some (b, s.countP fun v => eq v x) ∧ Holds m b (s.filter fun v => !eq v x) := by
  obtain ⟨rest, rfl, hl⟩ := holds_elim h
  obtain ⟨rest', h1, h2⟩ := removeItemLoop_spec eq x s [] rest
  simp only [List.length_nil, Nat.add_zero, List.append_nil] at h1
  refine ⟨⟨(s.filter fun v => !eq v x).length, (s.filter fun v => !eq v x) ++ rest'⟩, ?_, holds_mk _ _ rfl (by omega)⟩
  simp only [removeItem, h1]
  have := List.length_eq_countP_add_countP (fun v => eq v x) (l := s)
  have e : (s.filter fun v => !eq v x).length = s.countP fun v => !eq v x := (List.countP_eq_length_filter).symm
  have e2 : (s.countP fun v => ¬ eq v x = true) = s.countP fun v => !eq v x := by congr 1; funext v; simp
  rw [e]
  congr 2
  simp at this
  omega

end C3.Elastic
