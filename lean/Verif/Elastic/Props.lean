import Verif.Elastic.LemmasSelf

/-! # ElasticArray -/

set_option autoImplicit false

namespace C3.Elastic

variable {α : Type}

/-! ## C187 -/

theorem step_spec {m : Nat} (eq : α → α → Bool) {a : EA α} {s : List α} (h : Holds m a s) (o : Op α) :
    match specStep m eq s o with
    | some (s', r) => ∃ b, step eq a o = some (b, r) ∧ Holds m b s'
    | none => step eq a o = none := by
  cases o with
  | pushTry x =>
    obtain ⟨b, h1, h2⟩ := pushTry_spec x h
    simp only [specStep, step, h1, Option.map_some]
    by_cases hm : s.length < m
    · simp only [if_pos hm] at h2 ⊢
      exact ⟨b, by simp [hm], h2⟩
    · simp only [if_neg hm] at h2 ⊢
      exact ⟨b, by simp [hm], h2⟩
  | pop =>
    obtain ⟨b, h1, h2⟩ := pop_spec h
    exact ⟨b, by simp [step, h1], h2⟩
  | popFirst =>
    cases s with
    | nil =>
      obtain ⟨rest, rfl, hl⟩ := holds_elim h
      exact ⟨_, by simp [step, popFirst], h⟩
    | cons x s =>
      obtain ⟨b, h1, h2⟩ := removeAt_spec h (i := 0) (by simp)
      obtain ⟨rest, rfl, hl⟩ := holds_elim h
      refine ⟨b, ?_, by simpa using h2⟩
      simp only [step, popFirst, h1]
      rfl
  | removeAt i =>
    simp only [specStep]
    by_cases hi : i < s.length
    · obtain ⟨b, h1, h2⟩ := removeAt_spec h hi
      simp only [if_pos hi]
      exact ⟨b, by simp [step, h1], h2⟩
    · simp only [if_neg hi]
      obtain ⟨rest, rfl, hl⟩ := holds_elim h
      simp [step, removeAt, hi]
  | removeFirst =>
    cases s with
    | nil =>
      obtain ⟨rest, rfl, hl⟩ := holds_elim h
      exact ⟨_, by simp [step, removeFirst], h⟩
    | cons x s =>
      obtain ⟨b, h1, h2⟩ := removeAt_spec h (i := 0) (by simp)
      obtain ⟨rest, rfl, hl⟩ := holds_elim h
      refine ⟨b, ?_, by simpa using h2⟩
      simp only [step, removeFirst, h1]
      rfl
  | insertAtTry i x =>
    simp only [specStep]
    by_cases hi : i ≤ s.length
    · obtain ⟨b, h1, h2⟩ := insertAtTry_spec x h hi
      simp only [if_pos hi, step, h1, Option.map_some]
      by_cases hm : s.length < m
      · simp only [if_pos hm] at h2 ⊢
        exact ⟨b, by simp [hm], h2⟩
      · simp only [if_neg hm] at h2 ⊢
        exact ⟨b, by simp [hm], h2⟩
    · simp only [if_neg hi]
      obtain ⟨rest, rfl, hl⟩ := holds_elim h
      simp [step, insertAtTry, hi]
  | addToLimit l =>
    obtain ⟨b, h1, h2⟩ := addToLimit_spec l h
    exact ⟨b, by simp [step, h1], h2⟩
  | removeItem x =>
    obtain ⟨b, h1, h2⟩ := removeItem_spec eq x h
    exact ⟨b, by simp [step, h1], h2⟩
  | clear =>
    refine ⟨_, rfl, ?_⟩
    exact holds_mk [] a.entries rfl (by simp [h.1])

/-- Every program does to the array, and gets from it, what it does to a list of at most `m` elements; if it violates a contract
there, it does here. -/
theorem C187_elastic_array {m : Nat} (eq : α → α → Bool) (ops : List (Op α)) : ∀ {a : EA α} {s : List α}, Holds m a s →
    match specRun m eq s ops with
    | some (s', rs) => ∃ b, run eq a ops = some (b, rs) ∧ Holds m b s'
    | none => run eq a ops = none := by
  induction ops with
  | nil => intro a s h; exact ⟨a, rfl, h⟩
  | cons o l ih =>
    intro a s h
    have hs := step_spec eq h o
    simp only [specRun, run]
    cases e : specStep m eq s o with
    | none => rw [e] at hs; simp only at hs ⊢; rw [hs]
    | some p =>
      rw [e] at hs
      obtain ⟨b, h1, h2⟩ := hs
      have := ih h2
      simp only [h1]
      cases e2 : specRun m eq p.1 l with
      | none => rw [e2] at this; simp only [Option.map_none] at this ⊢; rw [this]; rfl
      | some q =>
        rw [e2] at this
        obtain ⟨c, h3, h4⟩ := this
        simp only [Option.map_some]
        exact ⟨c, by rw [h3]; rfl, h4⟩

example : Holds 4 (⟨2, [7, 8, 0, 9]⟩ : EA Nat) [7, 8] := ⟨rfl, rfl, by decide, rfl⟩
example : specRun 3 (· == ·) [7, 8] [.insertAtTry 1 5, .pushTry 6, .removeItem 5, .addToLimit [1, 2, 3], .popFirst] =
    some ([8, 1], [.ok true, .ok false, .count 1, .count 2, .item (some 7)]) := by decide

/-! ## C188 -/

/-- The whole of C188. -/
def C188_full : Prop := ∀ (α : Type) (m : Nat) (a : EA α) (s : List α) (i : Nat), Holds m a s → get a i = s[i]?

/-- An element of the array is given, and set. -/
theorem C188_get_partial {m : Nat} {a : EA α} {s : List α} (h : Holds m a s) {i : Nat} (hi : i < s.length) (x : α) :
    get a i = s[i]? ∧ ∃ b, set a i x = some b ∧ Holds m b (s.set i x) := by
  obtain ⟨rest, rfl, hl⟩ := holds_elim h
  refine ⟨by simp [get, List.getElem?_append_left hi], ⟨s.length, s.set i x ++ rest⟩, ?_, holds_mk _ _ (by simp) (by simpa using hl)⟩
  simp only [set, store]
  rw [if_pos (by simp; omega), List.set_append_left _ _ hi]

/-- An index from the size on is accepted as long as it is below `MAX_SIZE`, by `get` and `set`; what is set is not in the array. -/
theorem C188_beyond {m : Nat} {a : EA α} {s : List α} (h : Holds m a s) {i : Nat} (hi : s.length ≤ i) (hm : i < m) (x : α) :
    (∃ v, get a i = some v) ∧ ∃ b, set a i x = some b ∧ Holds m b s := by
  obtain ⟨rest, rfl, hl⟩ := holds_elim h
  refine ⟨⟨(s ++ rest)[i]'(by simp; omega), by simp only [get]; exact List.getElem?_eq_getElem _⟩,
    ⟨s.length, s ++ rest.set (i - s.length) x⟩, ?_, holds_mk _ _ rfl (by simpa using hl)⟩
  simp only [set, store]
  rw [if_pos (by simp; omega), List.set_append_right _ _ hi]

/-- After `pop` the element is still given. -/
theorem C188_stale {m : Nat} {a : EA α} {s : List α} (x : α) (h : Holds m a (s ++ [x])) :
    ∃ b, pop a = some (b, some x) ∧ Holds m b s ∧ get b s.length = some x := by
  obtain ⟨b, h1, h2⟩ := pop_spec h
  obtain ⟨rest, rfl, hl⟩ := holds_elim h
  rw [List.getLast?_append] at h1
  simp only [List.getLast?_singleton, Option.some_or] at h1
  rw [List.dropLast_concat] at h2
  refine ⟨b, h1, h2, ?_⟩
  rw [pop, if_neg (by simp)] at h1
  simp only at h1
  rw [show s ++ [x] ++ rest = s ++ x :: rest by simp, get_at s rest x (by simp)] at h1
  simp only [Option.some.injEq, Prod.mk.injEq, and_true] at h1
  rw [← h1]
  exact get_at s rest x rfl

theorem C188_fails : ¬ C188_full := by
  intro h
  have := h Nat 1 ⟨0, [7]⟩ [] 0 ⟨rfl, rfl, by decide, rfl⟩
  simp [get] at this

example : Holds 3 (⟨2, [7, 8, 9]⟩ : EA Nat) ([7] ++ [8]) := ⟨rfl, rfl, by decide, rfl⟩

/-! ## C189 -/

/-- The whole of C189. -/
def C189_full : Prop := ∀ (α : Type) (m : Nat) (a : EA α) (s : List α), Holds m a s →
  ∃ b, addSelfToLimit a = some (b, s.length - (m - s.length)) ∧ Holds m b (s ++ s.take (m - s.length))

theorem addSelfLoop_spec {m : Nat} (s : List α) : ∀ (n i : Nat) (a : EA α), n + i = s.length → Holds m a (s ++ s.take i) →
    ∃ b, addSelfLoop n i a = some (b, if s.length ≤ m - s.length then 0 else s.length) ∧
      Holds m b (s ++ s.take (m - s.length)) := by
  intro n
  induction n with
  | zero =>
    intro i a hn h
    have hi : i = s.length := by omega
    subst hi
    have := h.2.2.1
    rw [List.take_length, List.length_append] at this
    refine ⟨a, by rw [addSelfLoop, if_pos (by omega)], ?_⟩
    rw [List.take_of_length_le (by omega)]
    rwa [List.take_length] at h
  | succ n ih =>
    intro i a hn h
    have hti : (s.take i).length = i := by simp; omega
    obtain ⟨rest, rfl, hl⟩ := holds_elim h
    rw [List.length_append, hti] at hl
    cases rest with
    | nil =>
      simp only [List.length_nil, Nat.add_zero] at hl
      have hi : m - s.length = i := by omega
      refine ⟨_, ?_, by rw [hi]; exact h⟩
      rw [addSelfLoop, if_pos (by simp), if_neg (by omega)]
      simp [hti]
    | cons r rest =>
      have hlt : i < s.length := by omega
      have e : (s ++ s.take i ++ r :: rest)[i]? = some s[i] := by
        rw [List.append_assoc, List.getElem?_append_left hlt, List.getElem?_eq_getElem hlt]
      rw [addSelfLoop, if_neg (by simp)]
      simp only [e]
      rw [store_at _ _ _ _ rfl]
      simp only
      simp only [List.length_cons] at hl
      refine ih (i + 1) _ (by omega) ?_
      have e2 : s ++ s.take (i + 1) = s ++ s.take i ++ [s[i]] := by
        rw [List.append_assoc, List.take_append_getElem hlt]
      rw [e2, List.append_cons]
      exact holds_mk _ _ (by simp only [List.length_append, List.length_cons, List.length_nil]) (by simp only [List.length_append, hti, List.length_cons, List.length_nil]; omega)

/-- An array added to itself: what is added is right; the number is if all of it fits, otherwise it is the size. -/
theorem C189_self_partial {m : Nat} {a : EA α} {s : List α} (h : Holds m a s) :
    ∃ b, addSelfToLimit a = some (b, if s.length ≤ m - s.length then 0 else s.length) ∧
      Holds m b (s ++ s.take (m - s.length)) := by
  have hs : a.size = s.length := h.2.1
  rw [addSelfToLimit, hs]
  exact addSelfLoop_spec s s.length 0 a (by omega) (by simpa using h)

/-- So the number is too large whenever some of it fits, but not all. -/
theorem C189_too_large {m : Nat} {a : EA α} {s : List α} (h : Holds m a s) (h1 : s.length < m) (h2 : m < 2 * s.length) :
    ∃ b n, addSelfToLimit a = some (b, n) ∧ s.length - (m - s.length) < n := by
  obtain ⟨b, hb, _⟩ := C189_self_partial h
  exact ⟨b, _, hb, by rw [if_neg (by omega)]; omega⟩

/-- Another array, or a slice, added: what is added and the number are right. -/
theorem C189_other_partial {m : Nat} {a : EA α} {s : List α} (h : Holds m a s) (l : List α) :
    ∃ b, addToLimit a l = some (b, l.length - (m - s.length)) ∧ Holds m b (s ++ l.take (m - s.length)) :=
  addToLimit_spec l h

theorem C189_fails : ¬ C189_full := by
  intro h
  obtain ⟨b, hb, _⟩ := h Nat 3 ⟨2, [7, 8, 0]⟩ [7, 8] ⟨rfl, rfl, by decide, rfl⟩
  have e : addSelfToLimit (⟨2, [7, 8, 0]⟩ : EA Nat) = some (⟨3, [7, 8, 7]⟩, 2) := by decide
  rw [e] at hb
  exact absurd (Prod.mk.inj (Option.some.inj hb)).2 (by decide)

example : addSelfToLimit (⟨2, [7, 8, 0]⟩ : EA Nat) = some (⟨3, [7, 8, 7]⟩, 2) := by decide

/-! ## C190 -/

/-- The whole of C190: with another array, and with the array itself. -/
def C190_full : Prop := ∀ (α : Type) (eq : α → α → Bool) (m : Nat) (a : EA α) (s : List α), (∀ x, eq x x = true) → Holds m a s →
  (∀ l, ∃ b, removeAllFrom eq a l = some b ∧ Holds m b (s.filter fun v => !l.any fun x => eq v x)) ∧
  ∃ b, removeAllFromSelf eq a = some b ∧ Holds m b []

/-- With another array. -/
theorem C190_other_partial {m : Nat} (eq : α → α → Bool) (l : List α) : ∀ {a : EA α} {s : List α}, Holds m a s →
    ∃ b, removeAllFrom eq a l = some b ∧ Holds m b (s.filter fun v => !l.any fun x => eq v x) := by
  induction l with
  | nil => intro a s h; exact ⟨a, rfl, by rw [List.filter_eq_self.2 (by simp)]; exact h⟩
  | cons v l ih =>
    intro a s h
    obtain ⟨b, h1, h2⟩ := removeItem_spec eq v h
    obtain ⟨c, h3, h4⟩ := ih h2
    refine ⟨c, by rw [removeAllFrom, h1]; exact h3, ?_⟩
    rw [List.filter_filter] at h4
    have e : (fun a => (!l.any fun x => eq a x) && !eq a v) = fun w => !(v :: l).any fun x => eq w x := by
      funext w
      simp only [List.any_cons, Bool.not_or]
      rw [Bool.and_comm]
    rwa [e] at h4

/-- With itself: of three or more different elements the second remains. -/
theorem C190_self (eq : α → α → Bool) (heq : ∀ a b, eq a b = true ↔ a = b) {m : Nat} {a : EA α} (x y z : α) (t : List α)
    (hd : (x :: y :: z :: t).Nodup) (h : Holds m a (x :: y :: z :: t)) :
    ∃ b, removeAllFromSelf eq a = some b ∧ 1 ≤ b.size ∧ b.entries[0]? = some y :=
  removeSelf_keeps eq heq x y z t hd h

example : ([1, 2, 3, 4] : List Nat).Nodup ∧ Holds 5 (⟨4, [1, 2, 3, 4, 2]⟩ : EA Nat) [1, 2, 3, 4] :=
  ⟨by decide, rfl, rfl, by decide, rfl⟩

/-- With itself: of 1, 2, 3 the 2 remains. -/
theorem C190_fails : ¬ C190_full := by
  intro h
  obtain ⟨b, hb, hh⟩ := (h Nat (· == ·) 3 ⟨3, [1, 2, 3]⟩ [1, 2, 3] (by simp) ⟨rfl, rfl, by decide, rfl⟩).2
  have e : removeAllFromSelf (· == ·) (⟨3, [1, 2, 3]⟩ : EA Nat) = some ⟨1, [2, 3, 3]⟩ := by decide
  rw [e] at hb
  have := hh.2.1
  rw [← Option.some.inj hb] at this
  cases this

example : removeAllFrom (· == ·) (⟨3, [1, 2, 3]⟩ : EA Nat) [3, 1] = some ⟨1, [2, 2, 3]⟩ := by decide

end C3.Elastic
