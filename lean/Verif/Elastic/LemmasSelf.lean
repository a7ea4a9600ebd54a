import Verif.Elastic.Lemmas

/-! # An array from which its own elements are removed -/

set_option autoImplicit false

namespace C3.Elastic

variable {α : Type}

/-- The first entry is `y`, and the next ones below `n` are not. -/
def Alone (n : Nat) (y : α) (e : List α) : Prop :=
  n ≤ e.length ∧ e[0]? = some y ∧ ∀ (j : Nat) (v : α), 1 ≤ j → j < n → e[j]? = some v → v ≠ y

theorem store_alone {n : Nat} {y : α} {e : List α} (h : Alone n y e) {k : Nat} (hk : 1 ≤ k) (hn : k < n) {v : α} (hv : v ≠ y) :
    ∃ e', store e k v = some e' ∧ Alone n y e' := by
  obtain ⟨h1, h2, h3⟩ := h
  refine ⟨e.set k v, by rw [store, if_pos (by omega)], by simpa using h1, ?_, fun j w hj hj' hw => ?_⟩
  · rw [List.getElem?_set_ne (by omega)]; exact h2
  · by_cases hjk : k = j
    · subst hjk
      rw [List.getElem?_set_self (by omega)] at hw
      rw [← Option.some.inj hw]; exact hv
    · rw [List.getElem?_set_ne hjk] at hw
      exact h3 j w hj hj' hw

theorem shiftLoop_alone {n : Nat} {y : α} (c : Nat) : ∀ (j : Nat) (e : List α), Alone n y e → 2 ≤ j → j + c ≤ n →
    ∃ e', shiftLoop c j e = some e' ∧ Alone n y e' := by
  induction c with
  | zero => intro j e h _ _; exact ⟨e, rfl, h⟩
  | succ c ih =>
    intro j e h hj hc
    have hjl : j < e.length := by have := h.1; omega
    have hg := List.getElem?_eq_getElem hjl
    obtain ⟨e', h1, h2⟩ := store_alone h (k := j - 1) (by omega) (by omega) (h.2.2 j _ (by omega) (by omega) hg)
    obtain ⟨e'', h3, h4⟩ := ih (j + 1) e' h2 (by omega) (by omega)
    refine ⟨e'', ?_, h4⟩
    rw [shiftLoop, hg]
    simp only [h1]
    exact h3

theorem removeItemLoop_alone {n : Nat} {y : α} (eq : α → α → Bool) (heq : ∀ a b, eq a b = true → a = b) {value : α}
    (hv : value ≠ y) (i : Nat) : ∀ (a : EA α), Alone n y a.entries → 1 ≤ a.size → a.size ≤ n → i ≤ a.size →
    ∃ b, removeItemLoop eq value i a = some b ∧ Alone n y b.entries ∧ 1 ≤ b.size ∧ b.size ≤ n := by
  induction i with
  | zero => intro a h h1 h2 _; exact ⟨a, rfl, h, h1, h2⟩
  | succ i ih =>
    intro a h h1 h2 hi
    have hil : i < a.entries.length := by have := h.1; omega
    have hg := List.getElem?_eq_getElem hil
    rw [removeItemLoop, hg]
    simp only
    cases he : eq a.entries[i] value with
    | false =>
      rw [if_neg (by simp)]
      exact ih a h h1 h2 (by omega)
    | true =>
      rw [if_pos rfl]
      have hi0 : i ≠ 0 := by
        intro h0
        subst h0
        rw [h.2.1] at hg
        exact hv ((heq _ _ he).symm.trans (Option.some.inj hg).symm)
      obtain ⟨e', h3, h4⟩ := shiftLoop_alone (a.size - (i + 1)) (i + 1) a.entries h (by omega) (by omega)
      simp only [h3]
      exact ih _ h4 (by show 1 ≤ a.size - 1; omega) (by show a.size - 1 ≤ n; omega) (by show i ≤ a.size - 1; omega)

theorem removeSelfLoop_alone {n : Nat} {y : α} (eq : α → α → Bool) (heq : ∀ a b, eq a b = true → a = b) (c : Nat) :
    ∀ (i : Nat) (a : EA α), Alone n y a.entries → 1 ≤ a.size → a.size ≤ n → 1 ≤ i → i + c ≤ n →
    ∃ b, removeSelfLoop eq c i a = some b ∧ Alone n y b.entries ∧ 1 ≤ b.size ∧ b.size ≤ n := by
  induction c with
  | zero => intro i a h h1 h2 _ _; exact ⟨a, rfl, h, h1, h2⟩
  | succ c ih =>
    intro i a h h1 h2 hi hc
    have hil : i < a.entries.length := by have := h.1; omega
    have hg := List.getElem?_eq_getElem hil
    obtain ⟨b, h3, h4, h5, h6⟩ :=
      removeItemLoop_alone eq heq (h.2.2 i _ hi (by omega) hg) a.size a h h1 h2 (Nat.le_refl _)
    obtain ⟨d, h7, h8⟩ := ih (i + 1) b h4 h5 h6 (by omega) (by omega)
    refine ⟨d, ?_, h8⟩
    rw [removeSelfLoop, hg]
    simp only [removeItem, h3]
    exact h7

theorem shiftLoop_last (q : List α) : ∀ (p : List α) (x : α) (rest : List α),
    shiftLoop q.length (p.length + 1) (p ++ x :: q ++ rest) =
      some (p ++ q ++ (x :: q).getLast (List.cons_ne_nil _ _) :: rest) := by
  induction q with
  | nil => intro p x rest; simp [shiftLoop]
  | cons z q ih =>
    intro p x rest
    have hy := ih (p ++ [z]) z rest
    rw [List.length_cons, shiftLoop, show p ++ x :: z :: q ++ rest = (p ++ [x]) ++ z :: (q ++ rest) by simp,
      get_at (p ++ [x]) _ z (by simp)]
    simp only
    rw [show (p ++ [x]) ++ z :: (q ++ rest) = p ++ x :: (z :: (q ++ rest)) by simp, store_at p _ x z (by omega)]
    simp only
    rw [List.length_append, List.length_cons, List.length_nil] at hy
    rw [show p ++ z :: z :: (q ++ rest) = p ++ [z] ++ z :: q ++ rest by simp, hy]
    simp

/-- Elements that are not removed are passed over. -/
theorem removeItemLoop_skip (eq : α → α → Bool) (value : α) (a : EA α) (i : Nat)
    (h : ∀ j, 1 ≤ j → j ≤ i → ∃ v, a.entries[j]? = some v ∧ eq v value = false) :
    removeItemLoop eq value (i + 1) a = removeItemLoop eq value 1 a := by
  induction i with
  | zero => rfl
  | succ i ih =>
    obtain ⟨v, h1, h2⟩ := h (i + 1) (by omega) (by omega)
    rw [removeItemLoop, h1]
    simp only [h2, Bool.false_eq_true, if_false]
    exact ih fun j h3 h4 => h j h3 (by omega)

theorem removeSelf_keeps (eq : α → α → Bool) (heq : ∀ a b, eq a b = true ↔ a = b) {m : Nat} {a : EA α} (x y z : α) (t : List α)
    (hd : (x :: y :: z :: t).Nodup) (h : Holds m a (x :: y :: z :: t)) :
    ∃ b, removeAllFromSelf eq a = some b ∧ 1 ≤ b.size ∧ b.entries[0]? = some y := by
  obtain ⟨rest, rfl, hl⟩ := holds_elim h
  have hskip := removeItemLoop_skip eq x ⟨(x :: y :: z :: t).length, x :: y :: z :: t ++ rest⟩ (t.length + 2) (by
    intro j h1 h2
    have hj : j < (x :: y :: z :: t).length := by simp; omega
    refine ⟨(x :: y :: z :: t)[j], by simp only; rw [List.getElem?_append_left hj, List.getElem?_eq_getElem hj], ?_⟩
    cases he : eq (x :: y :: z :: t)[j] x with
    | false => rfl
    | true =>
      exfalso
      have e := (heq _ _).1 he
      obtain ⟨k, rfl⟩ : ∃ k, j = k + 1 := ⟨j - 1, by omega⟩
      rw [List.getElem_cons_succ] at e
      exact (List.nodup_cons.1 hd).1 (e ▸ List.getElem_mem _))
  have hfirst : removeItemLoop eq x (t.length + 2 + 1) ⟨(x :: y :: z :: t).length, x :: y :: z :: t ++ rest⟩ =
      some ⟨t.length + 2, y :: z :: t ++ (x :: y :: z :: t).getLast (List.cons_ne_nil _ _) :: rest⟩ := by
    have hs := shiftLoop_last (y :: z :: t) [] x rest
    simp only [List.length_nil, List.nil_append, Nat.zero_add] at hs
    rw [hskip, removeItemLoop]
    simp only [List.cons_append, List.getElem?_cons_zero, (heq x x).2 rfl, if_true]
    simp only [List.length_cons, Nat.zero_add, Nat.add_sub_cancel] at hs ⊢
    simp only [List.cons_append] at hs
    rw [hs]
    rfl
  have hne : ∀ v ∈ z :: t, v ≠ y := by
    intro v hv e
    subst e
    exact (List.nodup_cons.1 (List.nodup_cons.1 hd).2).1 hv
  have hlast : (x :: y :: z :: t).getLast (List.cons_ne_nil _ _) ≠ y := by
    rw [List.getLast_cons (by simp), List.getLast_cons (by simp)]
    exact hne _ (List.getLast_mem _)
  have halone : Alone (t.length + 3) y (y :: z :: t ++ (x :: y :: z :: t).getLast (List.cons_ne_nil _ _) :: rest) := by
    refine ⟨by simp, by simp, fun j v h1 h2 hv => ?_⟩
    obtain ⟨j, rfl⟩ : ∃ k, j = k + 1 := ⟨j - 1, by omega⟩
    rw [List.cons_append, List.getElem?_cons_succ] at hv
    by_cases hj : j < (z :: t).length
    · rw [List.getElem?_append_left hj] at hv
      exact hne v (List.mem_of_getElem? hv)
    · have : j = (z :: t).length := by simp at hj ⊢; omega
      rw [get_at (z :: t) rest _ this] at hv
      rw [← Option.some.inj hv]
      exact hlast
  obtain ⟨b, h1, h2, h3, _⟩ := removeSelfLoop_alone eq (fun a b => (heq a b).1) (t.length + 2) 1
    ⟨t.length + 2, y :: z :: t ++ (x :: y :: z :: t).getLast (List.cons_ne_nil _ _) :: rest⟩ halone (by simp) (by simp)
    (by omega) (by omega)
  refine ⟨b, ?_, h3, h2.2.1⟩
  rw [removeAllFromSelf]
  simp only [List.length_cons] at hfirst ⊢
  rw [removeSelfLoop]
  simp only [List.cons_append, List.getElem?_cons_zero, removeItem] at hfirst h1 ⊢
  rw [hfirst]
  exact h1

end C3.Elastic
