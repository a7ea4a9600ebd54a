import Verif.DynList.LemmasRm
import Verif.DynList.ModelRemoveAll

/-! # `List.remove_all_from` with another list, and with the list itself -/

set_option autoImplicit false

namespace C3.DynList

variable {α : Type}

/-! ## C204 -/

/-- `List.remove_all_from` leaves the elements that are not in the other list, in order; with the list itself, none. -/
def C204_full : Prop := ∀ (α : Type) (eq : α → α → Bool) (l : DList α) (s : List α), (∀ x, eq x x = true) → Holds l s →
  (∀ (other : DList α) (xs : List α), Holds other xs →
    ∃ l', removeAllFrom eq l other = some l' ∧ Holds l' (s.filter fun v => !xs.any fun x => eq v x)) ∧
  ∃ l', removeAllFromSelf eq l = some l' ∧ Holds l' []

theorem removeAllLoop_spec (eq : α → α → Bool) (other : DList α) (ys : List α) : ∀ (xs : List α) (l : DList α) (s : List α),
    Holds other (xs ++ ys) → Holds l s →
    ∃ l', removeAllLoop eq other ys.length xs.length l = some l' ∧ Holds l' (s.filter fun v => !ys.any fun x => eq v x) := by
  induction ys with
  | nil => intro xs l s _ h; exact ⟨l, rfl, by rw [List.filter_eq_self.2 (by simp)]; exact h⟩
  | cons y ys ih =>
    intro xs l s ho h
    obtain ⟨r, hr⟩ := (holds_iff _ _).1 ho
    obtain ⟨r', hr'⟩ := (holds_iff _ _).1 h
    have hg := get_spec (i := xs.length) (v := y) hr (by simp)
    obtain ⟨l1, e1, h1⟩ := removeItem_spec eq y hr'
    obtain ⟨l2, e2, h2⟩ := ih (xs ++ [y]) l1 _ (by simpa using ho) h1
    refine ⟨l2, ?_, ?_⟩
    · rw [List.length_append, List.length_singleton] at e2
      simp only [List.length_cons, removeAllLoop, hg, e1, Option.bind_eq_bind, Option.bind_some]
      exact e2
    · rw [List.filter_filter] at h2
      have e : (fun a => (!ys.any fun x => eq a x) && !eq a y) = fun w => !(y :: ys).any fun x => eq w x := by
        funext w
        simp only [List.any_cons, Bool.not_or]
        rw [Bool.and_comm]
      rwa [e] at h2

/-- With another list. -/
theorem C204_other_partial (eq : α → α → Bool) (l other : DList α) (s xs : List α) (h : Holds l s) (ho : Holds other xs) :
    ∃ l', removeAllFrom eq l other = some l' ∧ Holds l' (s.filter fun v => !xs.any fun x => eq v x) := by
  unfold removeAllFrom
  split
  · rename_i h0
    have : xs = [] := List.length_eq_zero_iff.1 (by rw [← ho.1]; exact h0)
    subst this
    exact ⟨l, rfl, by rw [List.filter_eq_self.2 (by simp)]; exact h⟩
  · rw [ho.1]
    exact removeAllLoop_spec eq other xs [] l s (by simpa using ho) h

example : Holds (⟨3, 4, [some 1, some 2, some 3, none]⟩ : DList Nat) [1, 2, 3] ∧
    Holds (⟨2, 2, [some 3, some 1]⟩ : DList Nat) [3, 1] := ⟨⟨rfl, rfl, rfl, by decide⟩, ⟨rfl, rfl, rfl, by decide⟩⟩

/-- The loop over the list itself comes to an index that is not below the size. -/
theorem removeSelfLoop_none (eq : α → α → Bool) (heq : ∀ x, eq x x = true) (n : Nat) : ∀ (i : Nat) (l : DList α) (s : List α),
    Holds l s → s.length ≤ n + 1 → 1 ≤ i → removeSelfLoop eq (n + 1) i l = none := by
  induction n with
  | zero =>
    intro i l s h hn hi
    have : get l i = none := by unfold get; rw [if_pos (by rw [h.1]; omega)]
    simp only [removeSelfLoop, this, Option.bind_eq_bind, Option.bind_none]
  | succ n ih =>
    intro i l s h hn hi
    rw [removeSelfLoop]
    by_cases hlt : i < s.length
    · obtain ⟨r, hr⟩ := (holds_iff _ _).1 h
      have hg := get_spec (i := i) (v := s[i]) hr (List.getElem?_eq_getElem hlt)
      obtain ⟨l1, e1, h1⟩ := removeItem_spec eq s[i] hr
      simp only [hg, e1, Option.bind_eq_bind, Option.bind_some]
      refine ih (i + 1) l1 _ h1 ?_ (by omega)
      have : (s.filter fun x => !eq x s[i]).length < s.length :=
        List.length_filter_lt_length_iff_exists.2 ⟨s[i], List.getElem_mem _, by simp [heq]⟩
      omega
    · have : get l i = none := by unfold get; rw [if_pos (by rw [h.1]; exact hlt)]
      simp only [this, Option.bind_eq_bind, Option.bind_none]

/-- With itself, a list of two or more elements is always read out of bounds: `@require index < self.size` fails. -/
theorem C204_self (eq : α → α → Bool) (heq : ∀ x, eq x x = true) (l : DList α) (s : List α) (h : Holds l s)
    (hs : 2 ≤ s.length) : removeAllFromSelf eq l = none := by
  unfold removeAllFromSelf
  rw [if_neg (by rw [h.1]; omega), h.1]
  obtain ⟨n, hn⟩ : ∃ n, s.length = n + 2 := ⟨s.length - 2, by omega⟩
  obtain ⟨r, hr⟩ := (holds_iff _ _).1 h
  have hg := get_spec (i := 0) (v := s[0]) hr (List.getElem?_eq_getElem (by omega))
  obtain ⟨l1, e1, h1⟩ := removeItem_spec eq s[0] hr
  rw [hn, removeSelfLoop]
  simp only [hg, e1, Option.bind_eq_bind, Option.bind_some]
  refine removeSelfLoop_none eq heq n 1 l1 _ h1 ?_ (by omega)
  have : (s.filter fun x => !eq x s[0]).length < s.length :=
    List.length_filter_lt_length_iff_exists.2 ⟨s[0], List.getElem_mem _, by simp [heq]⟩
  omega

/-- With itself, a list of one element or none is emptied. -/
theorem C204_self_partial (eq : α → α → Bool) (heq : ∀ x, eq x x = true) (l : DList α) (s : List α) (h : Holds l s)
    (hs : s.length < 2) : ∃ l', removeAllFromSelf eq l = some l' ∧ Holds l' [] := by
  unfold removeAllFromSelf
  match s, h with
  | [], h => exact ⟨l, if_pos h.1, h⟩
  | [x], h =>
    obtain ⟨r, hr⟩ := (holds_iff _ _).1 h
    have hg := get_spec (i := 0) (v := x) hr rfl
    obtain ⟨l1, e1, h1⟩ := removeItem_spec eq x hr
    refine ⟨l1, ?_, by simpa [heq] using h1⟩
    rw [if_neg (by rw [h.1]; simp), h.1]
    simp only [List.length_singleton, removeSelfLoop, hg, e1, Option.bind_eq_bind, Option.bind_some]
  | _ :: _ :: _, _ => simp only [List.length_cons] at hs; omega

theorem C204_fails : ¬ C204_full := by
  intro h
  have hh : Holds (⟨2, 2, [some 1, some 2]⟩ : DList Nat) [1, 2] := ⟨rfl, rfl, rfl, by decide⟩
  obtain ⟨l', e, -⟩ := (h Nat (· == ·) _ _ (by simp) hh).2
  rw [C204_self (· == ·) (by simp) _ _ hh (by decide)] at e
  simp at e

end C3.DynList
