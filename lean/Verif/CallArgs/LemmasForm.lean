import Verif.CallArgs.LemmasCall

set_option autoImplicit false

namespace C3.CallArgs
open Spec

variable {V : Type}

theorem loop_splat (sig : Sig) (i : Nat) (st : St V) (v : V) (es : Option (List V)) (fits : Bool) (l : List (Arg V)) :
    loop sig i st (.splat v es fits :: l) =
      if sig.variadic = .typed ∧ i = sig.vaargIndex ∧ lastOrNamed l = true ∧ fits = true then
        loop sig (i + 1) { st with splat := some v } l
      else
        match es with
        | none => .error .unknownLength
        | some [] => .error .zeroLength
        | some es =>
          match posSteps sig i st es with
          | .ok st => loop sig (i + es.length) st l
          | .error e => .error e := by
  cases es with
  | none => rfl
  | some es => cases es <;> rfl

theorem loop_vasplat (sig : Sig) (i : Nat) (st : St V) (es : List V) (l : List (Arg V)) :
    loop sig i st (.vasplat es :: l) =
      match posSteps sig i st es with
      | .ok st => loop sig (i + es.length) st l
      | .error e => .error e := rfl

/-! ## Order of the kinds of arguments -/

/-- A positional argument is refused in this state. -/
def Closed (st : St V) : Prop := st.splat.isSome = true ∨ st.hasNamed = true

theorem posStep_closed (sig : Sig) (i : Nat) (st : St V) (v : V) (h : Closed st) : ∃ e, posStep sig i st v = .error e := by
  unfold posStep
  by_cases h1 : st.splat.isSome = true
  · rw [if_pos h1]; exact ⟨_, rfl⟩
  · rw [if_neg h1, if_pos (h.resolve_left h1)]; exact ⟨_, rfl⟩

theorem posSteps_closed (sig : Sig) (i : Nat) (st : St V) (l : List V) (h : Closed st) (st' : St V)
    (e : posSteps sig i st l = .ok st') : st' = st := by
  cases l with
  | nil => cases e; rfl
  | cons v l =>
    rw [posSteps] at e
    obtain ⟨x, hx⟩ := posStep_closed sig i st v h
    rw [hx] at e; cases e

theorem namedStep_closed (sig : Sig) (i : Nat) (st st' : St V) (n : Nat) (v : V) (e : namedStep sig i st n v = .ok st') :
    st'.hasNamed = true := by
  unfold namedStep at e
  cases hf : find n 0 sig.params with
  | none => rw [hf] at e; cases e
  | some k =>
    rw [hf] at e
    simp only at e
    split at e
    · cases e
    split at e
    · cases e
    split at e
    · cases e
    cases e
    exact (setDefaults_spec sig _ _ _).2.2.1

theorem loop_closed (sig : Sig) (b : List (Arg V)) (w : V) (c : List (Arg V)) : ∀ (i : Nat) (st : St V), Closed st →
    ∃ e, loop sig i st (b ++ .pos w :: c) = .error e := by
  induction b with
  | nil =>
    intro i st h
    obtain ⟨e, he⟩ := posStep_closed sig i st w h
    rw [List.nil_append, loop, he]
    exact ⟨_, rfl⟩
  | cons a b ih =>
    intro i st h
    rw [List.cons_append]
    cases a with
    | pos v =>
      obtain ⟨e, he⟩ := posStep_closed sig i st v h
      rw [loop, he]; exact ⟨_, rfl⟩
    | named n v =>
      rw [loop]
      cases hs : namedStep sig i st n v with
      | error e => exact ⟨_, rfl⟩
      | ok st' => exact ih _ _ (.inr (namedStep_closed sig i st st' n v hs))
    | splat v es fits =>
      rw [loop_splat]
      by_cases hc : sig.variadic = .typed ∧ i = sig.vaargIndex ∧ lastOrNamed (b ++ .pos w :: c) = true ∧ fits = true
      · rw [if_pos hc]; exact ih _ _ (.inl rfl)
      · rw [if_neg hc]
        cases es with
        | none => exact ⟨_, rfl⟩
        | some es =>
          cases es with
          | nil => exact ⟨_, rfl⟩
          | cons u us =>
            simp only
            cases hs : posSteps sig i st (u :: us) with
            | error e => exact ⟨_, rfl⟩
            | ok st' => rw [posSteps_closed sig i st _ h st' hs]; exact ih _ _ h
    | vasplat es =>
      rw [loop]
      cases hs : posSteps sig i st es with
      | error e => exact ⟨_, rfl⟩
      | ok st' => rw [posSteps_closed sig i st _ h st' hs]; exact ih _ _ h

theorem loop_after_named (sig : Sig) (a b c : List (Arg V)) (n : Nat) (v w : V) : ∀ (i : Nat) (st : St V),
    ∃ e, loop sig i st (a ++ .named n v :: (b ++ .pos w :: c)) = .error e := by
  induction a with
  | nil =>
    intro i st
    rw [List.nil_append, loop]
    cases hs : namedStep sig i st n v with
    | error e => exact ⟨_, rfl⟩
    | ok st' => exact loop_closed sig b w c _ _ (.inr (namedStep_closed sig i st st' n v hs))
  | cons x a ih =>
    intro i st
    rw [List.cons_append]
    cases x with
    | pos u =>
      rw [loop]
      cases posStep sig i st u with
      | error e => exact ⟨_, rfl⟩
      | ok st' => exact ih _ _
    | named m u =>
      rw [loop]
      cases namedStep sig i st m u with
      | error e => exact ⟨_, rfl⟩
      | ok st' => exact ih _ _
    | splat u es fits =>
      rw [loop_splat]
      split
      · exact ih _ _
      · cases es with
        | none => exact ⟨_, rfl⟩
        | some es =>
          cases es with
          | nil => exact ⟨_, rfl⟩
          | cons u us =>
            simp only
            cases posSteps sig i st (u :: us) with
            | error e => exact ⟨_, rfl⟩
            | ok st' => exact ih _ _
    | vasplat es =>
      rw [loop]
      cases posSteps sig i st es with
      | error e => exact ⟨_, rfl⟩
      | ok st' => exact ih _ _

/-! ## Splats -/

/-- A splat without elements that is not the slice of the varargs is refused in every state. -/
theorem loop_empty (sig : Sig) (a b : List (Arg V)) (v : V) (fits : Bool)
    (h : fits = false ∨ sig.variadic ≠ .typed ∨ lastOrNamed b = false) : ∀ (i : Nat) (st : St V),
    ∃ e, loop sig i st (a ++ .splat v (some []) fits :: b) = .error e := by
  induction a with
  | nil =>
    intro i st
    rw [List.nil_append, loop_splat, if_neg]
    · exact ⟨_, rfl⟩
    · rintro ⟨h1, _, h3, h4⟩
      rcases h with h | h | h
      · rw [h] at h4; cases h4
      · exact h h1
      · rw [h] at h3; cases h3
  | cons x a ih =>
    intro i st
    rw [List.cons_append]
    cases x with
    | pos u =>
      rw [loop]
      cases posStep sig i st u with
      | error e => exact ⟨_, rfl⟩
      | ok st' => exact ih _ _
    | named m u =>
      rw [loop]
      cases namedStep sig i st m u with
      | error e => exact ⟨_, rfl⟩
      | ok st' => exact ih _ _
    | splat u es fits =>
      rw [loop_splat]
      split
      · exact ih _ _
      · cases es with
        | none => exact ⟨_, rfl⟩
        | some es =>
          cases es with
          | nil => exact ⟨_, rfl⟩
          | cons u us =>
            simp only
            cases posSteps sig i st (u :: us) with
            | error e => exact ⟨_, rfl⟩
            | ok st' => exact ih _ _
    | vasplat es =>
      rw [loop]
      cases posSteps sig i st es with
      | error e => exact ⟨_, rfl⟩
      | ok st' => exact ih _ _

theorem lastOrNamed_append (a b c : List (Arg V)) (h : lastOrNamed b = lastOrNamed c) :
    lastOrNamed (a ++ b) = lastOrNamed (a ++ c) := by
  cases a with
  | nil => exact h
  | cons x a => cases x <;> rfl

theorem loop_front (sig : Sig) (a b c : List (Arg V)) (hl : lastOrNamed b = lastOrNamed c)
    (h : ∀ (i : Nat) (st : St V), loop sig i st b = loop sig i st c) :
    ∀ (i : Nat) (st : St V), loop sig i st (a ++ b) = loop sig i st (a ++ c) := by
  induction a with
  | nil => exact h
  | cons x a ih =>
    intro i st
    rw [List.cons_append, List.cons_append]
    cases x with
    | pos v =>
      rw [loop, loop]
      cases posStep sig i st v with
      | error e => rfl
      | ok st' => exact ih _ _
    | named n v =>
      rw [loop, loop]
      cases namedStep sig i st n v with
      | error e => rfl
      | ok st' => exact ih _ _
    | splat v es fits =>
      rw [loop_splat, loop_splat, lastOrNamed_append a b c hl]
      split
      · exact ih _ _
      · cases es with
        | none => rfl
        | some es =>
          cases es with
          | nil => rfl
          | cons u us =>
            simp only
            cases posSteps sig i st (u :: us) with
            | error e => rfl
            | ok st' => exact ih _ _
    | vasplat es =>
      rw [loop, loop]
      cases posSteps sig i st es with
      | error e => rfl
      | ok st' => exact ih _ _

end C3.CallArgs
