import Verif.Hash.Spec

set_option autoImplicit false

namespace C3.Hash

variable {σ : Type}

theorem run_short (f : σ → List Byte → σ) (s : σ) (m : List Byte) (h : m.length < 64) :
    run f s m = s := by rw [run, dif_pos h]

theorem run_cons (f : σ → List Byte → σ) (s : σ) (b m : List Byte) (h : b.length = 64) :
    run f s (b ++ m) = run f (f s b) m := by
  rw [run, dif_neg (by simp; omega), List.take_left' h, List.drop_left' h]

/-- What of a message is in no whole block. -/
def rest (m : List Byte) : List Byte := m.drop (64 * (m.length / 64))

theorem rest_length (m : List Byte) : (rest m).length = m.length % 64 := by
  rw [rest, List.length_drop]; omega

theorem rest_short (m : List Byte) (h : m.length < 64) : rest m = m := by
  rw [rest, Nat.div_eq_of_lt h]; rfl

theorem rest_cons (b m : List Byte) (h : b.length = 64) : rest (b ++ m) = rest m := by
  rw [rest, rest, List.length_append, h, show (64 + m.length) / 64 = m.length / 64 + 1 by omega,
    Nat.mul_add, Nat.add_comm, ← List.drop_drop, List.drop_left' (by omega)]

/-- The state and what is in the buffer, after `m` more bytes. -/
theorem run_append (f : σ → List Byte → σ) (n : Nat) : ∀ (s : σ) (a b : List Byte), a.length ≤ n →
    run f s (a ++ b) = run f (run f s a) (rest a ++ b) ∧ rest (a ++ b) = rest (rest a ++ b) := by
  induction n with
  | zero =>
    intro s a b h
    have : a = [] := List.length_eq_zero_iff.1 (by omega)
    subst this
    rw [run_short f s [] (by simp), rest_short [] (by simp)]
    exact ⟨rfl, rfl⟩
  | succ n ih =>
    intro s a b h
    by_cases hl : a.length < 64
    · rw [run_short f s a hl, rest_short a hl]; exact ⟨rfl, rfl⟩
    · have hb : (a.take 64).length = 64 := by simp; omega
      have ha := List.take_append_drop 64 a
      have hn : (a.drop 64).length ≤ n := by simp; omega
      obtain ⟨h1, h2⟩ := ih (f s (a.take 64)) (a.drop 64) b hn
      have e1 : rest a = rest (a.drop 64) := by
        have := rest_cons (a.take 64) (a.drop 64) hb
        rwa [ha] at this
      have e2 : run f s a = run f (f s (a.take 64)) (a.drop 64) := by
        have := run_cons f s (a.take 64) (a.drop 64) hb
        rwa [ha] at this
      have e3 : a ++ b = a.take 64 ++ (a.drop 64 ++ b) := by rw [← List.append_assoc, ha]
      rw [e1, e2, e3, run_cons f s _ _ hb, rest_cons _ _ hb]
      exact ⟨h1, h2⟩

theorem run_run (f : σ → List Byte → σ) (s : σ) (a b : List Byte) :
    run f s (a ++ b) = run f (run f s a) (rest a ++ b) := (run_append f _ s a b (Nat.le_refl _)).1

theorem rest_rest (a b : List Byte) : rest (a ++ b) = rest (rest a ++ b) :=
  (run_append (fun (s : Unit) _ => s) _ () a b (Nat.le_refl _)).2

/-! ## Buffers -/

theorem take_set (s : List Byte) (i : Nat) (c : Byte) (h : i < s.length) :
    (s.set i c).take (i + 1) = s.take i ++ [c] := by
  rw [List.take_add_one, List.take_set_of_le (Nat.le_refl i)]
  simp [h]

end C3.Hash
