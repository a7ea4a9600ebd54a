import Verif.Ring.Spec
import Mathlib.Data.List.Basic

/-! # Helper lemmas for ring buffers -/

set_option autoImplicit false

namespace C3.Ring
open C3.Codec (store)

variable {α : Type}

/-- The ring buffer of capacity `n` holds the window `s`, oldest first. -/
def Holds (r : RingBuffer α) (n : Nat) (s : List α) : Prop :=
  0 < n ∧ n < 2 ^ 63 ∧ r.buf.length = n ∧
    ((r.written = s.length ∧ s.length < n ∧ r.head = 0 ∧ r.buf.take s.length = s) ∨
     (r.written = n ∧ s.length = n ∧ r.head < n ∧ s = r.buf.drop r.head ++ r.buf.take r.head))

theorem lastN_of_le {n : Nat} {s : List α} (h : s.length ≤ n) : lastN n s = s := by
  simp [lastN, Nat.sub_eq_zero_of_le h]

theorem lastN_succ {n : Nat} {s : List α} (x : α) (h : s.length = n) (hn : 0 < n) :
    lastN n (s ++ [x]) = s.tail ++ [x] := by
  unfold lastN
  rw [List.length_append, List.length_singleton, h, Nat.add_sub_cancel_left]
  cases s with
  | nil => simp at h; omega
  | cons a t => simp

theorem umod_pos {a b : Nat} (h : 0 < b) : umod a b = some (a % b) := by
  unfold umod; rw [if_neg (by omega)]

theorem set_head_window (buf : List α) (h : Nat) (hh : h < buf.length) (c : α) :
    (buf.drop h ++ buf.take h).tail ++ [c] =
      (buf.set h c).drop ((h + 1) % buf.length) ++ (buf.set h c).take ((h + 1) % buf.length) := by
  obtain ⟨a, x, b, rfl, ha⟩ : ∃ a x b, buf = a ++ x :: b ∧ a.length = h :=
    ⟨buf.take h, buf[h], buf.drop (h + 1), by simp, by simp; omega⟩
  subst ha
  have e1 : (a ++ x :: b).set a.length c = a ++ c :: b := by simp
  rw [e1]
  by_cases hb : b = []
  · subst hb
    have : (a.length + 1) % (a ++ [x]).length = 0 := by simp
    rw [this]
    simp
  · have hbl : 0 < b.length := List.length_pos_iff.2 hb
    have : (a.length + 1) % (a ++ x :: b).length = a.length + 1 := Nat.mod_eq_of_lt (by simp; omega)
    rw [this]
    have e2 : a ++ c :: b = (a ++ [c]) ++ b := by simp
    rw [e2]
    have e3 : a.length + 1 = (a ++ [c]).length := by simp
    have e4 : (a ++ x :: b).drop a.length = x :: b := List.drop_left
    have e5 : (a ++ x :: b).take a.length = a := List.take_left
    rw [e3, List.drop_left, List.take_left, List.drop_left, List.take_left]
    simp

theorem push_spec {r : RingBuffer α} {n : Nat} {s : List α} (x : α) (h : Holds r n s) :
    ∃ r', push r x = some r' ∧ Holds r' n (lastN n (s ++ [x])) ∧ r'.written = min n (r.written + 1) := by
  obtain ⟨h0, h64, hl, h⟩ := h
  obtain ⟨buf, w, hd⟩ := r
  simp only at hl h ⊢
  subst hl
  rcases h with ⟨rfl, h2, rfl, h4⟩ | ⟨rfl, h2, h3, h4⟩
  · unfold push
    rw [if_pos (by simpa using h2)]
    simp only [store]
    rw [if_pos h2, Option.bind_eq_bind, Option.bind_some]
    refine ⟨_, rfl, ?_, by simp only; omega⟩
    rw [lastN_of_le (by simp; omega)]
    have hset : (buf.set s.length x).take (s.length + 1) = s ++ [x] := by
      rw [List.take_succ_eq_append_getElem (by simp; omega), List.getElem_set_self, List.take_set_of_le (Nat.le_refl _), h4]
    refine ⟨h0, h64, by simp, ?_⟩
    by_cases hfull : s.length + 1 < buf.length
    · left
      exact ⟨by simp, by simpa using hfull, rfl, by simpa using hset⟩
    · right
      have he : s.length + 1 = buf.length := by omega
      refine ⟨by simpa using he, by simpa using he, by omega, ?_⟩
      rw [List.drop_zero, List.take_zero, List.append_nil, ← hset, he]
      rw [List.take_of_length_le (by simp)]
  · unfold push
    rw [if_neg (by simp)]
    simp only [store]
    rw [if_pos h3, Option.bind_eq_bind, Option.bind_some, umod_pos h0, Option.bind_eq_bind, Option.bind_some]
    refine ⟨_, rfl, ?_, by simp only; omega⟩
    rw [lastN_succ x h2 h0]
    refine ⟨h0, h64, by simp, .inr ⟨by simp, ?_, ?_, ?_⟩⟩
    · simp only [List.length_append, List.length_tail, List.length_singleton]; omega
    · simp only [List.length_set]; exact Nat.mod_lt _ h0
    · simp only
      rw [h4]
      exact set_head_window buf hd h3 x

theorem get_spec {r : RingBuffer α} {n : Nat} {s : List α} {i : Nat} {v : α} (h : Holds r n s) (hv : s[i]? = some v) :
    get r i = some v := by
  obtain ⟨h0, h64, hl, h⟩ := h
  obtain ⟨buf, w, hd⟩ := r
  simp only at hl h ⊢
  subst hl
  have hi : i < s.length := by
    by_contra hn
    rw [List.getElem?_eq_none (by omega)] at hv; simp at hv
  unfold get
  simp only
  rw [umod_pos h0, Option.bind_eq_bind, Option.bind_some]
  rcases h with ⟨rfl, h2, rfl, h4⟩ | ⟨rfl, h2, h3, h4⟩
  · rw [Nat.mod_eq_of_lt (by omega)]
    rw [show (2 ^ 64 + buf.length - 0) % 2 ^ 64 = buf.length by rw [Nat.sub_zero, Nat.add_mod_left]; exact Nat.mod_eq_of_lt (by omega)]
    rw [if_pos (by omega), Nat.zero_add]
    rw [← h4, List.getElem?_take_of_lt hi] at hv
    exact hv
  · rw [Nat.mod_eq_of_lt (by omega : i < buf.length)]
    have he : (2 ^ 64 + buf.length - hd) % 2 ^ 64 = buf.length - hd := by
      rw [show 2 ^ 64 + buf.length - hd = 2 ^ 64 + (buf.length - hd) by omega, Nat.add_mod_left]
      exact Nat.mod_eq_of_lt (by omega)
    rw [he]
    by_cases hc : i < buf.length - hd
    · rw [if_pos hc]
      rw [h4, List.getElem?_append_left (by simpa using hc), List.getElem?_drop] at hv
      exact hv
    · rw [if_neg hc]
      rw [h4, List.getElem?_append_right (by simpa using hc), List.length_drop, List.getElem?_take_of_lt (by omega)] at hv
      exact hv

theorem pop_spec {r : RingBuffer α} {n : Nat} {s : List α} (h : Holds r n s) (hs : s.length < n) :
    ∃ r', pop r = some (r', s.getLast?) ∧ Holds r' n s.dropLast := by
  obtain ⟨h0, h64, hl, h⟩ := h
  obtain ⟨buf, w, hd⟩ := r
  simp only at hl h ⊢
  subst hl
  rcases h with ⟨rfl, h2, rfl, h4⟩ | ⟨rfl, h2, h3, h4⟩
  · unfold pop
    simp only
    by_cases he : s.length = 0
    · rw [if_pos he]
      have : s = [] := List.length_eq_zero_iff.1 he
      subst this
      exact ⟨_, rfl, h0, h64, rfl, .inl ⟨rfl, h2, rfl, by simp⟩⟩
    · rw [if_neg he, if_pos h2]
      have hv : buf[s.length - 1]? = s.getLast? := by
        rw [List.getLast?_eq_getElem?]
        conv_rhs => rw [← h4]
        rw [List.getElem?_take_of_lt (by rw [h4]; omega), h4]
      have hne : s ≠ [] := by rintro rfl; simp at he
      rw [hv, List.getLast?_eq_some_getLast hne, Option.bind_eq_bind, Option.bind_some]
      refine ⟨_, rfl, h0, h64, rfl, .inl ⟨by simp, by simp; omega, rfl, ?_⟩⟩
      simp only [List.length_dropLast]
      rw [List.dropLast_eq_take]
      conv_rhs => rw [← h4]
      rw [List.take_take, h4, Nat.min_eq_left (by omega)]
  · omega

theorem writeOver_spec {n : Nat} : ∀ (xs : List α) (r : RingBuffer α) (s : List α), Holds r n s → r.written = n →
    ∃ r', writeOver r xs = some r' ∧ Holds r' n (lastN n (s ++ xs))
  | [], r, s, h, hw => by
    refine ⟨r, rfl, ?_⟩
    have : s.length ≤ n := by
      rcases h.2.2.2 with ⟨_, h2, _⟩ | ⟨_, h2, _⟩ <;> omega
    rw [List.append_nil, lastN_of_le this]
    exact h
  | x :: xs, r, s, h, hw => by
    obtain ⟨r1, e1, e2, e3⟩ := push_spec x h
    have hl := h.2.2.1
    unfold push at e1
    rw [if_neg (by omega)] at e1
    unfold writeOver
    cases hs : store r.buf r.head x with
    | none => simp [hs] at e1
    | some b =>
      rw [hs, Option.bind_eq_bind, Option.bind_some] at e1
      cases hu : umod (r.head + 1) r.buf.length with
      | none => simp [hu] at e1
      | some k =>
        rw [hu, Option.bind_eq_bind, Option.bind_some, Option.some.injEq] at e1
        simp only [Option.bind_eq_bind, Option.bind_some]
        rw [e1]
        obtain ⟨r2, g1, g2⟩ := writeOver_spec xs r1 _ e2 (by omega)
        refine ⟨r2, g1, ?_⟩
        have : lastN n (lastN n (s ++ [x]) ++ xs) = lastN n (s ++ x :: xs) := by
          unfold lastN
          rw [show s ++ x :: xs = (s ++ [x]) ++ xs by simp]
          generalize s ++ [x] = t
          simp only [List.length_append, List.length_drop]
          have hsplit : (t ++ xs).drop (t.length - n) = t.drop (t.length - n) ++ xs := by
            rw [List.drop_append_of_le_length (by omega)]
          rw [← hsplit, List.drop_drop]
          congr 1
          omega
        rw [← this]; exact g2

theorem lastN_lastN (n : Nat) (t xs : List α) : lastN n (lastN n t ++ xs) = lastN n (t ++ xs) := by
  unfold lastN
  simp only [List.length_append, List.length_drop]
  have hsplit : (t ++ xs).drop (t.length - n) = t.drop (t.length - n) ++ xs := by
    rw [List.drop_append_of_le_length (by omega)]
  rw [← hsplit, List.drop_drop]
  congr 1
  omega

theorem write_spec {n : Nat} : ∀ (xs : List α) (r : RingBuffer α) (s : List α), Holds r n s →
    ∃ r', write r xs = some r' ∧ Holds r' n (lastN n (s ++ xs))
  | [], r, s, h => by
    refine ⟨r, rfl, ?_⟩
    have : s.length ≤ n := by
      rcases h.2.2.2 with ⟨_, h2, _⟩ | ⟨_, h2, _⟩ <;> omega
    rw [List.append_nil, lastN_of_le this]
    exact h
  | x :: xs, r, s, h => by
    have hl := h.2.2.1
    by_cases hw : r.written < r.buf.length
    · obtain ⟨r1, e1, e2, e3⟩ := push_spec x h
      unfold push at e1
      rw [if_pos hw] at e1
      cases hs : store r.buf r.written x with
      | none => simp [hs] at e1
      | some b =>
        rw [hs, Option.bind_eq_bind, Option.bind_some, Option.some.injEq] at e1
        obtain ⟨r2, g1, g2⟩ := write_spec xs r1 _ e2
        refine ⟨r2, ?_, ?_⟩
        · unfold write at g1 ⊢
          rw [← e1] at g1
          rw [writeFill, if_pos hw, hs]
          simp only [Option.bind_eq_bind, Option.bind_some] at g1 ⊢
          exact g1
        · rw [lastN_lastN] at g2
          simpa using g2
    · have hf : writeFill r (x :: xs) = some (r, x :: xs) := by rw [writeFill, if_neg hw]
      have hwn : r.written = n := by
        rcases h.2.2.2 with ⟨h1, h2, _⟩ | ⟨h1, h2, _⟩ <;> omega
      unfold write
      rw [hf, Option.bind_eq_bind, Option.bind_some]
      exact writeOver_spec (x :: xs) r s h hwn

end C3.Ring
