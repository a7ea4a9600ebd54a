import Verif.Ring.Lemmas

/-! # Properties of ring buffers -/

set_option autoImplicit false

namespace C3.Ring
open C3.Codec (store)

variable {α : Type}

theorem run_spec {n : Nat} : ∀ (ops : List (Op α)) (r : RingBuffer α) (s s' : List α) (xs : List (Res α)),
    Holds r n s → specRun n s ops = some (s', xs) → ∃ r', run r ops = some (r', xs) ∧ Holds r' n s'
  | [], r, s, s', xs, h, hs => by
    simp only [specRun, Option.some.injEq, Prod.mk.injEq] at hs
    obtain ⟨rfl, rfl⟩ := hs
    exact ⟨r, rfl, h⟩
  | op :: ops, r, s, s', xs, h, hs => by
    simp only [specRun, Option.bind_eq_bind, Option.bind_eq_some_iff] at hs
    obtain ⟨⟨s1, x⟩, h1, ⟨s2, xs'⟩, h2, h3⟩ := hs
    simp only [Option.some.injEq, Prod.mk.injEq] at h2 h3
    obtain ⟨rfl, rfl⟩ := h3
    have key : ∃ r1, step r op = some (r1, x) ∧ Holds r1 n s1 := by
      cases op with
      | push c =>
        simp only [specStep, Option.some.injEq, Prod.mk.injEq] at h1
        obtain ⟨rfl, rfl⟩ := h1
        obtain ⟨r1, e1, e2, _⟩ := push_spec c h
        exact ⟨r1, by simp [step, e1], e2⟩
      | write cs =>
        simp only [specStep, Option.some.injEq, Prod.mk.injEq] at h1
        obtain ⟨rfl, rfl⟩ := h1
        obtain ⟨r1, e1, e2⟩ := write_spec cs r s h
        exact ⟨r1, by simp [step, e1], e2⟩
      | pop =>
        simp only [specStep] at h1
        by_cases hl : s.length < n
        · rw [if_pos hl] at h1
          simp only [Option.some.injEq, Prod.mk.injEq] at h1
          obtain ⟨rfl, rfl⟩ := h1
          obtain ⟨r1, e1, e2⟩ := pop_spec h hl
          exact ⟨r1, by simp [step, e1], e2⟩
        · rw [if_neg hl] at h1; simp at h1
      | get i =>
        simp only [specStep, Option.map_eq_some_iff, Prod.mk.injEq] at h1
        obtain ⟨v, hv, rfl, rfl⟩ := h1
        exact ⟨r, by simp [step, get_spec h hv], h⟩
    obtain ⟨r1, e1, e2⟩ := key
    obtain ⟨r2, g1, g2⟩ := run_spec ops r1 s1 s2 xs' e2 h2
    exact ⟨r2, by simp [run, e1, g1], g2⟩

/-- C36, except for popping a full buffer: on a fresh ring buffer of capacity `n`, in any history of
`push`, `write`, `get` and `pop` in which `pop` is only called while fewer than `n` elements are held,
index `i` delivers the `i`-th oldest of the last `n` elements, and `pop` removes and returns the
newest.  Missing: `pop` on a full buffer (false: `C36_pop_full`, `C36_pop_full_wrap`) and `read`
(`C36_read_partial`). -/
theorem C36_history_partial (n : Nat) (hn : 0 < n) (hn64 : n < 2 ^ 63) (zero : α) (ops : List (Op α)) (s' : List α)
    (results : List (Res α)) (hs : specRun n [] ops = some (s', results)) :
    ∃ r', run (init n zero) ops = some (r', results) ∧ ∀ i v, s'[i]? = some v → get r' i = some v := by
  have h0 : Holds (init n zero) n ([] : List α) := ⟨hn, hn64, by simp [init], .inl ⟨rfl, hn, rfl, by simp⟩⟩
  obtain ⟨r', e1, e2⟩ := run_spec ops _ _ _ _ h0 hs
  exact ⟨r', e1, fun i v hv => get_spec e2 hv⟩

example : specRun 3 ([] : List Nat) [.push 1, .push 2, .pop, .write [5, 6, 7, 8], .get 0, .push 9, .get 2] =
    some ([7, 8, 9], [.unit, .unit, .value (some 2), .unit, .value (some 6), .unit, .value (some 9)]) := by rfl

/-- The window of `n` elements a full ring buffer shows through `get`. -/
def window (r : RingBuffer α) : List α := r.buf.drop r.head ++ r.buf.take r.head

/-- A ring buffer that has been filled: what `push` and `write` produce (`C36_full_reached`). -/
def Filled (r : RingBuffer α) : Prop :=
  0 < r.buf.length ∧ r.buf.length < 2 ^ 63 ∧ r.written = r.buf.length ∧ r.head < r.buf.length

theorem holds_of_filled {r : RingBuffer α} (h : Filled r) : Holds r r.buf.length (window r) := by
  obtain ⟨h1, h2, h3, h4⟩ := h
  refine ⟨h1, h2, rfl, .inr ⟨h3, ?_, h4, rfl⟩⟩
  simp [window]; omega

/-- `window` is what `get` shows, and every history that wrote at least `n` elements without popping
ends in a filled buffer. -/
theorem C36_full_reached (n : Nat) (hn : 0 < n) (hn64 : n < 2 ^ 63) (zero : α) (xs : List α) (hx : n ≤ xs.length) :
    ∃ r, write (init n zero) xs = some r ∧ Filled r ∧ window r = lastN n xs ∧
      ∀ i v, (window r)[i]? = some v → get r i = some v := by
  have h0 : Holds (init n zero) n ([] : List α) := ⟨hn, hn64, by simp [init], .inl ⟨rfl, hn, rfl, by simp⟩⟩
  obtain ⟨r, e1, e2⟩ := write_spec xs _ _ h0
  rw [List.nil_append] at e2
  have hlen : (lastN n xs).length = n := by simp [lastN]; omega
  obtain ⟨g1, g2, g3, g4⟩ := e2
  rcases g4 with ⟨_, h2, _⟩ | ⟨h1, h2, h3, h4⟩
  · omega
  · have hf : Filled r := ⟨by omega, by omega, by omega, by omega⟩
    exact ⟨r, e1, hf, h4.symm, fun i v hv => get_spec (holds_of_filled hf) hv⟩

/-- Popping a full buffer does not remove the element: when the head is not at slot 0, or the
capacity divides `2 ^ 64`, `pop` returns the newest element but leaves it in the window, as the oldest. -/
theorem C36_pop_full (r : RingBuffer α) (hf : Filled r) (hh : r.head ≠ 0 ∨ r.buf.length ∣ 2 ^ 64) :
    ∃ r' x, pop r = some (r', some x) ∧ (window r).getLast? = some x ∧ Filled r' ∧
      window r' = x :: (window r).dropLast := by
  obtain ⟨h1, h2, h3, h4⟩ := hf
  obtain ⟨buf, w, hd⟩ := r
  simp only at h1 h2 h3 h4 hh ⊢
  subst h3
  unfold pop
  simp only
  rw [if_neg (by omega), if_neg (by omega), umod_pos h1, Option.bind_eq_bind, Option.bind_some]
  by_cases hd0 : hd = 0
  · subst hd0
    have hdiv : buf.length ∣ 2 ^ 64 := by simpa using hh
    have hm : (2 ^ 64 + 0 - 1) % 2 ^ 64 % buf.length = buf.length - 1 := by
      rw [Nat.mod_eq_of_lt (by omega : 2 ^ 64 + 0 - 1 < 2 ^ 64)]
      obtain ⟨q, hq⟩ := hdiv
      have hq0 : 0 < q := by
        by_contra h
        rw [Nat.eq_zero_of_not_pos h, Nat.mul_zero] at hq
        omega
      have : 2 ^ 64 + 0 - 1 = (buf.length - 1) + buf.length * (q - 1) := by
        rw [Nat.mul_sub, Nat.mul_one, ← hq]
        have : buf.length ≤ buf.length * q := Nat.le_mul_of_pos_right _ hq0
        omega
      rw [this, Nat.add_mul_mod_self_left]
      exact Nat.mod_eq_of_lt (by omega)
    have hne : buf ≠ [] := by rintro rfl; simp at h1
    have hv : buf[buf.length - 1]? = some (buf.getLast hne) := by
      rw [← List.getLast?_eq_getElem?, List.getLast?_eq_some_getLast hne]
    rw [hm, hv, Option.bind_eq_bind, Option.bind_some]
    refine ⟨_, _, rfl, ?_, ⟨h1, h2, rfl, by simp only; omega⟩, ?_⟩
    · simp only [window, List.drop_zero, List.take_zero, List.append_nil]
      exact List.getLast?_eq_some_getLast hne
    · simp only [window, List.drop_zero, List.take_zero, List.append_nil]
      rw [List.dropLast_eq_take]
      have : buf.drop (buf.length - 1) = [buf.getLast hne] := by
        conv_lhs => rw [← List.dropLast_append_getLast hne]
        rw [List.drop_append, List.drop_eq_nil_of_le (by simp)]
        simp
      rw [this]; rfl
  · have hm : (2 ^ 64 + hd - 1) % 2 ^ 64 % buf.length = hd - 1 := by
      rw [show 2 ^ 64 + hd - 1 = 2 ^ 64 + (hd - 1) by omega, Nat.add_mod_left, Nat.mod_eq_of_lt (by omega : hd - 1 < 2 ^ 64)]
      exact Nat.mod_eq_of_lt (by omega)
    obtain ⟨a, x, b, rfl, ha⟩ : ∃ a x b, buf = a ++ x :: b ∧ a.length = hd - 1 :=
      ⟨buf.take (hd - 1), buf[hd - 1], buf.drop (hd - 1 + 1), by simp, by simp; omega⟩
    have hda : hd = a.length + 1 := by omega
    subst hda
    rw [hm, Nat.add_sub_cancel]
    have hv : (a ++ x :: b)[a.length]? = some x := by simp
    rw [hv, Option.bind_eq_bind, Option.bind_some]
    have e1 : a ++ x :: b = (a ++ [x]) ++ b := by simp
    have e2 : a.length + 1 = (a ++ [x]).length := by simp
    have hw : window ⟨a ++ x :: b, (a ++ x :: b).length, a.length + 1⟩ = b ++ (a ++ [x]) := by
      simp only [window]
      rw [e1, e2, List.drop_left, List.take_left]
    refine ⟨_, x, rfl, ?_, ⟨h1, h2, rfl, by simp⟩, ?_⟩
    · rw [hw]; simp
    · rw [hw]
      simp only [window]
      rw [List.drop_left, List.take_left, ← List.append_assoc, List.dropLast_append_of_ne_nil (by simp)]
      simp

/-- When the head is at slot 0 and the capacity does not divide `2 ^ 64`, `pop` on a full buffer returns
the element at the wrong index `(2 ^ 64 - 1) % n`, which is never the newest, `n - 1`. -/
theorem C36_pop_full_wrap (r : RingBuffer α) (hf : Filled r) (hh : r.head = 0) (hd : ¬ r.buf.length ∣ 2 ^ 64) :
    (∃ r' x, pop r = some (r', some x) ∧ (window r)[(2 ^ 64 - 1) % r.buf.length]? = some x) ∧
      (2 ^ 64 - 1) % r.buf.length ≠ r.buf.length - 1 := by
  obtain ⟨h1, h2, h3, h4⟩ := hf
  obtain ⟨buf, w, hd'⟩ := r
  simp only at h1 h2 h3 h4 hh hd ⊢
  subst h3
  subst hh
  constructor
  · unfold pop
    simp only
    rw [if_neg (by omega), if_neg (by omega), umod_pos h1, Option.bind_eq_bind, Option.bind_some,
      Nat.mod_eq_of_lt (by omega : 2 ^ 64 + 0 - 1 < 2 ^ 64)]
    have hlt : (2 ^ 64 - 1) % buf.length < buf.length := Nat.mod_lt _ h1
    have e : 2 ^ 64 + 0 - 1 = 2 ^ 64 - 1 := by omega
    rw [e, List.getElem?_eq_getElem hlt, Option.bind_eq_bind, Option.bind_some]
    exact ⟨_, _, rfl, by simp only [window, List.drop_zero, List.take_zero, List.append_nil]; exact List.getElem?_eq_getElem hlt⟩
  · intro he
    apply hd
    have := Nat.div_add_mod (2 ^ 64 - 1) buf.length
    rw [he] at this
    refine ⟨(2 ^ 64 - 1) / buf.length + 1, ?_⟩
    rw [Nat.mul_add, Nat.mul_one]
    omega

example : pop (⟨[1, 2, 3], 3, 0⟩ : RingBuffer Nat) = some (⟨[1, 2, 3], 3, 0⟩, some 1) := by decide

example : pop (⟨[1, 2, 3, 4], 4, 2⟩ : RingBuffer Nat) = some (⟨[1, 2, 3, 4], 4, 1⟩, some 2) ∧
    window (⟨[1, 2, 3, 4], 4, 2⟩ : RingBuffer Nat) = [3, 4, 1, 2] ∧
    window (⟨[1, 2, 3, 4], 4, 1⟩ : RingBuffer Nat) = [2, 3, 4, 1] := by decide

/-! ## read -/

/-- What reading from index `k` of the window `s` into `buffer` should do: copy as many elements as
both have, leave the rest of `buffer` alone, and return the count. -/
def readSpec (s : List α) (k : Nat) (buffer : List α) : List α × Nat :=
  ((s.drop k).take buffer.length ++ buffer.drop (s.length - k), min (s.length - k) buffer.length)

theorem copyTo_zero (buffer v : List α) (h : v.length ≤ buffer.length) :
    copyTo buffer 0 v = some (v ++ buffer.drop v.length) := by
  unfold copyTo
  rw [if_pos (by omega)]
  simp

theorem last_eq {buf : List α} {hd : Nat} (h : hd < buf.length) (h2 : buf.length < 2 ^ 63) :
    (2 ^ 64 + buf.length - hd) % 2 ^ 64 = buf.length - hd := by
  rw [show 2 ^ 64 + buf.length - hd = 2 ^ 64 + (buf.length - hd) by omega, Nat.add_mod_left]
  exact Nat.mod_eq_of_lt (by omega)

/-- C36, `read`, while the buffer is not full: right for every index and every target. -/
theorem C36_read_not_full (n : Nat) (r : RingBuffer α) (s : List α) (h : Holds r n s) (hs : s.length < n)
    (index : Nat) (buffer : List α) : read r index buffer = some (readSpec s (index % n) buffer) := by
  obtain ⟨h0, h64, hl, h⟩ := h
  obtain ⟨buf, w, hd⟩ := r
  simp only at hl h ⊢
  subst hl
  rcases h with ⟨rfl, h2, rfl, h4⟩ | ⟨rfl, h2, h3, h4⟩
  · unfold read
    simp only
    rw [umod_pos h0, Option.bind_eq_bind, Option.bind_some, if_pos h2]
    generalize hk : index % buf.length = k
    by_cases hc : k ≥ s.length
    · rw [if_pos hc]
      simp [readSpec, Nat.sub_eq_zero_of_le hc, List.drop_eq_nil_of_le hc]
    · rw [if_neg hc]
      have hsl : slice buf k (min (s.length - k) buffer.length) =
          some (((s.drop k)).take (min (s.length - k) buffer.length)) := by
        unfold slice
        rw [if_pos (by omega)]
        congr 1
        conv_rhs => rw [← h4]
        rw [List.drop_take, List.take_take]
        congr 1
        rw [h4]; omega
      rw [hsl, Option.bind_eq_bind, Option.bind_some, copyTo_zero _ _ (by simp; omega), Option.bind_some]
      simp only [readSpec, Option.some.injEq, Prod.mk.injEq, and_true]
      have hlen : (List.take (min (s.length - k) buffer.length) (List.drop k s)).length = min (s.length - k) buffer.length := by
        simp
      rw [hlen]
      congr 1
      · by_cases hb : s.length - k ≤ buffer.length
        · rw [List.take_of_length_le (by simp; omega), List.take_of_length_le (by simp; omega)]
        · rw [Nat.min_eq_right (by omega)]
      · by_cases hb : s.length - k ≤ buffer.length
        · rw [Nat.min_eq_left hb]
        · rw [List.drop_eq_nil_of_le (by omega), List.drop_eq_nil_of_le (by omega)]
  · omega

theorem window_drop_lt {buf : List α} {hd k : Nat} (hk : k < buf.length - hd) :
    (buf.drop hd ++ buf.take hd).drop k = buf.drop (hd + k) ++ buf.take hd := by
  rw [List.drop_append_of_le_length (by simp; omega), List.drop_drop]

/-- C36, `read`, on a full buffer: exactly when it does the right thing.  `k` is the index reduced to
the window.  It is right when the part read lies in the wrapped-around part of the storage, when the
target is no longer than what is left before the end of the storage, or by accident when the head is
at slot 0 and the index is half the capacity; in all other cases it reads past the storage or
delivers too many elements. -/
theorem C36_read_full_iff (r : RingBuffer α) (hf : Filled r) (index : Nat) (buffer : List α)
    (hbuf : buffer.length < 2 ^ 63) :
    read r index buffer = some (readSpec (window r) (index % r.buf.length) buffer) ↔
      (r.buf.length - r.head ≤ index % r.buf.length ∨
       buffer.length ≤ r.buf.length - r.head - index % r.buf.length ∨
       (r.head = 0 ∧ 2 * (index % r.buf.length) = r.buf.length)) := by
  obtain ⟨h1, h2, h3, h4⟩ := hf
  obtain ⟨buf, w, hd⟩ := r
  simp only at h1 h2 h3 h4 ⊢
  subst h3
  have hwl : (window ⟨buf, buf.length, hd⟩).length = buf.length := by simp [window]; omega
  have hkl : index % buf.length < buf.length := Nat.mod_lt _ h1
  unfold read
  simp only
  rw [umod_pos h1, Option.bind_eq_bind, Option.bind_some, if_neg (by omega), last_eq h4 h2]
  generalize index % buf.length = k at *
  by_cases hc : k ≥ buf.length - hd
  · rw [if_pos hc, if_neg (by omega)]
    refine ⟨fun _ => .inl hc, fun _ => ?_⟩
    have hwd : (window ⟨buf, buf.length, hd⟩).drop k = (buf.take hd).drop (k - (buf.length - hd)) := by
      simp only [window]
      rw [List.drop_append, List.drop_eq_nil_of_le (by simp; omega), List.length_drop, List.nil_append]
    have hsl : slice buf (k - (buf.length - hd)) (min (hd - (k - (buf.length - hd))) buffer.length) =
        some (((window ⟨buf, buf.length, hd⟩).drop k).take (min (buf.length - k) buffer.length)) := by
      unfold slice
      rw [if_pos (by omega), hwd, List.drop_take, List.take_take]
      congr 2
      omega
    rw [hsl, Option.bind_eq_bind, Option.bind_some, copyTo_zero _ _ (by simp; omega), Option.bind_some]
    simp only [readSpec, hwl, Option.some.injEq, Prod.mk.injEq]
    refine ⟨?_, by omega⟩
    have hlen : (List.take (min (buf.length - k) buffer.length) ((window ⟨buf, buf.length, hd⟩).drop k)).length =
        min (buf.length - k) buffer.length := by
      rw [List.length_take, List.length_drop, hwl]; omega
    rw [hlen]
    congr 1
    · by_cases hb : buf.length - k ≤ buffer.length
      · rw [List.take_of_length_le (by rw [List.length_drop, hwl]; omega),
          List.take_of_length_le (by rw [List.length_drop, hwl]; omega)]
      · rw [Nat.min_eq_right (by omega)]
    · by_cases hb : buf.length - k ≤ buffer.length
      · rw [Nat.min_eq_left hb]
      · rw [List.drop_eq_nil_of_le (by omega), List.drop_eq_nil_of_le (by omega)]
  · rw [if_neg hc]
    have hck : k < buf.length - hd := by omega
    have hwd : (window ⟨buf, buf.length, hd⟩).drop k = buf.drop (hd + k) ++ buf.take hd := window_drop_lt hck
    by_cases hb : buffer.length ≤ buf.length - k
    · rw [if_pos hb]
      by_cases hg : buffer.length ≤ buf.length - hd - k
      · refine ⟨fun _ => .inr (.inl hg), fun _ => ?_⟩
        unfold slice
        rw [if_pos (by omega), Option.bind_eq_bind, Option.bind_some, copyTo_zero _ _ (by simp; omega),
          Option.bind_some]
        simp only [readSpec, hwl, Option.some.injEq, Prod.mk.injEq]
        refine ⟨?_, by omega⟩
        rw [hwd, List.take_append_of_le_length (by simp; omega)]
        congr 1
        rw [List.drop_eq_nil_of_le (by simp; omega), List.drop_eq_nil_of_le (by omega)]
      · refine ⟨fun h => ?_, fun h => ?_⟩
        · unfold slice at h
          rw [if_neg (by omega)] at h
          simp at h
        · rcases h with h | h | ⟨h, h'⟩
          · omega
          · omega
          · omega
    · rw [if_neg hb]
      by_cases hd0 : hd = 0
      · subst hd0
        have hsl : slice buf (0 + k) (buf.length - k) = some (buf.drop k) := by
          unfold slice
          rw [if_pos (by omega), Nat.zero_add, List.take_of_length_le (by simp)]
        rw [hsl, Option.bind_eq_bind, Option.bind_some, copyTo_zero _ _ (by simp; omega),
          Option.bind_some, List.length_drop]
        have hrs : readSpec (window ⟨buf, buf.length, 0⟩) k buffer =
            (buf.drop k ++ buffer.drop (buf.length - k), buf.length - k) := by
          simp only [readSpec, window, List.drop_zero, List.take_zero, List.append_nil, Prod.mk.injEq]
          refine ⟨?_, by omega⟩
          rw [List.take_of_length_le (by simp; omega)]
        rw [hrs]
        rcases Nat.lt_trichotomy (2 * k) buf.length with hlt | heq | hgt
        · refine ⟨fun h => ?_, fun h => by omega⟩
          have hi : (2 ^ 64 + k - (buf.length - k)) % 2 ^ 64 = 2 ^ 64 + k - (buf.length - k) := Nat.mod_eq_of_lt (by omega)
          rw [hi] at h
          have hn2 : (2 ^ 64 + 0 - (2 ^ 64 + k - (buf.length - k))) % 2 ^ 64 = buf.length - k - k := by
            rw [show 2 ^ 64 + 0 - (2 ^ 64 + k - (buf.length - k)) = buf.length - k - k by omega]
            exact Nat.mod_eq_of_lt (by omega)
          rw [hn2] at h
          have hs2 : slice buf (2 ^ 64 + k - (buf.length - k)) (min (buf.length - k - k) (buffer.length - (buf.length - k))) = none := by
            unfold slice
            rw [if_neg (by omega)]
          rw [hs2] at h
          simp at h
        · refine ⟨fun _ => .inr (.inr ⟨rfl, heq⟩), fun _ => ?_⟩
          have hi : (2 ^ 64 + k - (buf.length - k)) % 2 ^ 64 = 0 := by
            rw [show 2 ^ 64 + k - (buf.length - k) = 2 ^ 64 by omega]
          rw [hi, Nat.add_zero, Nat.sub_zero, Nat.mod_self, Nat.zero_min]
          have hs2 : slice buf 0 0 = some [] := by simp [slice]
          rw [hs2, Option.bind_some]
          have hc2 : copyTo (buf.drop k ++ buffer.drop (buf.length - k)) (buf.length - k) [] =
              some (buf.drop k ++ buffer.drop (buf.length - k)) := by
            unfold copyTo
            rw [if_pos (by simp)]
            simp
          rw [hc2]
          rfl
        · refine ⟨fun h => ?_, fun h => by omega⟩
          exfalso
          have hi : (2 ^ 64 + k - (buf.length - k)) % 2 ^ 64 = k - (buf.length - k) := by
            rw [show 2 ^ 64 + k - (buf.length - k) = 2 ^ 64 + (k - (buf.length - k)) by omega, Nat.add_mod_left]
            exact Nat.mod_eq_of_lt (by omega)
          rw [hi] at h
          have hn2 : (2 ^ 64 + 0 - (k - (buf.length - k))) % 2 ^ 64 = 2 ^ 64 - (k - (buf.length - k)) := by
            rw [Nat.add_zero]; exact Nat.mod_eq_of_lt (by omega)
          rw [hn2, Nat.min_eq_right (by omega)] at h
          simp only [Option.bind_eq_bind, Option.bind_eq_some_iff, Option.some.injEq, Prod.mk.injEq] at h
          obtain ⟨v, _, b, _, _, h5⟩ := h
          omega
      · refine ⟨fun h => ?_, fun h => by omega⟩
        unfold slice at h
        rw [if_neg (by omega)] at h
        simp at h

/-- C36, `read`, what holds of the code: right on a buffer that is not full, and on a full one when the
part read does not cross the end of the storage.  Missing: all other reads of a full buffer, for which
`C36_read_full_iff` shows the claim false. -/
theorem C36_read_partial (r : RingBuffer α) (n : Nat) (s : List α) (h : Holds r n s) (index : Nat) (buffer : List α)
    (hbuf : buffer.length < 2 ^ 63)
    (hc : s.length < n ∨ n - r.head ≤ index % n ∨ buffer.length ≤ n - r.head - index % n) :
    read r index buffer = some (readSpec s (index % n) buffer) := by
  by_cases hs : s.length < n
  · exact C36_read_not_full n r s h hs index buffer
  · obtain ⟨h0, h64, hl, h⟩ := h
    rcases h with ⟨_, h2, _⟩ | ⟨h1, h2, h3, h4⟩
    · omega
    · have hf : Filled r := ⟨by omega, by omega, by omega, by omega⟩
      have : s = window r := h4
      rw [this, ← hl]
      refine (C36_read_full_iff r hf index buffer hbuf).2 ?_
      rw [hl]
      rcases hc with hc | hc | hc
      · omega
      · exact .inl hc
      · exact .inr (.inl hc)

/-- Four of five elements read across the end of the storage: the code accesses slot 5 and faults. -/
example : read (⟨[6, 2, 3, 4, 5], 5, 1⟩ : RingBuffer Nat) 1 [0, 0, 0, 0] = none ∧
    readSpec (window (⟨[6, 2, 3, 4, 5], 5, 1⟩ : RingBuffer Nat)) 1 [0, 0, 0, 0] = ([3, 4, 5, 6], 4) := by decide

end C3.Ring
