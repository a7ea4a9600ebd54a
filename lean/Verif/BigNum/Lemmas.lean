import Verif.BigNum.Spec
import Mathlib.Tactic.Ring
import Mathlib.Tactic.Linarith

set_option autoImplicit false

namespace C3.BigNum

theorem span_pos (n : Nat) : 0 < span n := Nat.pow_pos (by decide)

theorem span_succ (n : Nat) : span (n + 1) = 2 ^ 32 * span n := by
  unfold span
  rw [Nat.pow_succ, Nat.mul_comm]

theorem span_add (m n : Nat) : span (m + n) = span m * span n := by
  unfold span
  rw [Nat.pow_add]

theorem span_mono {m n : Nat} (h : m ≤ n) : span m ≤ span n := Nat.pow_le_pow_right (by decide) h

theorem span_half {n : Nat} (h : 0 < n) : ∃ k, span n = 2 * k ∧ k = 2 ^ 31 * span (n - 1) := by
  obtain ⟨m, rfl⟩ : ∃ m, n = m + 1 := ⟨n - 1, by omega⟩
  exact ⟨2 ^ 31 * span m, by rw [span_succ]; ring, rfl⟩

theorem value_append (a b : List Nat) : value (a ++ b) = value a + span a.length * value b := by
  induction a with
  | nil => simp [value, span]
  | cons x a ih =>
    rw [List.cons_append, value, value, ih, List.length_cons, span_succ]
    ring

theorem value_lt (ws : List Nat) (h : ∀ w ∈ ws, w < 2 ^ 32) : value ws < span ws.length := by
  induction ws with
  | nil => exact span_pos 0
  | cons w ws ih =>
    have h1 := h w (List.mem_cons_self ..)
    have h2 := ih fun v hv => h v (List.mem_cons_of_mem _ hv)
    rw [value, List.length_cons, span_succ]
    omega

theorem value_zeros (ws : List Nat) (h : ∀ w ∈ ws, w = 0) : value ws = 0 := by
  induction ws with
  | nil => rfl
  | cons w ws ih =>
    rw [value, h w (List.mem_cons_self ..), ih fun v hv => h v (List.mem_cons_of_mem _ hv)]

theorem zeros_of_value (ws : List Nat) (h : value ws = 0) : ∀ w ∈ ws, w = 0 := by
  induction ws with
  | nil => simp
  | cons w ws ih =>
    rw [value] at h
    intro v hv
    rcases List.mem_cons.1 hv with rfl | hv
    · omega
    · exact ih (by omega) v hv

theorem value_replicate (n : Nat) : value (List.replicate n 0) = 0 :=
  value_zeros _ fun _ h => (List.mem_replicate.1 h).2

theorem value_take_drop (ws : List Nat) (n : Nat) (h : n ≤ ws.length) :
    value ws = value (ws.take n) + span n * value (ws.drop n) := by
  conv => lhs; rw [← List.take_append_drop n ws]
  rw [value_append, List.length_take, Nat.min_eq_left h]

theorem value_take (ws : List Nat) (n : Nat) (h : n ≤ ws.length)
    (hz : ∀ w ∈ ws.drop n, w = 0) : value (ws.take n) = value ws := by
  rw [value_take_drop ws n h, value_zeros _ hz]
  omega

theorem drop_zero_of_lt (ws : List Nat) (n : Nat) (h : n ≤ ws.length) (hv : value ws < span n) :
    ∀ w ∈ ws.drop n, w = 0 := by
  rw [value_take_drop ws n h] at hv
  apply zeros_of_value
  rcases Nat.eq_zero_or_pos (value (ws.drop n)) with h0 | h0
  · exact h0
  · have := Nat.le_mul_of_pos_right (span n) h0
    omega

theorem value_lt_len (ws : List Nat) (n : Nat) (hs : ∀ w ∈ ws, w < 2 ^ 32) (h : n ≤ ws.length)
    (hz : ∀ w ∈ ws.drop n, w = 0) : value ws < span n := by
  rw [← value_take ws n h hz]
  have := value_lt (ws.take n) fun w hw => hs w (List.mem_of_mem_take hw)
  rwa [List.length_take, Nat.min_eq_left h] at this

theorem value_inj (a b : List Nat) (ha : ∀ w ∈ a, w < 2 ^ 32) (hb : ∀ w ∈ b, w < 2 ^ 32)
    (hl : a.length = b.length) (h : value a = value b) : a = b := by
  induction a generalizing b with
  | nil => exact (List.length_eq_zero_iff.1 hl.symm).symm
  | cons x a ih =>
    cases b with
    | nil => simp at hl
    | cons y b =>
      have h1 := ha x (List.mem_cons_self ..)
      have h2 := hb y (List.mem_cons_self ..)
      rw [value, value] at h
      have h3 : x = y := by omega
      subst h3
      rw [ih b (fun v hv => ha v (List.mem_cons_of_mem _ hv))
        (fun v hv => hb v (List.mem_cons_of_mem _ hv)) (by simpa using hl) (by omega)]

theorem getD_get (ws : List Nat) (i : Nat) (h : i < ws.length) : ws.getD i 0 = ws[i] := by
  rw [List.getD_eq_getElem?_getD, List.getElem?_eq_getElem h, Option.getD_some]

theorem and_top (w : Nat) (h : w < 2 ^ 32) : ((w &&& 0x80000000) != 0) = decide (2 ^ 31 ≤ w) := by
  have h2 : w.testBit 31 = decide (2 ^ 31 ≤ w) := by
    rw [Nat.testBit_eq_decide_div_mod_eq]
    apply Bool.decide_congr
    omega
  rw [show (0x80000000 : Nat) = 2 ^ 31 by rfl]
  rw [← h2]
  cases hb : w.testBit 31 with
  | true =>
    rw [bne_iff_ne]
    intro h0
    have h3 := congrArg (fun v => Nat.testBit v 31) h0
    simp only [Nat.testBit_and, hb, Nat.testBit_two_pow_self, Nat.zero_testBit] at h3
    exact absurd h3 (by decide)
  | false =>
    rw [bne_eq_false_iff_eq]
    apply Nat.eq_of_testBit_eq
    intro i
    rw [Nat.testBit_and, Nat.zero_testBit]
    by_cases hi : i = 31
    · rw [hi, hb, Bool.false_and]
    · rw [Nat.testBit_two_pow_of_ne (Ne.symm hi), Bool.and_false]

theorem getD_mem (ws : List Nat) (i : Nat) (h : i < ws.length) : ws.getD i 0 ∈ ws := by
  rw [getD_get _ _ h]
  exact List.getElem_mem h

theorem value_split (ws : List Nat) (i : Nat) (h : i < ws.length) :
    value ws = value (ws.take i) + span i * (ws.getD i 0 + 2 ^ 32 * value (ws.drop (i + 1))) := by
  rw [value_take_drop ws i (by omega), List.drop_eq_getElem_cons h, value,
    getD_get _ _ h]

theorem neg_iff {N : Nat} (hN : 0 < N) {d : List Nat} {len : Nat} (hl : d.length = N)
    (hs : ∀ w ∈ d, w < 2 ^ 32) : (⟨d, len⟩ : Big).isNegative N = decide (span N ≤ 2 * value d) := by
  unfold Big.isNegative Big.word
  dsimp only
  have hw := hs _ (getD_mem d (N - 1) (by omega))
  rw [and_top _ hw]
  apply Bool.decide_congr
  have h1 := value_split d (N - 1) (by omega)
  rw [List.drop_eq_nil_of_le (by omega : d.length ≤ N - 1 + 1), value, Nat.mul_zero, Nat.add_zero] at h1
  have h2 := value_lt (d.take (N - 1)) fun w hw => hs w (List.mem_of_mem_take hw)
  rw [List.length_take, Nat.min_eq_left (by omega)] at h2
  obtain ⟨k, hk, hk'⟩ := span_half hN
  generalize d.getD (N - 1) 0 = w at *
  generalize value (d.take (N - 1)) = t at *
  rw [hk, hk', h1]
  constructor
  · intro h
    have : span (N - 1) * 2 ^ 31 ≤ span (N - 1) * w := Nat.mul_le_mul_left _ h
    rw [Nat.mul_comm] at this
    omega
  · intro h
    rcases Nat.lt_or_ge w (2 ^ 31) with hlt | hge
    · have : span (N - 1) * (w + 1) ≤ span (N - 1) * 2 ^ 31 := Nat.mul_le_mul_left _ hlt
      rw [Nat.mul_add, Nat.mul_comm _ (2 ^ 31)] at this
      omega
    · exact hge

theorem Valid.neg {N : Nat} {a : Big} (hN : 0 < N) (h : Valid N a) :
    a.isNegative N = decide (span N ≤ 2 * value a.data) := neg_iff hN h.size h.small

theorem Valid.lt {N : Nat} {a : Big} (h : Valid N a) : value a.data < span N := by
  have := value_lt a.data h.small
  rwa [h.size] at this

theorem Valid.lt_len {N : Nat} {a : Big} (h : Valid N a) : value a.data < span a.len :=
  value_lt_len a.data a.len h.small (by rw [h.size]; exact h.le) h.high

theorem findLength_le (d : List Nat) (n : Nat) : findLength d n ≤ n := by
  induction n with
  | zero => exact Nat.le_refl _
  | succ n ih =>
    rw [findLength]
    split <;> omega

theorem findLength_pos (d : List Nat) (n : Nat) (h : 0 < n) : 0 < findLength d n := by
  induction n with
  | zero => omega
  | succ n ih =>
    rw [findLength]
    split
    · apply ih; omega
    · omega

theorem findLength_top (d : List Nat) (n : Nat) :
    findLength d n ≤ 1 ∨ d.getD (findLength d n - 1) 0 ≠ 0 := by
  induction n with
  | zero => exact Or.inl (by simp [findLength])
  | succ n ih =>
    rw [findLength]
    split
    · exact ih
    · rename_i h
      by_cases hn : n + 1 > 1
      · right
        intro h0
        exact h ⟨hn, by simpa using h0⟩
      · left; omega

theorem findLength_high (d : List Nat) (n : Nat) (h : ∀ w ∈ d.drop n, w = 0) :
    ∀ w ∈ d.drop (findLength d n), w = 0 := by
  induction n with
  | zero => exact h
  | succ n ih =>
    rw [findLength]
    split
    · rename_i hc
      apply ih
      intro w hw
      by_cases hl : n < d.length
      · rw [List.drop_eq_getElem_cons hl] at hw
        rcases List.mem_cons.1 hw with rfl | hw
        · have := hc.2
          rwa [getD_get _ _ hl] at this
        · exact h w hw
      · rw [List.drop_eq_nil_of_le (by omega)] at hw
        simp at hw
    · exact h

/-- Words with a length, reduced. -/
theorem reduce_canon {N : Nat} (hN : 0 < N) {d : List Nat} {len : Nat} (hl : d.length = N)
    (hs : ∀ w ∈ d, w < 2 ^ 32) (hle : len ≤ N) (hz : ∀ w ∈ d.drop len, w = 0) :
    Canon N (⟨d, len⟩ : Big).reduceLen := by
  have h1 := findLength_le d len
  refine { size := hl, small := hs, pos := ?_, le := ?_, high := ?_, top := ?_ }
  · exact Nat.le_max_right _ _
  · exact Nat.max_le.2 ⟨by dsimp only; omega, hN⟩
  · show ∀ w ∈ d.drop (max (findLength d len) 1), w = 0
    intro w hw
    apply findLength_high d len hz w
    rcases Nat.lt_or_ge (findLength d len) 1 with h | h
    · rw [Nat.max_eq_right (by omega)] at hw
      rw [show (1 : Nat) = findLength d len + 1 by omega, ← List.drop_drop] at hw
      exact List.mem_of_mem_drop hw
    · rw [Nat.max_eq_left h] at hw
      exact hw
  · show max (findLength d len) 1 = 1 ∨ d.getD (max (findLength d len) 1 - 1) 0 ≠ 0
    rcases findLength_top d len with h | h
    · left; omega
    · rcases Nat.lt_or_ge (findLength d len) 1 with h' | h'
      · left; omega
      · right
        rwa [Nat.max_eq_left h']

theorem reduce_data (a : Big) : a.reduceLen.data = a.data := rfl

/-- The length follows from the words. -/
theorem Canon.len_unique {N : Nat} {a b : Big} (ha : Canon N a) (hb : Canon N b)
    (h : a.data = b.data) : a.len = b.len := by
  have key : ∀ {a b : Big}, Canon N a → Canon N b → a.data = b.data → ¬ a.len < b.len := by
    intro a b ha hb h hlt
    rcases hb.top with h1 | h1
    · have := ha.pos; omega
    · apply h1
      apply ha.high
      rw [h]
      have hle := hb.le
      have hsz := hb.size
      have hp := hb.pos
      have : b.len - 1 < b.data.length := by omega
      rw [Big.word, getD_get _ _ this]
      rw [List.mem_iff_getElem]
      refine ⟨b.len - 1 - a.len, by rw [List.length_drop]; omega, ?_⟩
      rw [List.getElem_drop]
      congr 1
      omega
  have h1 := key ha hb h
  have h2 := key hb ha h.symm
  omega

theorem Canon.ext {N : Nat} {a b : Big} (ha : Canon N a) (hb : Canon N b)
    (h : value a.data = value b.data) : a = b := by
  have hd := value_inj _ _ ha.small hb.small (by rw [ha.size, hb.size]) h
  have hl := ha.len_unique hb hd
  cases a
  cases b
  dsimp only at hd hl
  rw [hd, hl]

theorem Valid.range {N : Nat} {a : Big} (h : Valid N a) : InRange N (toInt N a) := by
  have h1 := h.lt
  unfold InRange toInt
  split <;> omega

theorem Valid.neg_iff_int {N : Nat} {a : Big} (hN : 0 < N) (h : Valid N a) :
    a.isNegative N = decide (toInt N a < 0) := by
  rw [h.neg hN]
  apply Bool.decide_congr
  have h1 := h.lt
  unfold toInt
  split <;> omega

/-- Two numbers that stand for the same integer are the same. -/
theorem Canon.ext_int {N : Nat} {a b : Big} (ha : Canon N a) (hb : Canon N b)
    (h : toInt N a = toInt N b) : a = b := by
  apply ha.ext hb
  have h1 := ha.lt
  have h2 := hb.lt
  unfold toInt at h
  split at h <;> split at h <;> omega

theorem toInt_of_nat {N : Nat} {a : Big} (h : 2 * value a.data < span N) :
    toInt N a = value a.data := if_pos h

end C3.BigNum
