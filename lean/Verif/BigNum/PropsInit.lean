import Verif.BigNum.LemmasMul

/-! # C81: `BigInt`s made from integers and from words -/

set_option autoImplicit false

namespace C3.BigNum

theorem initLoop_spec (n : Nat) (t : Int) :
    (initLoop n t).1.length ≤ n ∧ (∀ w ∈ (initLoop n t).1, w < 2 ^ 32) ∧
    t = value (initLoop n t).1 + span (initLoop n t).1.length * (initLoop n t).2 ∧
    ((initLoop n t).2 = 0 ∨ (initLoop n t).1.length = n) ∧
    (t < 0 → (initLoop n t).1.length = n) := by
  induction n generalizing t with
  | zero =>
    refine ⟨Nat.le_refl _, by simp [initLoop], ?_, Or.inr rfl, fun _ => rfl⟩
    simp [initLoop, value, span]
  | succ n ih =>
    rw [initLoop]
    by_cases h0 : t = 0
    · rw [if_pos h0]
      refine ⟨by simp, by simp, ?_, Or.inl h0, fun h => by omega⟩
      simp [value, span]
    · rw [if_neg h0]
      obtain ⟨i1, i2, i3, i4, i5⟩ := ih (t / 2 ^ 32)
      refine ⟨by simpa using i1, ?_, ?_, ?_, ?_⟩
      · intro w hw
        rcases List.mem_cons.1 hw with rfl | hw
        · omega
        · exact i2 w hw
      · dsimp only
        rw [List.length_cons, span_succ, value]
        generalize initLoop n (t / 2 ^ 32) = p at *
        push_cast
        rw [Int.mul_assoc]
        generalize (span p.1.length : Int) * p.2 = q at *
        omega
      · rcases i4 with h | h
        · exact Or.inl h
        · exact Or.inr (by simpa using h)
      · intro ht
        simpa using i5 (by omega)

theorem pad_len {N : Nat} {ws : List Nat} (h : ws.length ≤ N) :
    (ws ++ List.replicate (N - ws.length) 0).length = N := by
  rw [List.length_append, List.length_replicate]; omega

theorem pad_small {N : Nat} {ws : List Nat} (h : ∀ w ∈ ws, w < 2 ^ 32) :
    ∀ w ∈ ws ++ List.replicate (N - ws.length) 0, w < 2 ^ 32 := by
  intro w hw
  rcases List.mem_append.1 hw with hw | hw
  · exact h w hw
  · rw [(List.mem_replicate.1 hw).2]; decide

theorem pad_value {N : Nat} {ws : List Nat} :
    value (ws ++ List.replicate (N - ws.length) 0) = value ws := by
  rw [value_append, value_replicate]; rfl

theorem pad_high {N : Nat} {ws : List Nat} :
    ∀ w ∈ (ws ++ List.replicate (N - ws.length) 0).drop ws.length, w = 0 := by
  intro w hw
  rw [List.drop_left] at hw
  exact (List.mem_replicate.1 hw).2

/-- A number is stored if there is room. -/
theorem init_spec (N : Nat) (hN : 0 < N) (x : Int) (h : InRange N x) :
    ∃ b, init N x = some b ∧ Is N b x := by
  obtain ⟨i1, i2, i3, i4, i5⟩ := initLoop_spec N x
  unfold init
  dsimp only
  generalize initLoop N x = p at *
  have hc := reduce_canon hN (pad_len i1) (pad_small i2) i1 pad_high
  have hneg := neg_iff hN (len := p.1.length) (pad_len i1) (pad_small (N := N) i2)
  rw [hneg, pad_value]
  have hlt := value_lt p.1 i2
  unfold InRange at h
  have hp := span_pos N
  rcases Int.lt_or_le x 0 with hx | hx
  · have hl := i5 hx
    rw [hl] at i3 hlt
    have h2 : p.2 = -1 := by
      rcases Int.lt_trichotomy p.2 (-1) with h2 | h2 | h2
      · have : (span N : Int) * p.2 ≤ span N * (-2) := Int.mul_le_mul_of_nonneg_left (by omega) (by omega)
        omega
      · exact h2
      · have : (0 : Int) ≤ span N * p.2 := Int.mul_nonneg (by omega) (by omega)
        omega
    rw [h2] at i3
    refine ⟨_, if_pos ⟨Or.inl hx, Or.inr (Or.inl h2)⟩, hc, ?_⟩
    unfold toInt
    rw [reduce_data]
    dsimp only
    rw [pad_value, if_neg (by omega)]
    omega
  · have h2 : p.2 = 0 := by
      rcases i4 with h2 | h2
      · exact h2
      · rw [h2] at i3 hlt
        rcases Int.lt_trichotomy p.2 0 with h3 | h3 | h3
        · have : (span N : Int) * p.2 ≤ span N * (-1) := Int.mul_le_mul_of_nonneg_left (by omega) (by omega)
          omega
        · exact h3
        · have : (span N : Int) * 1 ≤ span N * p.2 := Int.mul_le_mul_of_nonneg_left (by omega) (by omega)
          omega
    rw [h2] at i3
    refine ⟨_, if_pos ⟨Or.inr (Or.inl h2), Or.inl hx⟩, hc, ?_⟩
    unfold toInt
    rw [reduce_data]
    dsimp only
    rw [pad_value, if_pos (by omega)]
    omega

/-- C81: `from_int` and `init` store every `int128`. -/
theorem C81_init (N : Nat) (hN : 4 ≤ N) (x : Int) (h1 : -2 ^ 127 ≤ x) (h2 : x < 2 ^ 127) :
    ∃ b, init N x = some b ∧ Is N b x := by
  apply init_spec N (by omega)
  have h3 : span 4 ≤ span N := span_mono hN
  have h4 : span 4 = 2 ^ 128 := by decide
  rw [h4] at h3
  unfold InRange
  omega

theorem initU128Loop_spec (n t : Nat) (h : t < span n) :
    ∃ ws, initU128Loop n t = some ws ∧ ws.length ≤ n ∧ (∀ w ∈ ws, w < 2 ^ 32) ∧ value ws = t ∧
      (ws.length = 0 ∨ span (ws.length - 1) ≤ t) := by
  induction n generalizing t with
  | zero =>
    have : t = 0 := by unfold span at h; omega
    subst this
    exact ⟨[], by simp [initU128Loop], Nat.le_refl _, by simp, rfl, Or.inl rfl⟩
  | succ n ih =>
    rw [initU128Loop]
    by_cases h0 : t = 0
    · rw [if_pos h0]
      exact ⟨[], rfl, by simp, by simp, h0.symm, Or.inl rfl⟩
    · rw [if_neg h0]
      rw [span_succ] at h
      obtain ⟨ws, i1, i2, i3, i4, i5⟩ := ih (t / 2 ^ 32) (by omega)
      refine ⟨t % 2 ^ 32 :: ws, by rw [i1]; rfl, by simpa using i2, ?_, ?_, Or.inr ?_⟩
      · intro w hw
        rcases List.mem_cons.1 hw with rfl | hw
        · omega
        · exact i3 w hw
      · rw [value, i4]
        omega
      · rw [List.length_cons, Nat.add_sub_cancel]
        rcases i5 with h5 | h5
        · rw [h5]
          show 1 ≤ t
          omega
        · rcases Nat.eq_zero_or_pos ws.length with h6 | h6
          · rw [h6]
            show 1 ≤ t
            omega
          · rw [show ws.length = ws.length - 1 + 1 by omega, span_succ]
            omega

theorem top_ne {N : Nat} {d : List Nat} {len : Nat} (hl : d.length = N) (hs : ∀ w ∈ d, w < 2 ^ 32)
    (hp : 1 ≤ len) (hle : len ≤ N) (hz : ∀ w ∈ d.drop len, w = 0) (h : span (len - 1) ≤ value d) :
    (⟨d, len⟩ : Big).word (len - 1) ≠ 0 := by
  intro h0
  have h1 := value_split d (len - 1) (by omega)
  rw [show d.getD (len - 1) 0 = 0 from h0, Nat.sub_add_cancel hp, value_zeros _ hz] at h1
  have h2 := value_lt (d.take (len - 1)) fun w hw => hs w (List.mem_of_mem_take hw)
  rw [List.length_take, Nat.min_eq_left (by omega)] at h2
  omega

/-- C81: `init_with_u128` stores every `uint128`. -/
theorem C81_u128 (N : Nat) (hN : 5 ≤ N) (n : Nat) (h : n < 2 ^ 128) :
    ∃ b, initU128 N n = some b ∧ Is N b n := by
  have h3 : span 5 ≤ span N := span_mono hN
  have h4 : span 5 = 2 ^ 160 := by decide
  rw [h4] at h3
  obtain ⟨ws, i1, i2, i3, i4, i5⟩ := initU128Loop_spec N n (by omega)
  unfold initU128
  simp only [Option.bind_eq_bind, i1, Option.bind_some]
  have hneg := neg_iff (show 0 < N by omega) (len := ws.length) (pad_len i2) (pad_small (N := N) i3)
  rw [hneg, pad_value, i4, decide_eq_false (by omega), if_pos rfl]
  refine ⟨_, rfl, ?_⟩
  rw [show (⟨ws ++ List.replicate (N - ws.length) 0, max ws.length 1⟩ : Big) =
    ⟨ws ++ List.replicate (N - ws.length) 0, max ws.length 1⟩ from rfl]
  have hh : ∀ w ∈ (ws ++ List.replicate (N - ws.length) 0).drop (max ws.length 1), w = 0 := by
    intro w hw
    apply pad_high w
    rw [show max ws.length 1 = ws.length + (max ws.length 1 - ws.length) by omega, ← List.drop_drop] at hw
    exact List.mem_of_mem_drop hw
  refine ⟨{ size := pad_len i2, small := pad_small i3, pos := Nat.le_max_right _ _,
            le := Nat.max_le.2 ⟨i2, by omega⟩, high := hh, top := ?_ }, ?_⟩
  · rcases i5 with h5 | h5
    · left
      show max ws.length 1 = 1
      omega
    · rcases Nat.eq_zero_or_pos ws.length with h6 | h6
      · left
        show max ws.length 1 = 1
        omega
      · right
        apply top_ne (N := N) (pad_len i2) (pad_small i3) (Nat.le_max_right _ _) (Nat.max_le.2 ⟨i2, by omega⟩) hh
        rw [pad_value, i4, Nat.max_eq_left h6]
        exact h5
  · rw [toInt_of_nat]
    · dsimp only
      rw [pad_value, i4]
    · dsimp only
      rw [pad_value, i4]
      omega

theorem foldl_value (ws : List Nat) :
    ws.foldl (fun n w => n * 2 ^ 32 + w) 0 = value ws.reverse := by
  have key : ∀ (ws : List Nat) (n : Nat),
      ws.foldl (fun n w => n * 2 ^ 32 + w) n = value ws.reverse + span ws.length * n := by
    intro ws
    induction ws with
    | nil => intro n; simp [value, span]
    | cons w ws ih =>
      intro n
      rw [List.foldl_cons, ih, List.reverse_cons, value_append, List.length_reverse, List.length_cons,
        span_succ]
      simp only [value]
      ring
  rw [key]
  rfl

/-- C81: `init_with_array` takes words, highest first, for a number in two's
complement. -/
theorem C81_array (N : Nat) (hN : 0 < N) (ws : List Nat) (h : ws.length ≤ N)
    (hs : ∀ w ∈ ws, w < 2 ^ 32) :
    ∃ b, initArray N ws = some b ∧
      Is N b (if 2 * ws.foldl (fun n w => n * 2 ^ 32 + w) 0 < span N
        then (ws.foldl (fun n w => n * 2 ^ 32 + w) 0 : Nat)
        else (ws.foldl (fun n w => n * 2 ^ 32 + w) 0 : Nat) - (span N : Int)) := by
  rw [foldl_value]
  unfold initArray
  rw [if_pos h]
  by_cases h0 : ws.length = 0
  · rw [if_pos h0]
    have : ws = [] := List.length_eq_zero_iff.1 h0
    subst this
    refine ⟨_, rfl, ?_⟩
    rw [if_pos (show 2 * value [].reverse < span N from span_pos N)]
    exact zero_is N hN
  · rw [if_neg h0]
    have e : ws.length = ws.reverse.length := List.length_reverse.symm
    dsimp only
    rw [e]
    rw [e] at h h0
    have hs' : ∀ w ∈ ws.reverse, w < 2 ^ 32 := fun w hw => hs w (List.mem_reverse.1 hw)
    generalize ws.reverse = rs at *
    have hc := reduce_canon hN (pad_len h) (pad_small hs') h pad_high
    have hp := findLength_pos (rs ++ List.replicate (N - rs.length) 0) rs.length (by omega)
    have he : (⟨rs ++ List.replicate (N - rs.length) 0, rs.length⟩ : Big).reduceLen =
        ⟨rs ++ List.replicate (N - rs.length) 0,
          findLength (rs ++ List.replicate (N - rs.length) 0) rs.length⟩ := by
      unfold Big.reduceLen
      dsimp only
      rw [Nat.max_eq_left hp]
    refine ⟨_, rfl, ?_⟩
    rw [← he]
    refine ⟨hc, ?_⟩
    unfold toInt
    rw [reduce_data]
    dsimp only
    rw [pad_value]

example : init 4 (-2) = some ⟨[0xFFFFFFFE, 0xFFFFFFFF, 0xFFFFFFFF, 0xFFFFFFFF], 4⟩ ∧
    initU128 5 (2 ^ 64 + 7) = some ⟨[7, 0, 1, 0, 0], 3⟩ ∧
    initArray 4 [0, 1, 2] = some ⟨[2, 1, 0, 0], 2⟩ := by decide +kernel

end C3.BigNum
