import Verif.BigNum.Props

set_option autoImplicit false

namespace C3.BigNum

theorem tail_zero {ws : List Nat} {n : Nat} {w : Nat} (h : ∀ v ∈ (w :: ws).drop (n + 1), v = 0) :
    ∀ v ∈ ws.drop n, v = 0 := by
  simpa using h

/-- A row of the product that is stored is right. -/
theorem rowLoop_some (x c : Nat) (bs rs out : List Nat) (hx : x < 2 ^ 32) (hc : c < 2 ^ 32)
    (hb : ∀ w ∈ bs, w < 2 ^ 32) (hr : ∀ w ∈ rs, w < 2 ^ 32)
    (hz : ∀ w ∈ rs.drop bs.length, w = 0) (h : rowLoop x c bs rs = some out) :
    out.length = rs.length ∧ (∀ w ∈ out, w < 2 ^ 32) ∧
    (∀ w ∈ out.drop (bs.length + 1), w = 0) ∧ value out = value rs + x * value bs + c := by
  induction bs generalizing c rs out with
  | nil =>
    rw [rowLoop.eq_def] at h
    dsimp only at h
    simp only [List.length_nil, List.drop_zero] at hz
    cases rs with
    | nil =>
      rw [storeCarry] at h
      split at h
      · exact absurd h (by simp)
      · injection h with h
        subst h
        refine ⟨rfl, hr, by simp, ?_⟩
        simp only [value]
        omega
    | cons r rs =>
      rw [storeCarry] at h
      have hr0 := hz r (List.mem_cons_self ..)
      split at h
      · injection h with h
        subst h
        refine ⟨rfl, ?_, ?_, ?_⟩
        · intro w hw
          rcases List.mem_cons.1 hw with rfl | hw
          · exact hc
          · exact hr w (List.mem_cons_of_mem _ hw)
        · intro w hw
          exact hz w (List.mem_cons_of_mem _ (by simpa using hw))
        · simp only [value]
          omega
      · injection h with h
        subst h
        refine ⟨rfl, hr, fun w hw => hz w (List.mem_of_mem_drop hw), ?_⟩
        simp only [value]
        omega
  | cons y bs ih =>
    cases rs with
    | nil => simp [rowLoop] at h
    | cons r rs =>
      have hy := hb y (List.mem_cons_self ..)
      have hr0 := hr r (List.mem_cons_self ..)
      have hxy : x * y ≤ (2 ^ 32 - 1) * (2 ^ 32 - 1) := Nat.mul_le_mul (by omega) (by omega)
      have hv : (x * y + r + c) % 2 ^ 64 = x * y + r + c := Nat.mod_eq_of_lt (by omega)
      rw [rowLoop, hv] at h
      simp only [Option.bind_eq_bind, Option.bind_eq_some_iff, Option.some.injEq] at h
      obtain ⟨o, h1, rfl⟩ := h
      obtain ⟨i1, i2, i3, i4⟩ := ih ((x * y + r + c) / 2 ^ 32) rs o (by omega)
        (fun v hv => hb v (List.mem_cons_of_mem _ hv))
        (fun v hv => hr v (List.mem_cons_of_mem _ hv)) (tail_zero hz) h1
      refine ⟨by simpa using i1, ?_, by simpa using i3, ?_⟩
      · intro w hw
        rcases List.mem_cons.1 hw with rfl | hw
        · omega
        · exact i2 w hw
      · simp only [value, List.length_cons]
        rw [i4, Nat.mul_add x, show x * (2 ^ 32 * value bs) = 2 ^ 32 * (x * value bs) by ring]
        generalize x * y = p at *
        generalize x * value bs = q at *
        omega

/-- A row that is not stored has no room. -/
theorem rowLoop_none (x c : Nat) (bs rs : List Nat) (hx : x < 2 ^ 32) (hc : c < 2 ^ 32)
    (hb : ∀ w ∈ bs, w < 2 ^ 32) (hr : ∀ w ∈ rs, w < 2 ^ 32) (h : rowLoop x c bs rs = none) :
    rs.length < bs.length ∨ (rs.length = bs.length ∧
      span rs.length ≤ value rs + x * value bs + c) := by
  induction bs generalizing c rs with
  | nil =>
    rw [rowLoop.eq_def] at h
    dsimp only at h
    cases rs with
    | nil =>
      rw [storeCarry] at h
      split at h
      · right
        refine ⟨rfl, ?_⟩
        simp only [value, List.length_nil, span]
        omega
      · exact absurd h (by simp)
    | cons r rs =>
      rw [storeCarry] at h
      split at h <;> exact absurd h (by simp)
  | cons y bs ih =>
    cases rs with
    | nil => left; simp
    | cons r rs =>
      have hy := hb y (List.mem_cons_self ..)
      have hr0 := hr r (List.mem_cons_self ..)
      have hxy : x * y ≤ (2 ^ 32 - 1) * (2 ^ 32 - 1) := Nat.mul_le_mul (by omega) (by omega)
      have hv : (x * y + r + c) % 2 ^ 64 = x * y + r + c := Nat.mod_eq_of_lt (by omega)
      rw [rowLoop, hv] at h
      simp only [Option.bind_eq_bind, Option.bind_eq_none_iff, reduceCtorEq] at h
      have h1 : rowLoop x ((x * y + r + c) / 2 ^ 32) bs rs = none := by
        cases hh : rowLoop x ((x * y + r + c) / 2 ^ 32) bs rs with
        | none => rfl
        | some o => exact (h o hh).elim
      rcases ih ((x * y + r + c) / 2 ^ 32) rs (by omega)
        (fun v hv => hb v (List.mem_cons_of_mem _ hv))
        (fun v hv => hr v (List.mem_cons_of_mem _ hv)) h1 with i | ⟨i1, i2⟩
      · left; simpa using i
      · right
        refine ⟨by simpa using i1, ?_⟩
        simp only [value, List.length_cons]
        rw [span_succ, Nat.mul_add x, show x * (2 ^ 32 * value bs) = 2 ^ 32 * (x * value bs) by ring]
        generalize x * y = p at *
        generalize x * value bs = q at *
        omega

/-- The rows. -/
theorem multLoop_some (bs xs rs out : List Nat) (hx : ∀ w ∈ xs, w < 2 ^ 32)
    (hb : ∀ w ∈ bs, w < 2 ^ 32) (hr : ∀ w ∈ rs, w < 2 ^ 32)
    (hz : ∀ w ∈ rs.drop bs.length, w = 0) (h : multLoop bs xs rs = some out)
    (hlen : xs.length ≤ rs.length) :
    out.length = rs.length ∧ (∀ w ∈ out, w < 2 ^ 32) ∧ value out = value rs + value xs * value bs := by
  induction xs generalizing rs out with
  | nil =>
    rw [multLoop] at h
    injection h with h
    subst h
    exact ⟨rfl, hr, by simp [value]⟩
  | cons x xs ih =>
    have hx0 := hx x (List.mem_cons_self ..)
    rw [multLoop] at h
    simp only [Option.bind_eq_bind, Option.bind_eq_some_iff] at h
    obtain ⟨rs', h1, h2⟩ := h
    have key : rs'.length = rs.length ∧ (∀ w ∈ rs', w < 2 ^ 32) ∧
        (∀ w ∈ rs'.drop (bs.length + 1), w = 0) ∧ value rs' = value rs + x * value bs := by
      by_cases h0 : x = 0
      · rw [row, if_pos h0] at h1
        injection h1 with h1
        subst h1
        refine ⟨rfl, hr, ?_, by rw [h0]; omega⟩
        intro w hw
        rw [← List.drop_drop] at hw
        exact hz w (List.mem_of_mem_drop hw)
      · rw [row, if_neg h0] at h1
        exact rowLoop_some x 0 bs rs rs' hx0 (by decide) hb hr hz h1
    obtain ⟨k1, k2, k3, k4⟩ := key
    cases rs' with
    | nil =>
      rw [List.length_cons] at hlen
      rw [← k1] at hlen
      simp at hlen
    | cons r rs1 =>
      simp only [Option.bind_eq_some_iff, Option.some.injEq] at h2
      obtain ⟨o, h3, rfl⟩ := h2
      obtain ⟨i1, i2, i3⟩ := ih rs1 o (fun v hv => hx v (List.mem_cons_of_mem _ hv))
        (fun v hv => k2 v (List.mem_cons_of_mem _ hv)) (by simpa using k3) h3
        (by rw [← k1] at hlen; simpa using hlen)
      refine ⟨by rw [← k1]; simpa using i1, ?_, ?_⟩
      · intro w hw
        rcases List.mem_cons.1 hw with rfl | hw
        · exact k2 w (List.mem_cons_self ..)
        · exact i2 w hw
      · rw [value] at k4 ⊢
        rw [value, i3]
        rw [Nat.add_mul, show 2 ^ 32 * value xs * value bs = 2 ^ 32 * (value xs * value bs) by ring]
        generalize value xs * value bs = p at *
        generalize x * value bs = q at *
        omega

theorem multLoop_none (bs xs rs : List Nat) (hx : ∀ w ∈ xs, w < 2 ^ 32)
    (hb : ∀ w ∈ bs, w < 2 ^ 32) (hr : ∀ w ∈ rs, w < 2 ^ 32)
    (hz : ∀ w ∈ rs.drop bs.length, w = 0) (hb0 : bs ≠ [])
    (htop : span (bs.length - 1) ≤ value bs) (h : multLoop bs xs rs = none) :
    span rs.length ≤ value rs + value xs * value bs := by
  induction xs generalizing rs with
  | nil => simp [multLoop] at h
  | cons x xs ih =>
    have hx0 := hx x (List.mem_cons_self ..)
    have hbl : 0 < bs.length := List.length_pos_iff.2 hb0
    rw [multLoop] at h
    simp only [Option.bind_eq_bind] at h
    cases h1 : row bs x rs with
    | none =>
      by_cases h0 : x = 0
      · rw [row, if_pos h0] at h1; exact absurd h1 (by simp)
      · rw [row, if_neg h0] at h1
        rw [value, Nat.add_mul]
        rcases rowLoop_none x 0 bs rs hx0 (by decide) hb hr h1 with h2 | ⟨h2, h3⟩
        · have h4 : span rs.length ≤ span (bs.length - 1) := span_mono (by omega)
          have h5 : value bs ≤ x * value bs := Nat.le_mul_of_pos_left _ (by omega)
          omega
        · omega
    | some rs' =>
      rw [h1, Option.bind_some] at h
      have key : rs'.length = rs.length ∧ (∀ w ∈ rs', w < 2 ^ 32) ∧
          (∀ w ∈ rs'.drop (bs.length + 1), w = 0) ∧ value rs' = value rs + x * value bs := by
        by_cases h0 : x = 0
        · rw [row, if_pos h0] at h1
          injection h1 with h1
          subst h1
          refine ⟨rfl, hr, ?_, by rw [h0]; omega⟩
          intro w hw
          rw [← List.drop_drop] at hw
          exact hz w (List.mem_of_mem_drop hw)
        · rw [row, if_neg h0] at h1
          exact rowLoop_some x 0 bs rs rs' hx0 (by decide) hb hr hz h1
      obtain ⟨k1, k2, k3, k4⟩ := key
      have hexp : value (x :: xs) * value bs = x * value bs + 2 ^ 32 * (value xs * value bs) := by
        rw [value]; ring
      rw [hexp]
      cases rs' with
      | nil =>
        have h2 := ih [] (fun v hv => hx v (List.mem_cons_of_mem _ hv)) (by simp) (by simp) h
        rw [← k1]
        simp only [List.length_nil, value, span] at *
        omega
      | cons r rs1 =>
        have h2 : multLoop bs xs rs1 = none := by
          cases hh : multLoop bs xs rs1 with
          | none => rfl
          | some o => dsimp only at h; rw [hh] at h; simp at h
        have h3 := ih rs1 (fun v hv => hx v (List.mem_cons_of_mem _ hv))
          (fun v hv => k2 v (List.mem_cons_of_mem _ hv)) (by simpa using k3) h2
        rw [← k1, List.length_cons, span_succ]
        rw [value] at k4
        generalize value xs * value bs = p at *
        generalize x * value bs = q at *
        omega

theorem take_small {N : Nat} {a : Big} (h : Valid N a) : ∀ w ∈ a.data.take a.len, w < 2 ^ 32 :=
  fun w hw => h.small w (List.mem_of_mem_take hw)

theorem take_len {N : Nat} {a : Big} (h : Valid N a) : (a.data.take a.len).length = a.len := by
  rw [List.length_take, h.size]
  exact Nat.min_eq_left h.le

theorem take_value {N : Nat} {a : Big} (h : Valid N a) :
    value (a.data.take a.len) = value a.data :=
  value_take _ _ (by rw [h.size]; exact h.le) h.high

/-- The highest word is not zero. -/
theorem Canon.ge {N : Nat} {a : Big} (h : Canon N a) (h0 : value a.data ≠ 0) :
    span (a.len - 1) ≤ value a.data := by
  have hp := h.pos
  have hle := h.le
  have hs := h.size
  rcases h.top with h1 | h1
  · rw [h1]
    show 1 ≤ value a.data
    omega
  · rw [value_split a.data (a.len - 1) (by omega)]
    have : span (a.len - 1) * 1 ≤
        span (a.len - 1) * (a.data.getD (a.len - 1) 0 + 2 ^ 32 * value (a.data.drop (a.len - 1 + 1))) := by
      apply Nat.mul_le_mul_left
      have : a.data.getD (a.len - 1) 0 ≠ 0 := h1
      omega
    omega

/-- The product of numbers that are not negative. -/
theorem mult_words {N : Nat} (hN : 0 < N) {a b : Big} (ha : Valid N a) (hb : Valid N b) :
    (∀ rs, multLoop (b.data.take b.len) (a.data.take a.len) (List.replicate N 0) = some rs →
      Canon N (⟨rs, min (a.len + b.len) N⟩ : Big).reduceLen ∧ value rs = value a.data * value b.data) ∧
    (span (b.len - 1) ≤ value b.data →
      multLoop (b.data.take b.len) (a.data.take a.len) (List.replicate N 0) = none →
      span N ≤ value a.data * value b.data) := by
  have hz : ∀ w ∈ (List.replicate N 0).drop (b.data.take b.len).length, w = 0 := by
    intro w hw
    exact (List.mem_replicate.1 (List.mem_of_mem_drop hw)).2
  have hr : ∀ w ∈ List.replicate N 0, w < 2 ^ 32 := by
    intro w hw
    rw [(List.mem_replicate.1 hw).2]
    decide
  constructor
  · intro rs h
    obtain ⟨h1, h2, h3⟩ := multLoop_some _ _ _ rs (take_small ha) (take_small hb) hr hz h
      (by rw [take_len ha, List.length_replicate]; exact ha.le)
    rw [take_value ha, take_value hb, value_replicate, Nat.zero_add] at h3
    rw [List.length_replicate] at h1
    refine ⟨reduce_canon hN h1 h2 (Nat.min_le_right _ _) ?_, h3⟩
    apply drop_zero_of_lt _ _ (by rw [h1]; exact Nat.min_le_right _ _)
    rcases Nat.le_total (a.len + b.len) N with hl | hl
    · rw [Nat.min_eq_left hl, h3, span_add]
      exact Nat.mul_lt_mul'' ha.lt_len hb.lt_len
    · rw [Nat.min_eq_right hl]
      have := value_lt rs h2
      rwa [h1] at this
  · intro ht h
    have := multLoop_none _ _ _ (take_small ha) (take_small hb) hr hz
      (by intro h0; have := take_len hb; rw [h0] at this; have := hb.pos; simp at *; omega)
      (by rw [take_len hb, take_value hb]; exact ht) h
    rwa [take_value ha, take_value hb, value_replicate, Nat.zero_add, List.length_replicate] at this

theorem zero_is (N : Nat) (hN : 0 < N) : Is N (zero N) 0 := by
  have hv : value (zero N).data = 0 := value_replicate N
  refine ⟨{ size := by simp [zero], small := ?_, pos := by simp [zero], le := hN, high := ?_, top := Or.inl rfl }, ?_⟩
  · intro w hw
    rw [(List.mem_replicate.1 hw).2]; decide
  · intro w hw
    exact (List.mem_replicate.1 (List.mem_of_mem_drop hw)).2
  · rw [toInt_of_nat (by rw [hv]; have := span_pos N; omega), hv]
    rfl

/-- `strip` gives the absolute value. -/
theorem strip_spec (N : Nat) (hN : 0 < N) (a : Big) (x : Int) (ha : Is N a x) :
    (InRange N x.natAbs → ∃ c, strip N a = some c ∧ Is N c x.natAbs) ∧
    (¬ InRange N x.natAbs → strip N a = none) := by
  have : strip N a = abs N a := by
    unfold strip abs
    rw [(C80_negate N hN a x ha).2.2]
  rw [this]
  exact C80_abs N hN a x ha

/-- A number that is not negative. -/
theorem Is.nat {N : Nat} {a : Big} {n : Nat} (h : Is N a n) :
    value a.data = n ∧ 2 * n < span N := by
  obtain ⟨h1, h2⟩ := h
  have := h1.lt
  unfold toInt at h2
  split at h2 <;> omega

theorem is_nat {N : Nat} {a : Big} (h : Canon N a) (h2 : 2 * value a.data < span N) :
    Is N a (value a.data : Nat) := ⟨h, toInt_of_nat h2⟩

theorem negateIf_spec (N : Nat) (hN : 0 < N) (a : Big) (n : Nat) (ha : Is N a n) (s : Bool) :
    ∃ c, negateIf N s a = some c ∧ Is N c (if s then -n else n) := by
  cases s with
  | false => exact ⟨a, rfl, ha⟩
  | true =>
    obtain ⟨h1, -, -⟩ := C80_negate N hN a n ha
    have := ha.nat
    exact h1 (by unfold InRange; omega)

end C3.BigNum
