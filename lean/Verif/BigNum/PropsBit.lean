import Verif.BigNum.LemmasMul

/-! # C83: the bitwise operations on `BigInt`s -/

set_option autoImplicit false

namespace C3.BigNum

theorem value_testBit (ws : List Nat) (h : ∀ w ∈ ws, w < 2 ^ 32) (i : Nat) :
    (value ws).testBit i = (ws.getD (i / 32) 0).testBit (i % 32) := by
  induction ws generalizing i with
  | nil => simp [value]
  | cons w ws ih =>
    rw [value, Nat.add_comm, Nat.testBit_two_pow_mul_add _ (h w (List.mem_cons_self ..))]
    split
    · rename_i hi
      rw [show i / 32 = 0 by omega, show i % 32 = i by omega]
      rfl
    · rename_i hi
      rw [ih (fun v hv => h v (List.mem_cons_of_mem _ hv)) (i - 32), show i / 32 = (i - 32) / 32 + 1 by omega,
        show (i - 32) % 32 = i % 32 by omega]
      rfl

theorem bitLoop_length (f : Nat → Nat → Nat) (n : Nat) (a b : List Nat) :
    (bitLoop f n a b).length = a.length := by
  induction n generalizing a b with
  | zero => rw [bitLoop.eq_def]
  | succ n ih =>
    cases a with
    | nil => rw [bitLoop.eq_def]
    | cons x a =>
      cases b with
      | nil => rw [bitLoop.eq_def]
      | cons y b => rw [bitLoop, List.length_cons, ih, List.length_cons]

theorem bitLoop_get (f : Nat → Nat → Nat) (n : Nat) (a b : List Nat) (hab : a.length = b.length)
    (i : Nat) (hi : i < a.length) :
    (bitLoop f n a b).getD i 0 = if i < n then f (a.getD i 0) (b.getD i 0) else a.getD i 0 := by
  induction n generalizing a b i with
  | zero => rw [bitLoop.eq_def]; simp
  | succ n ih =>
    cases a with
    | nil => simp at hi
    | cons x a =>
      cases b with
      | nil => simp at hab
      | cons y b =>
        rw [bitLoop]
        cases i with
        | zero => simp
        | succ i =>
          have := ih a b (by simpa using hab) i (by simpa using hi)
          simp only [List.getD_cons_succ, this, Nat.succ_lt_succ_iff]

theorem high_word {N : Nat} {a : Big} (h : Valid N a) (i : Nat) (hi : a.len ≤ i) (hN : i < N) :
    a.data.getD i 0 = 0 := by
  apply h.high
  rw [getD_get _ _ (by rw [h.size]; exact hN), List.mem_iff_getElem]
  have hs := h.size
  refine ⟨i - a.len, by rw [List.length_drop]; omega, ?_⟩
  rw [List.getElem_drop]
  congr 1
  omega

theorem span_two_pow (N : Nat) : span N = 2 ^ (32 * N) := by
  unfold span
  rw [← Nat.pow_mul]

/-- The bits of the integer are those of the words, and then the highest one on
and on. -/
theorem bit_toInt {N : Nat} (hN : 0 < N) {a : Big} (h : Valid N a) (i : Nat) :
    bit (toInt N a) i = (value a.data).testBit (min i (32 * N - 1)) := by
  have hlt := h.lt
  unfold bit
  rw [Nat.testBit_eq_decide_div_mod_eq]
  apply Bool.decide_congr
  rcases Nat.lt_or_ge i (32 * N) with hi | hi
  · rw [show min i (32 * N - 1) = i by omega]
    unfold toInt
    split
    · norm_cast
    · have hs : span N = 2 ^ i * (2 * 2 ^ (32 * N - i - 1)) := by
        rw [span_two_pow, ← Nat.pow_succ', ← Nat.pow_add]
        congr 1
        omega
      have h1 : ((value a.data : Int) - (span N : Nat)) / 2 ^ i =
          ((value a.data / 2 ^ i : Nat) : Int) - 2 * (2 ^ (32 * N - i - 1) : Nat) := by
        rw [hs]
        push_cast
        rw [show (value a.data : Int) - 2 ^ i * (2 * 2 ^ (32 * N - i - 1)) =
          value a.data + 2 ^ i * (-(2 * 2 ^ (32 * N - i - 1))) by ring,
          Int.add_mul_ediv_left _ _ (by positivity)]
        ring
      rw [h1]
      omega
  · rw [show min i (32 * N - 1) = 32 * N - 1 by omega]
    have hle : span N ≤ 2 ^ i := by rw [span_two_pow]; exact Nat.pow_le_pow_right (by decide) hi
    have hh : span N = 2 * 2 ^ (32 * N - 1) := by
      rw [span_two_pow, ← Nat.pow_succ']
      congr 1
      omega
    have hd : value a.data / 2 ^ (32 * N - 1) % 2 = 1 ↔ span N ≤ 2 * value a.data := by
      rw [hh] at hlt ⊢
      have hp : 0 < 2 ^ (32 * N - 1) := Nat.pow_pos (by decide)
      generalize 2 ^ (32 * N - 1) = m at *
      have h2 : value a.data / m < 2 := Nat.div_lt_of_lt_mul (by omega)
      have h3 : m ≤ value a.data ↔ 1 ≤ value a.data / m := by
        rw [Nat.le_div_iff_mul_le hp]; omega
      generalize value a.data / m = q at *
      omega
    rw [hd]
    have hcast : ((2 : Int) ^ i) = ((2 ^ i : Nat) : Int) := by norm_cast
    rw [hcast]
    generalize 2 ^ i = m at *
    unfold toInt
    split
    · rw [Int.ediv_eq_zero_of_lt (by omega) (by omega)]
      omega
    · have : ((value a.data : Int) - (span N : Nat)) / (m : Int) = -1 := by
        rw [show ((value a.data : Int) - (span N : Nat)) = (value a.data - span N + m) + (m : Int) * (-1) by ring,
          Int.add_mul_ediv_left _ _ (by omega), Int.ediv_eq_zero_of_lt (by omega) (by omega)]
        rfl
      rw [this]
      omega

/-- The operation on the words does to the bits what `op` does. -/
def BitsOf (f : Nat → Nat → Nat) (op : Bool → Bool → Bool) : Prop :=
  ∀ x y i, (f x y).testBit i = op (x.testBit i) (y.testBit i)

theorem bitOp_spec {N : Nat} (hN : 0 < N) (f : Nat → Nat → Nat) (op : Bool → Bool → Bool)
    (hf : BitsOf f op) (h0 : op false false = false) {a b : Big} (ha : Valid N a) (hb : Valid N b) :
    Canon N (bitOp f N a b) ∧
    ∀ i, bit (toInt N (bitOp f N a b)) i = op (bit (toInt N a) i) (bit (toInt N b) i) := by
  have hsmall : ∀ x y, x < 2 ^ 32 → y < 2 ^ 32 → f x y < 2 ^ 32 := by
    intro x y hx hy
    apply Nat.lt_pow_two_of_testBit
    intro i hi
    rw [hf, Nat.testBit_lt_two_pow (Nat.lt_of_lt_of_le hx (Nat.pow_le_pow_right (by decide) hi)),
      Nat.testBit_lt_two_pow (Nat.lt_of_lt_of_le hy (Nat.pow_le_pow_right (by decide) hi)), h0]
  have hf0 : f 0 0 = 0 := by
    apply Nat.eq_of_testBit_eq
    intro i
    rw [hf, Nat.zero_testBit, h0]
  have hlen : (bitLoop f (max a.len b.len) a.data b.data).length = N := by
    rw [bitLoop_length, ha.size]
  have hget : ∀ i, i < N → (bitLoop f (max a.len b.len) a.data b.data).getD i 0 =
      f (a.data.getD i 0) (b.data.getD i 0) := by
    intro i hi
    rw [bitLoop_get f _ _ _ (by rw [ha.size, hb.size]) i (by rw [ha.size]; exact hi)]
    split
    · rfl
    · rename_i h
      rw [high_word ha i (by omega) hi, high_word hb i (by omega) hi, hf0]
  have hs : ∀ w ∈ bitLoop f (max a.len b.len) a.data b.data, w < 2 ^ 32 := by
    intro w hw
    obtain ⟨i, hi, rfl⟩ := List.mem_iff_getElem.1 hw
    rw [← getD_get _ _ hi, hget i (by omega)]
    apply hsmall
    · exact ha.small _ (getD_mem _ _ (by rw [ha.size]; omega))
    · exact hb.small _ (getD_mem _ _ (by rw [hb.size]; omega))
  have hc : Canon N (bitOp f N a b) :=
    reduce_canon hN hlen hs (Nat.le_refl _) (by rw [List.drop_eq_nil_of_le (by omega)]; simp)
  refine ⟨hc, fun i => ?_⟩
  rw [bit_toInt hN hc.toValid, bit_toInt hN ha, bit_toInt hN hb, value_testBit _ hc.small,
    value_testBit _ ha.small, value_testBit _ hb.small]
  rw [show (bitOp f N a b).data = bitLoop f (max a.len b.len) a.data b.data from rfl,
    hget _ (by omega), hf]

/-- C83: `&`, `|` and `^` are the operations on the bits of the integers, with
the sign going on forever. -/
theorem C83_bits (N : Nat) (hN : 0 < N) (a b : Big) (x y : Int) (ha : Is N a x) (hb : Is N b y) :
    (∃ z, Is N (bitAnd N a b) z ∧ ∀ i, bit z i = (bit x i && bit y i)) ∧
    (∃ z, Is N (bitOr N a b) z ∧ ∀ i, bit z i = (bit x i || bit y i)) ∧
    (∃ z, Is N (bitXor N a b) z ∧ ∀ i, bit z i = (bit x i ^^ bit y i)) := by
  obtain ⟨ha, rfl⟩ := ha
  obtain ⟨hb, rfl⟩ := hb
  refine ⟨?_, ?_, ?_⟩
  · obtain ⟨h1, h2⟩ := bitOp_spec hN (· &&& ·) (· && ·) (fun _ _ _ => Nat.testBit_and ..) rfl ha.toValid hb.toValid
    exact ⟨_, ⟨h1, rfl⟩, h2⟩
  · obtain ⟨h1, h2⟩ := bitOp_spec hN (· ||| ·) (· || ·) (fun _ _ _ => Nat.testBit_or ..) rfl ha.toValid hb.toValid
    exact ⟨_, ⟨h1, rfl⟩, h2⟩
  · obtain ⟨h1, h2⟩ := bitOp_spec hN (· ^^^ ·) (· ^^ ·) (fun _ _ _ => Nat.testBit_xor ..) rfl ha.toValid hb.toValid
    exact ⟨_, ⟨h1, rfl⟩, h2⟩

/-- C83: `~x` is `-x - 1`. -/
theorem C83_negate (N : Nat) (hN : 0 < N) (a : Big) (x : Int) (ha : Is N a x) :
    Is N (bitNegate N a) (-x - 1) := by
  obtain ⟨ha, rfl⟩ := ha
  obtain ⟨k1, k2⟩ := compl_spec a.data ha.small
  rw [ha.size] at k2
  have hc : Canon N (bitNegate N a) :=
    reduce_canon hN (by rw [List.length_map, ha.size]) k1 (Nat.le_refl _)
      (by rw [List.drop_eq_nil_of_le (by rw [List.length_map, ha.size])]; simp)
  refine ⟨hc, ?_⟩
  have hd : (bitNegate N a).data = a.data.map fun w => 2 ^ 32 - 1 - w := rfl
  have h1 := ha.lt
  obtain ⟨k, hk, -⟩ := span_half hN
  unfold toInt
  rw [hd]
  generalize value (a.data.map fun w => 2 ^ 32 - 1 - w) = v at *
  split <;> split <;> omega

/-- -3 & 6 = 4, -3 | 6 = -1, -3 ^ 6 = -5, ~6 = -7. -/
example : bitAnd 2 ⟨[0xFFFFFFFD, 0xFFFFFFFF], 2⟩ ⟨[6, 0], 1⟩ = ⟨[4, 0], 1⟩ ∧
    bitOr 2 ⟨[0xFFFFFFFD, 0xFFFFFFFF], 2⟩ ⟨[6, 0], 1⟩ = ⟨[0xFFFFFFFF, 0xFFFFFFFF], 2⟩ ∧
    bitXor 2 ⟨[0xFFFFFFFD, 0xFFFFFFFF], 2⟩ ⟨[6, 0], 1⟩ = ⟨[0xFFFFFFFB, 0xFFFFFFFF], 2⟩ ∧
    bitNegate 2 ⟨[6, 0], 1⟩ = ⟨[0xFFFFFFF9, 0xFFFFFFFF], 2⟩ := by decide +kernel

end C3.BigNum
