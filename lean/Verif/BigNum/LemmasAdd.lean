import Verif.BigNum.Lemmas

set_option autoImplicit false

namespace C3.BigNum

/-- The loop of the addition. -/
theorem addLoop_spec (n c : Nat) (a b : List Nat) (hc : c ≤ 1) (hab : a.length = b.length)
    (hn : n ≤ a.length) (ha : ∀ w ∈ a, w < 2 ^ 32) (hb : ∀ w ∈ b, w < 2 ^ 32) :
    (addLoop n c a b).1.length = a.length ∧ (∀ w ∈ (addLoop n c a b).1, w < 2 ^ 32) ∧
    (addLoop n c a b).2 ≤ 1 ∧ (addLoop n c a b).1.drop n = a.drop n ∧
    value ((addLoop n c a b).1.take n) + span n * (addLoop n c a b).2 =
      value (a.take n) + value (b.take n) + c := by
  induction n generalizing c a b with
  | zero =>
    rw [addLoop.eq_def]
    refine ⟨rfl, ha, hc, rfl, ?_⟩
    simp [value, span]
  | succ n ih =>
    cases a with
    | nil => simp at hn
    | cons x a =>
      cases b with
      | nil => simp at hab
      | cons y b =>
        have hx := ha x (List.mem_cons_self ..)
        have hy := hb y (List.mem_cons_self ..)
        obtain ⟨i1, i2, i3, i4, i5⟩ := ih ((x + y + c) / 2 ^ 32) a b (by omega) (by simpa using hab)
          (by simpa using hn) (fun v hv => ha v (List.mem_cons_of_mem _ hv))
          (fun v hv => hb v (List.mem_cons_of_mem _ hv))
        rw [addLoop]
        dsimp only
        refine ⟨by simpa using i1, ?_, i3, by simpa using i4, ?_⟩
        · intro w hw
          rcases List.mem_cons.1 hw with rfl | hw
          · omega
          · exact i2 w hw
        · simp only [List.take_succ_cons, value]
          rw [span_succ, Nat.mul_assoc]
          generalize span n * _ = p at *
          omega

theorem isNeg_len (N : Nat) (d : List Nat) (l : Nat) :
    (⟨d, l⟩ : Big).isNegative N = (⟨d, 0⟩ : Big).isNegative N := rfl

theorem reduce_neg (N : Nat) (a : Big) : a.reduceLen.isNegative N = a.isNegative N := rfl

theorem set_drop_zero (d : List Nat) (n c : Nat) (h : ∀ w ∈ d.drop n, w = 0) :
    ∀ w ∈ (d.set n c).drop (n + 1), w = 0 := by
  intro w hw
  rw [List.drop_set, if_pos (by omega)] at hw
  apply h
  rw [← List.drop_drop] at hw
  exact List.mem_of_mem_drop hw

theorem value_set (d : List Nat) (n c : Nat) (hn : n < d.length) (h : ∀ w ∈ d.drop n, w = 0) :
    value (d.set n c) = value (d.take n) + span n * c := by
  rw [value_split (d.set n c) n (by rw [List.length_set]; exact hn),
    value_zeros _ (set_drop_zero d n c h), List.take_set_of_le (Nat.le_refl _), getD_get _ _ (by rw [List.length_set]; exact hn),
    List.getElem_set_self]
  simp

/-- What the words are after an addition, before the check for overflow. -/
theorem add_spec {N : Nat} (hN : 0 < N) {a b : Big} (ha : Valid N a) (hb : Valid N b) :
    ∃ c, Canon N c ∧ (value c.data = value a.data + value b.data ∨
        value c.data + span N = value a.data + value b.data) ∧
      add N a b = if a.isNegative N ≠ b.isNegative N ∨ a.isNegative N = c.isNegative N
        then some c else none := by
  have hla := ha.size
  have hlb := hb.size
  generalize hlen : max a.len b.len = len
  have hle : len ≤ N := by rw [← hlen]; exact Nat.max_le.2 ⟨ha.le, hb.le⟩
  obtain ⟨l1, l2, l3, l4, l5⟩ := addLoop_spec len 0 a.data b.data (by omega) (by omega) (by omega)
    ha.small hb.small
  have hda : ∀ w ∈ a.data.drop len, w = 0 := by
    intro w hw
    apply ha.high
    have h1 : len = a.len + (len - a.len) := by omega
    rw [h1, ← List.drop_drop] at hw
    exact List.mem_of_mem_drop hw
  have hdb : ∀ w ∈ b.data.drop len, w = 0 := by
    intro w hw
    apply hb.high
    have h1 : len = b.len + (len - b.len) := by omega
    rw [h1, ← List.drop_drop] at hw
    exact List.mem_of_mem_drop hw
  rw [value_take a.data len (by omega) hda, value_take b.data len (by omega) hdb] at l5
  unfold add
  dsimp only
  rw [hlen]
  generalize hL : addLoop len 0 a.data b.data = L at *
  refine ⟨_, ?_, ?_, rfl⟩
  · split
    · rename_i h
      refine reduce_canon hN (by rw [List.length_set]; omega) ?_ h.2 ?_
      · intro w hw
        rcases List.mem_or_eq_of_mem_set hw with hw | rfl
        · exact l2 w hw
        · omega
      · exact set_drop_zero _ _ _ (by rw [l4]; exact hda)
    · exact reduce_canon hN (by omega) l2 hle (by rw [l4]; exact hda)
  · rw [reduce_data]
    split
    · rename_i h
      left
      rw [value_set _ _ _ (by omega) (by rw [l4]; exact hda)]
      omega
    · rename_i h
      dsimp only
      rw [← value_take L.1 len (by omega) (by rw [l4]; exact hda)]
      by_cases h0 : L.2 = 0
      · left
        rw [h0] at l5
        omega
      · right
        have h1 : len = N := by
          rcases Nat.lt_or_ge len N with h2 | h2
          · exact absurd ⟨h0, h2⟩ h
          · omega
        have h2 : L.2 = 1 := by omega
        rw [h2] at l5
        rw [← h1]
        omega

/-- The loop of the subtraction. -/
theorem subLoop_spec (n c : Nat) (a b : List Nat) (hc : c ≤ 1) (hab : a.length = b.length)
    (hn : n ≤ a.length) (ha : ∀ w ∈ a, w < 2 ^ 32) (hb : ∀ w ∈ b, w < 2 ^ 32) :
    (subLoop n c a b).1.length = a.length ∧ (∀ w ∈ (subLoop n c a b).1, w < 2 ^ 32) ∧
    (subLoop n c a b).2 ≤ 1 ∧ (subLoop n c a b).1.drop n = a.drop n ∧
    value ((subLoop n c a b).1.take n) + value (b.take n) + c =
      value (a.take n) + span n * (subLoop n c a b).2 := by
  induction n generalizing c a b with
  | zero =>
    rw [subLoop.eq_def]
    refine ⟨rfl, ha, hc, rfl, ?_⟩
    simp [value, span]
  | succ n ih =>
    cases a with
    | nil => simp at hn
    | cons x a =>
      cases b with
      | nil => simp at hab
      | cons y b =>
        have hx := ha x (List.mem_cons_self ..)
        have hy := hb y (List.mem_cons_self ..)
        rw [subLoop]
        dsimp only
        have hnx : (if (x : Int) - y - c < 0 then 1 else 0) ≤ 1 := by split <;> omega
        have hv : (((x : Int) - y - c) % 2 ^ 32).toNat + y + c =
          x + 2 ^ 32 * (if (x : Int) - y - c < 0 then 1 else 0) := by
          split <;> omega
        generalize (if (x : Int) - y - c < 0 then 1 else 0) = k at *
        obtain ⟨i1, i2, i3, i4, i5⟩ := ih k a b hnx (by simpa using hab)
          (by simpa using hn) (fun v hv => ha v (List.mem_cons_of_mem _ hv))
          (fun v hv => hb v (List.mem_cons_of_mem _ hv))
        refine ⟨by simpa using i1, ?_, i3, by simpa using i4, ?_⟩
        · intro w hw
          rcases List.mem_cons.1 hw with rfl | hw
          · omega
          · exact i2 w hw
        · simp only [List.take_succ_cons, value]
          rw [span_succ, Nat.mul_assoc]
          generalize span n * _ = p at *
          generalize (((x : Int) - y - c) % 2 ^ 32).toNat = q at *
          omega

theorem value_ones (n : Nat) : value (List.replicate n 0xFFFFFFFF) + 1 = span n := by
  induction n with
  | zero => rfl
  | succ n ih =>
    rw [List.replicate_succ, value, span_succ, ← ih]
    omega

theorem sub_spec {N : Nat} (hN : 0 < N) {a b : Big} (ha : Valid N a) (hb : Valid N b) :
    ∃ c, Canon N c ∧ (value c.data + value b.data = value a.data ∨
        value c.data + value b.data = value a.data + span N) ∧
      sub N a b = if a.isNegative N = b.isNegative N ∨ a.isNegative N = c.isNegative N
        then some c else none := by
  have hla := ha.size
  have hlb := hb.size
  generalize hlen : max a.len b.len = len
  have hle : len ≤ N := by rw [← hlen]; exact Nat.max_le.2 ⟨ha.le, hb.le⟩
  obtain ⟨l1, l2, l3, l4, l5⟩ := subLoop_spec len 0 a.data b.data (by omega) (by omega) (by omega)
    ha.small hb.small
  have hda : ∀ w ∈ a.data.drop len, w = 0 := by
    intro w hw
    apply ha.high
    have h1 : len = a.len + (len - a.len) := by omega
    rw [h1, ← List.drop_drop] at hw
    exact List.mem_of_mem_drop hw
  have hdb : ∀ w ∈ b.data.drop len, w = 0 := by
    intro w hw
    apply hb.high
    have h1 : len = b.len + (len - b.len) := by omega
    rw [h1, ← List.drop_drop] at hw
    exact List.mem_of_mem_drop hw
  rw [value_take a.data len (by omega) hda, value_take b.data len (by omega) hdb] at l5
  unfold sub
  dsimp only
  rw [hlen]
  generalize hL : subLoop len 0 a.data b.data = L at *
  refine ⟨_, ?_, ?_, rfl⟩
  · split
    · refine reduce_canon hN ?_ ?_ (Nat.le_refl _) ?_
      · rw [List.length_append, List.length_take, List.length_replicate]; omega
      · intro w hw
        rcases List.mem_append.1 hw with hw | hw
        · exact l2 w (List.mem_of_mem_take hw)
        · rw [(List.mem_replicate.1 hw).2]; omega
      · rw [List.drop_eq_nil_of_le]
        · simp
        · rw [List.length_append, List.length_take, List.length_replicate]; omega
    · exact reduce_canon hN (by omega) l2 hle (by rw [l4]; exact hda)
  · rw [reduce_data]
    split
    · rename_i h
      right
      dsimp only
      rw [value_append, List.length_take, Nat.min_eq_left (by omega)]
      have h1 : L.2 = 1 := by omega
      have h2 := value_ones (N - len)
      have h3 : span N = span len * span (N - len) := by
        rw [← span_add]; congr 1; omega
      rw [h1] at l5
      rw [h3, ← h2]
      generalize value (List.replicate (N - len) 0xFFFFFFFF) = v at *
      rw [Nat.mul_add]
      omega
    · rename_i h
      left
      dsimp only
      have h0 : L.2 = 0 := by omega
      rw [h0] at l5
      rw [← value_take L.1 len (by omega) (by rw [l4]; exact hda)]
      omega

theorem incLoop_spec (c : Nat) (ws : List Nat) (hc : c ≤ 1) (h : ∀ w ∈ ws, w < 2 ^ 32) :
    (incLoop c ws).length = ws.length ∧ (∀ w ∈ incLoop c ws, w < 2 ^ 32) ∧
    (value (incLoop c ws) = value ws + c ∨
      value (incLoop c ws) + span ws.length = value ws + c) := by
  induction ws generalizing c with
  | nil =>
    refine ⟨rfl, h, ?_⟩
    rw [incLoop]
    simp only [value, List.length_nil, span]
    omega
  | cons w ws ih =>
    have hw := h w (List.mem_cons_self ..)
    have ht : ∀ v ∈ ws, v < 2 ^ 32 := fun v hv => h v (List.mem_cons_of_mem _ hv)
    rw [incLoop]
    split
    · rename_i hc0
      obtain ⟨i1, i2, i3⟩ := ih ((w + 1) / 2 ^ 32) (by omega) ht
      refine ⟨by simpa using i1, ?_, ?_⟩
      · intro v hv
        rcases List.mem_cons.1 hv with rfl | hv
        · omega
        · exact i2 v hv
      · simp only [value, List.length_cons]
        rw [span_succ]
        omega
    · exact ⟨rfl, h, Or.inl (by omega)⟩

theorem compl_spec (ws : List Nat) (h : ∀ w ∈ ws, w < 2 ^ 32) :
    (∀ w ∈ ws.map (fun w => 2 ^ 32 - 1 - w), w < 2 ^ 32) ∧
    value (ws.map fun w => 2 ^ 32 - 1 - w) + value ws + 1 = span ws.length := by
  induction ws with
  | nil => exact ⟨by simp, rfl⟩
  | cons w ws ih =>
    obtain ⟨i1, i2⟩ := ih fun v hv => h v (List.mem_cons_of_mem _ hv)
    have hw := h w (List.mem_cons_self ..)
    constructor
    · intro v hv
      rw [List.map_cons] at hv
      rcases List.mem_cons.1 hv with rfl | hv
      · omega
      · exact i1 v hv
    · rw [List.map_cons, value, value, List.length_cons, span_succ]
      omega

theorem Canon.isZero_iff {N : Nat} {a : Big} (ha : Canon N a) :
    a.isZero = true ↔ value a.data = 0 := by
  unfold Big.isZero
  rw [Bool.and_eq_true, beq_iff_eq, beq_iff_eq]
  constructor
  · intro ⟨h1, h2⟩
    have hs := ha.size
    have hle := ha.le
    have := value_split a.data 0 (by omega)
    rw [this, show a.data.getD 0 0 = 0 from h2,
      value_zeros (a.data.drop (0 + 1)) (by rw [Nat.zero_add, ← h1]; exact ha.high)]
    simp [value]
  · intro h
    have h0 := zeros_of_value _ h
    have hs := ha.size
    have hle := ha.le
    have hp := ha.pos
    constructor
    · rcases ha.top with h1 | h1
      · exact h1
      · exact absurd (h0 _ (getD_mem _ _ (by omega))) h1
    · exact h0 _ (getD_mem _ _ (by omega))

theorem negate_spec {N : Nat} (hN : 0 < N) {a : Big} (ha : Valid N a) (h0 : a.isZero = false)
    (hv : value a.data ≠ 0) :
    ∃ c, Canon N c ∧ value c.data + value a.data = span N ∧
      negate N a = if c.isNegative N ≠ a.isNegative N then some c else none := by
  obtain ⟨k1, k2⟩ := compl_spec a.data ha.small
  obtain ⟨i1, i2, i3⟩ := incLoop_spec 1 _ (by omega) k1
  have hs := ha.size
  rw [List.length_map, hs] at i1 i3
  rw [hs] at k2
  unfold negate
  rw [h0, if_neg Bool.false_ne_true]
  dsimp only
  generalize incLoop 1 _ = d at *
  refine ⟨(⟨d, N⟩ : Big).reduceLen, ?_, ?_, rfl⟩
  · exact reduce_canon hN i1 i2 (Nat.le_refl _) (by rw [List.drop_eq_nil_of_le (by omega)]; simp)
  · rw [reduce_data]
    dsimp only
    have h1 := ha.lt
    have h2 := value_lt d i2
    rw [i1] at h2
    omega

/-- The loop of a comparison: the words are the same from there on. -/
theorem topDiff_spec (a b : Big) (n : Nat) (hn : n ≤ a.data.length) (hab : a.data.length = b.data.length)
    (h : a.data.drop n = b.data.drop n) :
    topDiff a b n ≤ n ∧ (topDiff a b n = 0 → a.data = b.data) ∧
    (0 < topDiff a b n → a.word (topDiff a b n - 1) ≠ b.word (topDiff a b n - 1) ∧
      a.data.drop (topDiff a b n) = b.data.drop (topDiff a b n)) := by
  induction n with
  | zero =>
    rw [topDiff]
    exact ⟨Nat.le_refl _, fun _ => by simpa using h, fun h => by omega⟩
  | succ n ih =>
    rw [topDiff]
    split
    · rename_i hw
      have := ih (by omega) (by
        rw [List.drop_eq_getElem_cons (show n < a.data.length by omega),
          List.drop_eq_getElem_cons (show n < b.data.length by omega), h,
          ← getD_get a.data n (by omega), ← getD_get b.data n (by omega)]
        exact congrArg (· :: _) hw)
      exact ⟨by omega, this.2⟩
    · rename_i hw
      exact ⟨Nat.le_refl _, fun h => by omega, fun _ => ⟨hw, h⟩⟩

theorem value_lt_of_top (a b : List Nat) (p : Nat) (ha : ∀ w ∈ a, w < 2 ^ 32) (hp : p < a.length)
    (hab : a.length = b.length) (hd : a.drop (p + 1) = b.drop (p + 1))
    (hlt : a.getD p 0 < b.getD p 0) : value a < value b := by
  rw [value_split a p hp, value_split b p (by omega), hd]
  have h1 := value_lt (a.take p) fun w hw => ha w (List.mem_of_mem_take hw)
  rw [List.length_take, Nat.min_eq_left (by omega)] at h1
  generalize 2 ^ 32 * value (b.drop (p + 1)) = t
  have h2 : span p * (a.getD p 0 + t + 1) ≤ span p * (b.getD p 0 + t) :=
    Nat.mul_le_mul_left _ (by omega)
  rw [Nat.mul_add _ _ 1] at h2
  omega

/-- The comparison of the words. -/
theorem topDiff_value {N : Nat} {a b : Big} (ha : Valid N a) (hb : Valid N b) :
    (decide (topDiff a b (max a.len b.len) > 0) &&
      decide (a.word (topDiff a b (max a.len b.len) - 1) <
        b.word (topDiff a b (max a.len b.len) - 1))) = decide (value a.data < value b.data) := by
  have hla := ha.size
  have hlb := hb.size
  have hle : max a.len b.len ≤ N := Nat.max_le.2 ⟨ha.le, hb.le⟩
  have hz : ∀ (c : Big), Valid N c → c.len ≤ max a.len b.len →
      c.data.drop (max a.len b.len) = List.replicate (N - max a.len b.len) 0 := by
    intro c hc hcl
    rw [List.eq_replicate_iff]
    refine ⟨by rw [List.length_drop, hc.size], ?_⟩
    intro w hw
    apply hc.high
    rw [show max a.len b.len = c.len + (max a.len b.len - c.len) by omega, ← List.drop_drop] at hw
    exact List.mem_of_mem_drop hw
  obtain ⟨t1, t2, t3⟩ := topDiff_spec a b (max a.len b.len) (by omega) (by omega)
    (by rw [hz a ha (Nat.le_max_left ..), hz b hb (Nat.le_max_right ..)])
  generalize topDiff a b (max a.len b.len) = p at *
  rw [Bool.eq_iff_iff, Bool.and_eq_true, decide_eq_true_eq, decide_eq_true_eq, decide_eq_true_eq]
  constructor
  · intro ⟨hp, hlt⟩
    apply value_lt_of_top a.data b.data (p - 1) ha.small (by omega) (by omega) _ hlt
    rw [Nat.sub_add_cancel hp]
    exact (t3 hp).2
  · intro hv
    rcases Nat.eq_zero_or_pos p with h0 | hp
    · rw [t2 h0] at hv; omega
    · refine ⟨hp, ?_⟩
      obtain ⟨t4, t5⟩ := t3 hp
      rcases Nat.lt_or_ge (a.word (p - 1)) (b.word (p - 1)) with h | h
      · exact h
      · have := value_lt_of_top b.data a.data (p - 1) hb.small (by omega) (by omega)
          (by rw [Nat.sub_add_cancel hp]; exact t5.symm)
          (show b.word (p - 1) < a.word (p - 1) by omega)
        omega

theorem topDiff_comm (a b : Big) (n : Nat) : topDiff a b n = topDiff b a n := by
  induction n with
  | zero => rfl
  | succ n ih =>
    rw [topDiff, topDiff, ih]
    by_cases h : a.word n = b.word n
    · rw [if_pos h, if_pos h.symm]
    · rw [if_neg h, if_neg (Ne.symm h)]

theorem lessThan_spec {N : Nat} (hN : 0 < N) {a b : Big} (ha : Valid N a) (hb : Valid N b) :
    lessThan N a b = decide (toInt N a < toInt N b) := by
  unfold lessThan
  dsimp only
  rw [topDiff_value ha hb, ha.neg hN, hb.neg hN]
  have h1 := ha.lt
  have h2 := hb.lt
  rw [Bool.eq_iff_iff]
  unfold toInt
  by_cases h3 : span N ≤ 2 * value a.data <;> by_cases h4 : span N ≤ 2 * value b.data
  all_goals simp only [h3, h4, decide_true, decide_false, Bool.not_true, Bool.not_false,
    Bool.and_true, Bool.true_and, Bool.and_self, Bool.false_eq_true, if_true, if_false, decide_eq_true_eq]
  · rw [if_neg (by omega), if_neg (by omega)]; omega
  · rw [if_neg (by omega), if_pos (by omega)]; simp only [true_iff]; omega
  · rw [if_pos (by omega), if_neg (by omega)]; simp only [false_iff]; omega
  · rw [if_pos (by omega), if_pos (by omega)]; omega

theorem greaterThan_eq (N : Nat) (a b : Big) : greaterThan N a b = lessThan N b a := by
  unfold greaterThan lessThan
  dsimp only
  rw [topDiff_comm b a, Nat.max_comm b.len]
  cases a.isNegative N <;> cases b.isNegative N <;> rfl

theorem equals_spec {N : Nat} {a b : Big} (ha : Canon N a) (hb : Canon N b) :
    equals a b = decide (toInt N a = toInt N b) := by
  unfold equals
  rw [Bool.eq_iff_iff, decide_eq_true_eq]
  constructor
  · intro h
    split at h
    · exact absurd h Bool.false_ne_true
    · rename_i hl
      have hl' : a.len = b.len := Classical.not_not.1 hl
      have hd := of_decide_eq_true h
      have hv : value a.data = value b.data := by
        rw [← value_take a.data a.len (by rw [ha.size]; exact ha.le) ha.high, hd, hl',
          value_take b.data b.len (by rw [hb.size]; exact hb.le) hb.high]
      unfold toInt
      rw [hv]
  · intro h
    rw [ha.ext_int hb h, if_neg (by simp), decide_eq_true rfl]

end C3.BigNum
