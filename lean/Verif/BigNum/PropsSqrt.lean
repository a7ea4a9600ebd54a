import Verif.BigNum.ModelSqrt
import Verif.BigNum.PropsGcd

/-! # C88: square roots -/

set_option autoImplicit false

namespace C3.BigNum

theorem bitLen_spec (v n : Nat) (h : v < 2 ^ n) :
    v < 2 ^ bitLen v n ∧ (v ≠ 0 → 0 < bitLen v n ∧ 2 ^ (bitLen v n - 1) ≤ v) := by
  induction n with
  | zero => simp at h; subst h; simp [bitLen]
  | succ n ih =>
    rw [bitLen]
    rw [Nat.pow_succ] at h
    by_cases hb : (v &&& 2 ^ n) = 0
    · rw [if_pos hb]
      apply ih
      have ht := congrArg (fun u => Nat.testBit u n) hb
      simp only [Nat.testBit_and, Nat.testBit_two_pow_self, Bool.and_true, Nat.zero_testBit] at ht
      rw [Nat.testBit_eq_decide_div_mod_eq, decide_eq_false_iff_not] at ht
      have hd : v / 2 ^ n < 2 := Nat.div_lt_of_lt_mul h
      have hd0 : v / 2 ^ n = 0 := by
        generalize v / 2 ^ n = q at *
        omega
      rcases Nat.div_eq_zero_iff.1 hd0 with h1 | h1
      · have : 0 < 2 ^ n := Nat.pow_pos (by decide)
        omega
      · exact h1
    · rw [if_neg hb]
      refine ⟨by rw [Nat.pow_succ]; exact h, fun _ => ⟨by omega, ?_⟩⟩
      rw [Nat.add_sub_cancel]
      rcases Nat.lt_or_ge v (2 ^ n) with hlt | hge
      · exfalso
        apply hb
        apply Nat.eq_of_testBit_eq
        intro j
        rw [Nat.testBit_and, Nat.zero_testBit, Nat.testBit_two_pow]
        by_cases hj : n = j
        · subst hj
          rw [Nat.testBit_lt_two_pow hlt]
          rfl
        · simp [hj]
      · exact hge

/-- `bitcount` is the number of bits of a positive number. -/
theorem bitcount_spec {N : Nat} {a : Big} {n : Nat} (ha : Is N a n) (h0 : n ≠ 0) :
    0 < bitcount a ∧ 2 ^ (bitcount a - 1) ≤ n ∧ n < 2 ^ bitcount a := by
  have hr : a.reduceLen = a := by
    unfold Big.reduceLen
    rw [findLength_self ha.1, Nat.max_eq_left ha.1.pos]
  have hp := ha.1.pos
  have hle := ha.1.le
  have hs := ha.1.size
  have hw := ha.word_top h0
  obtain ⟨b1, b2⟩ := bitLen_spec (a.word (a.len - 1)) 32 (ha.1.small _ (getD_mem _ _ (by omega)))
  obtain ⟨b3, b4⟩ := b2 hw
  have hv := value_split a.data (a.len - 1) (by omega)
  rw [Nat.sub_add_cancel hp, value_zeros _ ha.1.high, Nat.mul_zero, Nat.add_zero, ha.nat.1] at hv
  have hlow := value_lt (a.data.take (a.len - 1)) fun w hw => ha.1.small w (List.mem_of_mem_take hw)
  rw [List.length_take, Nat.min_eq_left (by omega)] at hlow
  have e : bitcount a = bitLen (a.word (a.len - 1)) 32 + (a.len - 1) * 2 ^ 5 := by
    unfold bitcount
    rw [hr]
  rw [e]
  have hw' : a.data.getD (a.len - 1) 0 = a.word (a.len - 1) := rfl
  rw [hw'] at hv
  generalize a.word (a.len - 1) = w at *
  generalize bitLen w 32 = k at *
  have hsp : span (a.len - 1) = 2 ^ ((a.len - 1) * 2 ^ 5) := by
    rw [span_two_pow]
    congr 1
    omega
  refine ⟨by omega, ?_, ?_⟩
  · rw [show k + (a.len - 1) * 2 ^ 5 - 1 = (k - 1) + (a.len - 1) * 2 ^ 5 by omega, Nat.pow_add, ← hsp,
      Nat.mul_comm]
    have := Nat.mul_le_mul_left (span (a.len - 1)) b4
    omega
  · rw [Nat.pow_add, ← hsp]
    have := Nat.mul_le_mul_left (span (a.len - 1)) (show w + 1 ≤ 2 ^ k from b1)
    rw [Nat.mul_add, Nat.mul_one] at this
    rw [Nat.mul_comm]
    omega

theorem xor_bit (w k : Nat) (h : w % 2 ^ (k + 1) = 0) : w ^^^ 2 ^ k = w + 2 ^ k := by
  obtain ⟨q, rfl⟩ := Nat.dvd_of_mod_eq_zero h
  rw [Nat.two_pow_add_eq_or_of_lt (Nat.pow_lt_pow_right (by decide) (by omega))]
  apply Nat.eq_of_testBit_eq
  intro j
  rw [Nat.testBit_xor, Nat.testBit_or, Nat.testBit_two_pow, Nat.testBit_two_pow_mul]
  by_cases hj : k = j
  · subst hj
    simp
  · simp [hj]

/-- A guess adds one bit, and its undoing takes it away. -/
theorem flip_spec {N : Nat} {r : Big} (hr : Valid N r) (i k : Nat) (hi : i < r.len) (hk : k < 32)
    (hd : 2 ^ (32 * i + (k + 1)) ∣ value r.data) :
    Valid N (flip r i (2 ^ k)) ∧ value (flip r i (2 ^ k)).data = value r.data + 2 ^ (32 * i + k) ∧
    flip (flip r i (2 ^ k)) i (2 ^ k) = r := by
  have hs := hr.size
  have hle := hr.le
  have hv := value_split r.data i (by omega)
  have hlow := value_lt (r.data.take i) fun w hw => hr.small w (List.mem_of_mem_take hw)
  rw [List.length_take, Nat.min_eq_left (by omega)] at hlow
  have hsp : span i = 2 ^ (32 * i) := span_two_pow i
  have hw32 : r.word i < 2 ^ 32 := hr.small _ (getD_mem _ _ (by omega))
  have hword : r.data.getD i 0 = r.word i := rfl
  rw [hword] at hv
  generalize hX : value (r.data.drop (i + 1)) = X at hv
  generalize hY : value (r.data.take i) = Y at hv hlow
  have hmod : r.word i % 2 ^ (k + 1) = 0 := by
    have hp : 0 < span i := span_pos i
    have hq : value r.data / span i = r.word i + 2 ^ 32 * X := by
      rw [hv, Nat.add_mul_div_left _ _ hp, Nat.div_eq_of_lt hlow, Nat.zero_add]
    have hdq : 2 ^ (k + 1) ∣ value r.data / span i := by
      obtain ⟨c, hc⟩ := hd
      rw [hc, Nat.pow_add 2 (32 * i), ← hsp, Nat.mul_assoc, Nat.mul_div_cancel_left _ hp]
      exact Nat.dvd_mul_right _ _
    rw [hq] at hdq
    have h32 : 2 ^ (k + 1) ∣ 2 ^ 32 * X :=
      Nat.dvd_trans (Nat.pow_dvd_pow 2 (by omega)) (Nat.dvd_mul_right _ _)
    exact Nat.mod_eq_zero_of_dvd ((Nat.dvd_add_left h32).1 hdq)
  have hx := xor_bit (r.word i) k hmod
  have hfit : r.word i + 2 ^ k < 2 ^ 32 := by
    rw [← hx]
    exact Nat.xor_lt_two_pow hw32 (Nat.pow_lt_pow_right (by decide) hk)
  refine ⟨{ size := by simp [flip, hs], small := ?_, pos := hr.pos, le := hr.le, high := ?_ }, ?_, ?_⟩
  · intro w hw
    rcases List.mem_or_eq_of_mem_set hw with hw | hw
    · exact hr.small w hw
    · rw [hw, hx]
      exact hfit
  · intro w hw
    have : (flip r i (2 ^ k)).data.drop (flip r i (2 ^ k)).len = r.data.drop r.len := by
      show (r.data.set i _).drop r.len = _
      rw [List.drop_set_of_lt (by omega)]
    rw [this] at hw
    exact hr.high w hw
  · have h2 := value_split (flip r i (2 ^ k)).data i (by simp [flip]; omega)
    have e1 : (flip r i (2 ^ k)).data.getD i 0 = r.word i + 2 ^ k := by
      rw [getD_get _ _ (by simp [flip]; omega)]
      simp [flip, hx]
    have e2 : (flip r i (2 ^ k)).data.take i = r.data.take i := by
      show (r.data.set i _).take i = _
      rw [List.take_set_of_le (by omega)]
    have e3 : (flip r i (2 ^ k)).data.drop (i + 1) = r.data.drop (i + 1) := by
      show (r.data.set i _).drop (i + 1) = _
      rw [List.drop_set_of_lt (by omega)]
    rw [e1, e2, e3, hX, hY] at h2
    rw [h2, hv, Nat.pow_add, ← hsp]
    ring
  · cases r with
    | mk data len =>
      simp only [flip, Big.word] at *
      congr 1
      have hlt : i < data.length := by omega
      rw [List.set_set]
      have : (data.set i (data.getD i 0 ^^^ 2 ^ k)).getD i 0 = data.getD i 0 ^^^ 2 ^ k := by
        rw [getD_get _ _ (by rw [List.length_set]; exact hlt)]
        simp
      rw [this, Nat.xor_assoc, Nat.xor_self, Nat.xor_zero, getD_get _ _ hlt, List.set_getElem_self]

/-- What is known of the bits found. -/
structure Root (N L x T : Nat) (r : Big) : Prop where
  valid : Valid N r
  len : r.len = L
  dvd : 2 ^ T ∣ value r.data
  low : value r.data * value r.data ≤ x
  high : x < (value r.data + 2 ^ T) * (value r.data + 2 ^ T)

/-- A guess is at most `2 ^ h`, and uses the highest word. -/
theorem Root.guess {N L x T h : Nat} {r : Big} (hr : Root N L x (T + 1) r) (hx : x < 2 ^ (2 * h))
    (hT : T ≤ h) (hL : 2 ^ (32 * (L - 1)) * 2 ^ (32 * (L - 1)) ≤ x) :
    value r.data + 2 ^ T ≤ 2 ^ h ∧ 2 ^ (32 * (L - 1)) ≤ value r.data + 2 ^ T := by
  obtain ⟨-, -, hd, hlo, hhi⟩ := hr
  generalize value r.data = v at *
  have hlt : v < 2 ^ h := by
    by_contra hge
    have := Nat.mul_le_mul (Nat.le_of_not_lt hge) (Nat.le_of_not_lt hge)
    rw [← Nat.pow_add, ← Nat.two_mul] at this
    omega
  have hT2 : 2 ^ (T + 1) = 2 ^ T + 2 ^ T := by rw [Nat.pow_succ]; omega
  constructor
  · rcases Nat.lt_or_ge h (T + 1) with h1 | h1
    · have h2 : T = h := by omega
      subst h2
      have : v = 0 := Nat.eq_zero_of_dvd_of_lt hd (by omega)
      omega
    · obtain ⟨c, rfl⟩ := hd
      have hh : 2 ^ h = 2 ^ (T + 1) * 2 ^ (h - (T + 1)) := by rw [← Nat.pow_add]; congr 1; omega
      rw [hh] at hlt ⊢
      have hc := Nat.lt_of_mul_lt_mul_left hlt
      have := Nat.mul_le_mul_left (2 ^ (T + 1)) (show c + 1 ≤ _ from hc)
      rw [Nat.mul_add, Nat.mul_one] at this
      omega
  · rcases Nat.lt_or_ge T (32 * (L - 1)) with h1 | h1
    · have hlt2 : 2 ^ (32 * (L - 1)) < v + 2 ^ (T + 1) := by
        by_contra hge
        have := Nat.mul_le_mul (Nat.le_of_not_lt hge) (Nat.le_of_not_lt hge)
        omega
      obtain ⟨c, rfl⟩ := hd
      have hh : 2 ^ (32 * (L - 1)) = 2 ^ (T + 1) * 2 ^ (32 * (L - 1) - (T + 1)) := by
        rw [← Nat.pow_add]; congr 1; omega
      rw [hh] at hlt2 ⊢
      rw [← Nat.mul_succ] at hlt2
      have hc := Nat.lt_of_mul_lt_mul_left hlt2
      exact Nat.le_trans (Nat.mul_le_mul_left (2 ^ (T + 1)) (show _ ≤ c from Nat.le_of_lt_succ hc))
        (Nat.le_add_right _ _)
    · have := Nat.pow_le_pow_right (show 0 < 2 by decide) h1
      omega

/-- One guess. -/
theorem sqrt_step {N : Nat} (hN : 0 < N) {L x h : Nat} {a : Big} (ha : Is N a x) (hx : x < 2 ^ (2 * h))
    (hL : 2 ^ (32 * (L - 1)) * 2 ^ (32 * (L - 1)) ≤ x) (hh : 2 * 2 ^ (2 * h) < span N)
    {i k : Nat} {r : Big} (hi : i < L) (hk : k < 32) (hT : 32 * i + k ≤ h)
    (hr : Root N L x (32 * i + (k + 1)) r) :
    ∃ square, mult N (flip r i (2 ^ k)) (flip r i (2 ^ k)) = some square ∧
      Root N L x (32 * i + k) (if greaterThan N square a then flip (flip r i (2 ^ k)) i (2 ^ k)
        else flip r i (2 ^ k)) := by
  obtain ⟨g1, g2⟩ := Root.guess hr hx hT hL
  obtain ⟨f1, f2, f3⟩ := flip_spec hr.valid i k (by rw [hr.len]; exact hi) hk hr.dvd
  rw [f3]
  have hgL : (flip r i (2 ^ k)).len = L := hr.len
  generalize flip r i (2 ^ k) = g at *
  have hcan : Canon N g :=
    canon_of f1.size f1.small f1.pos f1.le f1.high (Or.inr (by rw [hgL, f2, span_two_pow]; exact g2))
  have hsq : (value r.data + 2 ^ (32 * i + k)) * (value r.data + 2 ^ (32 * i + k)) ≤ 2 ^ (2 * h) := by
    rw [Nat.two_mul h, Nat.pow_add 2 h]
    exact Nat.mul_le_mul g1 g1
  have hle1 : 1 ≤ value r.data + 2 ^ (32 * i + k) := by
    have : 0 < 2 ^ (32 * i + k) := Nat.pow_pos (by decide)
    omega
  have hself := Nat.le_mul_of_pos_left (value r.data + 2 ^ (32 * i + k)) hle1
  have hg : Is N g (value r.data + 2 ^ (32 * i + k) : Nat) := by
    rw [← f2]
    exact is_nat hcan (by rw [f2]; omega)
  obtain ⟨sq, s1, s2⟩ := (C82_mult N hN g g _ _ hg hg).1 (Or.inr (Or.inr ⟨by
    rw [← Int.natCast_mul, Int.natAbs_natCast]; omega, by rw [Int.natAbs_natCast]; omega⟩))
  rw [← Int.natCast_mul] at s2
  refine ⟨sq, s1, ?_⟩
  have hgt : greaterThan N sq a = decide (x < (value r.data + 2 ^ (32 * i + k)) * (value r.data + 2 ^ (32 * i + k))) := by
    rw [greaterThan_eq, Is.lessThan hN ha s2]
  have hpd : 2 ^ (32 * i + k) ∣ value r.data := Nat.dvd_trans (Nat.pow_dvd_pow 2 (by omega)) hr.dvd
  rw [hgt]
  by_cases hc : x < (value r.data + 2 ^ (32 * i + k)) * (value r.data + 2 ^ (32 * i + k))
  · rw [if_pos (by simpa using hc)]
    exact ⟨hr.valid, hr.len, hpd, hr.low, hc⟩
  · rw [if_neg (by simpa using hc)]
    refine ⟨f1, hgL, ?_, ?_, ?_⟩
    · rw [f2]
      exact Nat.dvd_add hpd (Nat.dvd_refl _)
    · rw [f2]; omega
    · rw [f2]
      have e : value r.data + 2 ^ (32 * i + k) + 2 ^ (32 * i + k) = value r.data + 2 ^ (32 * i + (k + 1)) := by
        rw [← Nat.add_assoc (32 * i), Nat.pow_succ]
        omega
      rw [e]
      exact hr.high

theorem sqrtBits_spec {N : Nat} (hN : 0 < N) {L x h : Nat} {a : Big} (ha : Is N a x) (hx : x < 2 ^ (2 * h))
    (hL : 2 ^ (32 * (L - 1)) * 2 ^ (32 * (L - 1)) ≤ x) (hh : 2 * 2 ^ (2 * h) < span N) {i : Nat} (hi : i < L)
    (k : Nat) : ∀ (r : Big), k ≤ 32 → 32 * i + k ≤ h + 1 → Root N L x (32 * i + k) r →
    ∃ r', sqrtBits N a i k r = some r' ∧ Root N L x (32 * i) r' := by
  induction k with
  | zero => intro r _ _ hr; exact ⟨r, rfl, hr⟩
  | succ k ih =>
    intro r hk hT hr
    obtain ⟨sq, s1, s2⟩ := sqrt_step hN ha hx hL hh hi (by omega) (by omega) hr
    rw [sqrtBits]
    simp only [s1, Option.bind_eq_bind, Option.bind_some]
    exact ih _ (by omega) (by omega) s2

theorem sqrtWords_spec {N : Nat} (hN : 0 < N) {L x h : Nat} {a : Big} (ha : Is N a x) (hx : x < 2 ^ (2 * h))
    (hL : 2 ^ (32 * (L - 1)) * 2 ^ (32 * (L - 1)) ≤ x) (hh : 2 * 2 ^ (2 * h) < span N)
    (j : Nat) : ∀ (k : Nat) (r : Big), j + 1 ≤ L → k ≤ 32 → 32 * j + k ≤ h + 1 → Root N L x (32 * j + k) r →
    ∃ r', sqrtWords N a (j + 1) k r = some r' ∧ Root N L x 0 r' := by
  induction j with
  | zero =>
    intro k r hj hk hT hr
    obtain ⟨r', e, h1⟩ := sqrtBits_spec hN ha hx hL hh (i := 0) (by omega) k r hk hT hr
    rw [sqrtWords, e]
    exact ⟨r', rfl, h1⟩
  | succ j ih =>
    intro k r hj hk hT hr
    obtain ⟨r', e, h1⟩ := sqrtBits_spec hN ha hx hL hh (i := j + 1) (by omega) k r hk hT hr
    rw [sqrtWords, e]
    exact ih 32 r' (by omega) (Nat.le_refl _) (by omega) h1

/-- The start. -/
theorem root_start {N L x T : Nat} (hL : 1 ≤ L) (hLN : L ≤ N) (hx : x < 2 ^ (2 * T)) :
    Root N L x T ⟨List.replicate N 0, L⟩ := by
  have hv : value (List.replicate N 0) = 0 := value_replicate N
  refine ⟨{ size := by simp, small := ?_, pos := hL, le := hLN, high := ?_ }, rfl, ?_, ?_, ?_⟩
  · intro w hw
    rw [(List.mem_replicate.1 hw).2]
    decide
  · intro w hw
    exact (List.mem_replicate.1 (List.mem_of_mem_drop hw)).2
  · show 2 ^ T ∣ value (List.replicate N 0)
    rw [hv]
    exact Nat.dvd_zero _
  · show value (List.replicate N 0) * value (List.replicate N 0) ≤ x
    rw [hv]
    omega
  · show x < (value (List.replicate N 0) + 2 ^ T) * (value (List.replicate N 0) + 2 ^ T)
    rw [hv, Nat.zero_add, ← Nat.pow_add, ← Nat.two_mul]
    exact hx

/-- Half the number of bits, rounded up. -/
theorem half_bits (n : Nat) : (if (n &&& 1) ≠ 0 then n / 2 + 1 else n / 2) = (n + 1) / 2 := by
  rw [show n &&& 1 = n % 2 from Nat.and_two_pow_sub_one_eq_mod n 1]
  split <;> omega

/-- C88 (part): the square root of a positive number, rounded down, if the
number is less than a quarter of the numbers there are.  What is missing is
zero and the numbers from there on: see `C88_zero` and `C88_large_stops`. -/
theorem C88_sqrt_partial (N : Nat) (hN : 0 < N) (a : Big) (x : Nat) (ha : Is N a x) (h0 : x ≠ 0)
    (hx : 4 * x < span N) :
    ∃ c n, sqrt N a = some c ∧ Is N c (n : Nat) ∧ n * n ≤ x ∧ x < (n + 1) * (n + 1) := by
  obtain ⟨b1, b2, b3⟩ := bitcount_spec ha h0
  unfold sqrt
  dsimp only
  rw [half_bits, show ((bitcount a + 1) / 2 &&& 0x1F) = (bitcount a + 1) / 2 % 32 from
    Nat.and_two_pow_sub_one_eq_mod _ 5]
  generalize bitcount a = b at *
  generalize hh : (b + 1) / 2 = h
  have hx2 : x < 2 ^ (2 * h) := Nat.lt_of_lt_of_le b3 (Nat.pow_le_pow_right (by decide) (by omega))
  have hbN : b + 2 ≤ 32 * N := by
    rw [span_two_pow] at hx
    have : 2 ^ (b - 1 + 2) < 2 ^ (32 * N) := by
      rw [Nat.pow_add]
      omega
    have := (Nat.pow_lt_pow_iff_right (by decide)).1 this
    omega
  have hspan : 2 * 2 ^ (2 * h) < span N := by
    rw [span_two_pow, Nat.mul_comm, ← Nat.pow_succ]
    exact Nat.pow_lt_pow_right (by decide) (by omega)
  have hlow : ∀ t, t ≤ h - 1 → 2 ^ t * 2 ^ t ≤ x := by
    intro t ht
    rw [← Nat.pow_add]
    exact Nat.le_trans (Nat.pow_le_pow_right (by decide) (by omega)) b2
  have fin : ∀ r' L, Root N L x 0 r' → 2 ^ (32 * (L - 1)) * 2 ^ (32 * (L - 1)) ≤ x →
      Is N r' (value r'.data : Nat) ∧ value r'.data * value r'.data ≤ x ∧
      x < (value r'.data + 1) * (value r'.data + 1) := by
    intro r' L hr hLx
    have hhi := hr.high
    rw [Nat.pow_zero] at hhi
    have hge : span (r'.len - 1) ≤ value r'.data := by
      rw [hr.len, span_two_pow]
      by_contra hlt
      have h1 : value r'.data + 1 ≤ 2 ^ (32 * (L - 1)) := by omega
      have := Nat.mul_le_mul h1 h1
      omega
    have hv := hr.valid
    refine ⟨is_nat (canon_of hv.size hv.small hv.pos hv.le hv.high (Or.inr hge)) ?_, hr.low, hhi⟩
    have := hr.low
    rcases Nat.eq_zero_or_pos (value r'.data) with hz | hz
    · rw [hz]; have := span_pos N; omega
    · have := Nat.le_mul_of_pos_left (value r'.data) hz
      omega
  by_cases hb : h % 32 = 0
  · rw [if_pos hb]
    obtain ⟨j, hj⟩ : ∃ j, h / 2 ^ 5 = j + 1 := ⟨h / 32 - 1, by omega⟩
    rw [hj]
    have hLx := hlow (32 * (j + 1 - 1)) (by omega)
    obtain ⟨r', e, hr⟩ := sqrtWords_spec (L := j + 1) hN ha hx2 hLx hspan j 32 ⟨List.replicate N 0, j + 1⟩
      (Nat.le_refl _) (Nat.le_refl _) (by omega) (by
        rw [show 32 * j + 32 = h by omega]
        exact root_start (by omega) (by omega) hx2)
    obtain ⟨f1, f2, f3⟩ := fin r' _ hr hLx
    exact ⟨r', _, e, f1, f2, f3⟩
  · rw [if_neg hb]
    have hLx := hlow (32 * (h / 2 ^ 5 + 1 - 1)) (by omega)
    obtain ⟨r', e, hr⟩ := sqrtWords_spec (L := h / 2 ^ 5 + 1) hN ha hx2 hLx hspan (h / 2 ^ 5) (h % 32 + 1)
      ⟨List.replicate N 0, h / 2 ^ 5 + 1⟩ (Nat.le_refl _) (by omega) (by omega) (by
        rw [show 32 * (h / 2 ^ 5) + (h % 32 + 1) = h + 1 by omega]
        exact root_start (by omega) (by omega)
          (Nat.lt_of_lt_of_le hx2 (Nat.pow_le_pow_right (by decide) (by omega))))
    obtain ⟨f1, f2, f3⟩ := fin r' _ hr hLx
    exact ⟨r', _, e, f1, f2, f3⟩

/-- C88, a failure: the square root of zero has no words, so that it is not
equal to zero, and `is_zero` says no. -/
theorem C88_zero (N : Nat) (hN : 0 < N) : ∃ c, sqrt N (zero N) = some c ∧ c.isZero = false ∧
    equals c (zero N) = false := by
  have hb : bitcount (zero N) = 0 := by
    unfold bitcount
    have : (zero N).reduceLen = zero N := rfl
    rw [this]
    have hw : (zero N).word ((zero N).len - 1) = 0 := by
      cases N with
      | zero => rfl
      | succ n => rfl
    dsimp only
    rw [hw]
    rfl
  refine ⟨⟨List.replicate N 0, 0⟩, ?_, rfl, ?_⟩
  · unfold sqrt
    rw [hb]
    rfl
  · unfold equals
    rfl

/-- A guess as a number. -/
theorem guess_is {N L x i k : Nat} {r : Big} (hr : Root N L x (32 * i + (k + 1)) r) (hi : i + 1 = L) (hk : k < 32)
    (hv : 2 * (value r.data + 2 ^ (32 * i + k)) < span N) :
    Is N (flip r i (2 ^ k)) (value r.data + 2 ^ (32 * i + k) : Nat) := by
  obtain ⟨f1, f2, -⟩ := flip_spec hr.valid i k (by rw [hr.len]; omega) hk hr.dvd
  have hgL : (flip r i (2 ^ k)).len = i + 1 := by
    show r.len = _
    rw [hr.len, hi]
  generalize flip r i (2 ^ k) = g at *
  rw [← f2]
  refine is_nat (canon_of f1.size f1.small f1.pos f1.le f1.high (Or.inr ?_)) (by rw [f2]; exact hv)
  rw [hgL, f2, span_two_pow, Nat.add_sub_cancel]
  have := Nat.pow_le_pow_right (show 0 < 2 by decide) (show 32 * i ≤ 32 * i + k by omega)
  omega

theorem mult_stop {N : Nat} (hN : 0 < N) (g : Big) (n : Nat) (hg : Is N g n) (h2 : 2 ≤ n)
    (hn : span N ≤ 2 * (n * n)) : mult N g g = none := by
  refine (C82_mult N hN g g n n hg hg).2 ?_
  unfold Fits
  rw [← Int.natCast_mul, Int.natAbs_natCast]
  omega

theorem sqrtBits_stop (N : Nat) (hN : 0 < N) (a : Big) (x : Nat) (ha : Is N a x)
    (hx : span N ≤ 4 * x) (j k : Nat) (hk : k < 31) (hT : 32 * j + (k + 2) = 16 * N) :
    sqrtBits N a j (k + 2) ⟨List.replicate N 0, j + 1⟩ = none := by
  have hx1 := ha.nat.2
  have hspan : span N = 2 ^ (32 * N) := span_two_pow N
  have hxlt : x < 2 ^ (2 * (32 * j + (k + 1 + 1))) := by
    rw [show 2 * (32 * j + (k + 1 + 1)) = 32 * N by omega]
    omega
  have hr : Root N (j + 1) x (32 * j + (k + 1 + 1)) ⟨List.replicate N 0, j + 1⟩ :=
    root_start (by omega) (by omega) hxlt
  have hgv : value (⟨List.replicate N 0, j + 1⟩ : Big).data + 2 ^ (32 * j + (k + 1)) = 2 ^ (32 * j + (k + 1)) := by
    show value (List.replicate N 0) + _ = _
    rw [value_replicate, Nat.zero_add]
  have hP : 4 * (2 ^ (32 * j + (k + 1)) * 2 ^ (32 * j + (k + 1))) = span N := by
    rw [hspan, ← Nat.pow_add, show (4 : Nat) = 2 ^ 2 by decide, ← Nat.pow_add]
    congr 1
    omega
  have hPs : 4 * 2 ^ (32 * j + (k + 1)) < span N := by
    rw [hspan, show (4 : Nat) = 2 ^ 2 by decide, ← Nat.pow_add]
    exact Nat.pow_lt_pow_right (by decide) (by omega)
  have hQ : 2 ^ (32 * j + (k + 1)) = 2 * 2 ^ (32 * j + k) := by
    rw [← Nat.add_assoc, Nat.pow_succ, Nat.mul_comm]
  have hg := guess_is hr rfl (by omega) (by rw [hgv]; omega)
  obtain ⟨f1, f2, -⟩ := flip_spec hr.valid j (k + 1) (Nat.lt_succ_self j) (by omega) hr.dvd
  rw [hgv] at f2 hg
  obtain ⟨sq, s1, s2⟩ := (C82_mult N hN _ _ _ _ hg hg).1 (Or.inr (Or.inr ⟨by
    rw [← Int.natCast_mul, Int.natAbs_natCast]; omega, by rw [Int.natAbs_natCast]; omega⟩))
  rw [← Int.natCast_mul] at s2
  have hgt : greaterThan N sq a = false := by
    rw [greaterThan_eq, Is.lessThan hN ha s2]
    simp only [decide_eq_false_iff_not]
    omega
  have hr2 : Root N (j + 1) x (32 * j + (k + 1)) (flip ⟨List.replicate N 0, j + 1⟩ j (2 ^ (k + 1))) := by
    have e : 2 ^ (32 * j + (k + 1)) + 2 ^ (32 * j + (k + 1)) = 2 ^ (32 * j + (k + 1 + 1)) := by
      rw [← Nat.add_assoc (32 * j) (k + 1) 1, Nat.pow_succ 2 (32 * j + (k + 1))]
      omega
    refine ⟨f1, rfl, ?_, ?_, ?_⟩
    · rw [f2]
    · rw [f2]
      omega
    · rw [f2, e, ← Nat.pow_add, ← Nat.two_mul]
      exact hxlt
  rw [sqrtBits]
  simp only [s1, hgt, Option.bind_eq_bind, Option.bind_some, Bool.false_eq_true, if_false]
  rw [sqrtBits]
  have hg2 := guess_is hr2 rfl (by omega) (by rw [f2]; omega)
  rw [f2] at hg2
  have hn := mult_stop hN _ _ hg2 (by
    have : 0 < 2 ^ (32 * j + k) := Nat.pow_pos (by decide)
    omega) (by
    rw [hQ] at hP ⊢
    generalize 2 ^ (32 * j + k) = q at *
    rw [← hP]
    nlinarith [Nat.zero_le (q * q)])
  simp only [hn, Option.bind_eq_bind, Option.bind_none]

/-- C88, a failure: from a quarter of the numbers there are on, `sqrt` stops, as
the square of a guess has no room. -/
theorem C88_large_stops (N : Nat) (hN : 0 < N) (a : Big) (x : Nat) (ha : Is N a x)
    (hx : span N ≤ 4 * x) : sqrt N a = none := by
  have hsp := span_pos N
  obtain ⟨b1, b2, b3⟩ := bitcount_spec ha (by omega)
  have hx1 := ha.nat.2
  unfold sqrt
  dsimp only
  rw [half_bits, show ((bitcount a + 1) / 2 &&& 0x1F) = (bitcount a + 1) / 2 % 32 from
    Nat.and_two_pow_sub_one_eq_mod _ 5]
  generalize bitcount a = b at *
  have hb : b = 32 * N - 1 := by
    rw [span_two_pow] at hx hx1
    have e1 : 2 ^ (b - 1 + 1) < 2 ^ (32 * N) := by rw [Nat.pow_succ]; omega
    have e2 : 2 ^ (32 * N) < 2 ^ (b + 2) := by rw [Nat.pow_add]; omega
    have e1 := (Nat.pow_lt_pow_iff_right (by decide)).1 e1
    have e2 := (Nat.pow_lt_pow_iff_right (by decide)).1 e2
    omega
  have hh : (b + 1) / 2 = 16 * N := by omega
  rw [hh]
  have hspan : span N = 2 ^ (32 * N) := span_two_pow N
  have hxlt : ∀ T, 16 * N ≤ T → x < 2 ^ (2 * T) := by
    intro T hT
    have := Nat.pow_le_pow_right (show 0 < 2 by decide) (show 32 * N ≤ 2 * T by omega)
    omega
  by_cases hb0 : 16 * N % 32 = 0
  · rw [if_pos hb0]
    obtain ⟨j, hj⟩ : ∃ j, 16 * N / 2 ^ 5 = j + 1 := ⟨16 * N / 32 - 1, by omega⟩
    rw [hj, sqrtWords, sqrtBits_stop N hN a x ha hx j 30 (by decide) (by omega)]
    rfl
  · rw [if_neg hb0, sqrtWords, show 16 * N % 32 = 16 by omega, sqrtBits]
    have hr : Root N (16 * N / 2 ^ 5 + 1) x (32 * (16 * N / 2 ^ 5) + (16 + 1))
        ⟨List.replicate N 0, 16 * N / 2 ^ 5 + 1⟩ :=
      root_start (by omega) (by omega) (hxlt _ (by omega))
    have hv0 : value (List.replicate N 0) = 0 := value_replicate N
    have hgv : value (⟨List.replicate N 0, 16 * N / 2 ^ 5 + 1⟩ : Big).data + 2 ^ (32 * (16 * N / 2 ^ 5) + 16) =
        2 ^ (16 * N) := by
      show value (List.replicate N 0) + _ = _
      rw [hv0, Nat.zero_add]
      congr 1
      omega
    have hg := guess_is hr rfl (by decide) (by
      rw [hgv, hspan, Nat.mul_comm, ← Nat.pow_succ]
      exact Nat.pow_lt_pow_right (by decide) (by omega))
    rw [hgv] at hg
    have hn := mult_stop hN _ _ hg (by
      have := Nat.pow_le_pow_right (show 0 < 2 by decide) (show 1 ≤ 16 * N by omega)
      omega) (by
      rw [hspan, ← Nat.pow_add, show 16 * N + 16 * N = 32 * N by omega]
      omega)
    simp only [hn, Option.bind_eq_bind, Option.bind_none]

/-- C88, the whole claim, which is false. -/
def C88_full (N : Nat) : Prop := ∀ (a : Big) (x : Nat), Is N a x →
  ∃ c n, sqrt N a = some c ∧ Is N c (n : Nat) ∧ n * n ≤ x ∧ x < (n + 1) * (n + 1)

/-- C88: the whole claim does not hold. -/
theorem C88_fails (N : Nat) (hN : 0 < N) : ¬ C88_full N := by
  intro h
  obtain ⟨c, n, h1, h2, h3, -⟩ := h (zero N) 0 (zero_is N hN)
  obtain ⟨c', h4, h5, -⟩ := C88_zero N hN
  rw [h1] at h4
  cases h4
  have : n = 0 := by
    rcases Nat.eq_zero_or_pos n with h | h
    · exact h
    · have := Nat.mul_pos h h
      omega
  subst this
  rw [h2.isZero] at h5
  cases h5

/-- The square root of 10^6 + 1 is 1000. -/
example : ∃ a c, init 4 1000001 = some a ∧ sqrt 4 a = some c ∧ Is 4 c 1000 := by
  obtain ⟨a, ha, ha'⟩ := init_spec 4 (by decide) 1000001 (by decide)
  obtain ⟨c, n, h1, h2, h3, h4⟩ := C88_sqrt_partial 4 (by decide) a 1000001 ha' (by decide) (by decide)
  have : n = 1000 := by
    apply Nat.le_antisymm
    · by_contra h
      have := Nat.mul_le_mul (show 1001 ≤ n by omega) (show 1001 ≤ n by omega)
      omega
    · by_contra h
      have := Nat.mul_le_mul (show n + 1 ≤ 1000 by omega) (show n + 1 ≤ 1000 by omega)
      omega
  subst this
  exact ⟨a, c, ha, h1, h2⟩

/-- The square root of 2^126 in four words stops. -/
example : ∃ a, init 4 (2 ^ 126) = some a ∧ sqrt 4 a = none := by
  obtain ⟨a, ha, ha'⟩ := init_spec 4 (by decide) (2 ^ 126) (by decide)
  exact ⟨a, ha, C88_large_stops 4 (by decide) a (2 ^ 126) ha' (by decide)⟩

end C3.BigNum
