import Verif.BigNum.LemmasString

/-! # C87: numerals of `BigInt`s -/

set_option autoImplicit false

namespace C3.BigNum

theorem digits_reverse {r : Nat} {s ds : List Nat} (h : Digits r s ds) : Digits r s.reverse ds.reverse := by
  have app : ∀ {a b c d : List Nat}, Digits r a b → Digits r c d → Digits r (a ++ c) (b ++ d) := by
    intro a b c d h1 h2
    induction h1 with
    | nil => exact h2
    | cons h _ ih => exact .cons h ih
  induction h with
  | nil => exact .nil
  | cons h _ ih =>
    rw [List.reverse_cons, List.reverse_cons]
    exact app ih (.cons h .nil)

theorem digits_length {r : Nat} {s ds : List Nat} (h : Digits r s ds) : s.length = ds.length := by
  induction h with
  | nil => rfl
  | cons _ _ ih => simp [ih]

theorem digits_chars {r : Nat} (hr : r ≤ 36) (ds : List Nat) (h : ∀ d ∈ ds, d < r) :
    Digits r (ds.map charOf) ds := by
  induction ds with
  | nil => exact .nil
  | cons d ds ih =>
    have := h d (List.mem_cons_self ..)
    exact .cons ⟨⟨by omega, Or.inl rfl⟩, this⟩ (ih fun e he => h e (List.mem_cons_of_mem _ he))

theorem digit_ne_minus {c d : Nat} (h : IsDigit c d) : c ≠ 45 := by
  obtain ⟨h1, h2⟩ := h
  unfold charOf at h2
  split at h2 <;> omega

/-- C87: `to_string_with_radix` gives the numeral of every number but the
smallest. -/
theorem C87_to_string (N : Nat) (hN : 0 < N) (r : Nat) (hr : 2 ≤ r) (hr36 : r ≤ 36) (a : Big) (x : Int)
    (ha : Is N a x) (hx : InRange N x.natAbs) : ∃ s, toString N a r = some s ∧ Numeral r x s := by
  unfold toString
  have hz : a.isZero = decide (x = 0) := by
    rw [Bool.eq_iff_iff, (C80_tests N hN a x ha).1]
    simp
  rw [if_neg (by omega), hz]
  by_cases h0 : x = 0
  · rw [if_pos (by simpa using h0)]
    subst h0
    exact ⟨[48], rfl, [0], by simp [charOf], by simp; omega, by simp, by simp [horner], by simp⟩
  · rw [if_neg (by simpa using h0)]
    obtain ⟨a', a1, a2⟩ := (strip_spec N hN a x ha).1 hx
    have hsp : (2 : Nat) ^ 32 ≤ span N := by
      have := span_mono (m := 1) (n := N) hN
      simpa [span] using this
    obtain ⟨rb, r1, r2⟩ := init_spec N hN r (by unfold InRange; omega)
    obtain ⟨ds, d1, d2, d3, d4, d5⟩ := digitsLoop_spec hN r hr hr36 rb (r2.word_zero hN (by omega)) _ a' a2
    rw [a1, Option.bind_eq_bind, Option.bind_some, r1]
    simp only [Option.bind_eq_bind, Option.bind_some, d1]
    refine ⟨_, rfl, ds.reverse, ?_, ?_, ?_, ?_, ?_⟩
    · rw [isNeg hN ha, List.map_reverse]
      by_cases hneg : x < 0
      · rw [if_pos (by simpa using hneg), if_pos hneg, List.reverse_append]
        rfl
      · rw [if_neg (by simpa using hneg), if_neg hneg]
        rfl
    · intro d hd
      exact d2 d (List.mem_reverse.1 hd)
    · rw [ne_eq, List.reverse_eq_nil_iff]
      exact d4 (by omega)
    · rw [horner_reverse, d3]
    · intro _
      have hne := d4 (by omega)
      rw [List.headD_eq_head?_getD, List.head?_reverse, List.getLast?_eq_some_getLast hne]
      exact d5 _ (List.getLast?_eq_some_getLast hne)

/-- C87: at the smallest number `to_string_with_radix` stops. -/
theorem C87_to_string_min (N : Nat) (hN : 0 < N) (r : Int) (a : Big) (x : Int)
    (ha : Is N a x) (hx : ¬ InRange N x.natAbs) : toString N a r = none := by
  unfold toString
  have hz : a.isZero = decide (x = 0) := by
    rw [Bool.eq_iff_iff, (C80_tests N hN a x ha).1]
    simp
  by_cases hr : r > 1 ∧ r ≤ 36
  · rw [if_neg (by omega), hz, if_neg]
    · rw [(strip_spec N hN a x ha).2 hx]
      rfl
    · have := span_pos N
      unfold InRange at hx
      simp
      omega
  · rw [if_pos hr]

theorem initString_cons (N : Nat) (hN : 0 < N) (r : Nat) (rb : Big) (hrb : init N r = some rb) (c : Nat)
    (cs : List Nat) : initString N (c :: cs) r =
      (parseLoop N r rb (c == 45) (if c == 45 then cs else c :: cs).reverse (zero N) (one N)).map
        (checkSign N (c == 45)) := by
  unfold initString
  rw [hrb]
  simp only [Option.bind_eq_bind, Option.bind_some]
  cases parseLoop N r rb (c == 45) (if c == 45 then cs else c :: cs).reverse (zero N) (one N) <;> rfl

theorem radix_big (N : Nat) (hN : 0 < N) (r : Nat) (hr : r < 2 ^ 31) : ∃ rb, init N r = some rb ∧ Is N rb r := by
  have hsp : (2 : Nat) ^ 32 ≤ span N := by
    have := span_mono (m := 1) (n := N) hN
    simpa [span] using this
  exact init_spec N hN r (by unfold InRange; omega)

/-- C87: what `init_string_radix` makes of digits without a sign: their number,
if there is room for it and for the weight of the first digit; otherwise the
program stops. -/
theorem C87_parse (N : Nat) (hN : 0 < N) (r : Nat) (hr : 2 ≤ r) (hr31 : r < 2 ^ 31) (s ds : List Nat)
    (hd : Digits r s ds) (hs : s ≠ []) :
    (2 * horner r ds < span N → 2 * r ^ (s.length - 1) < span N →
      ∃ b, initString N s r = some (.ok b) ∧ Is N b (horner r ds)) ∧
    (span N ≤ 2 * horner r ds ∨ span N ≤ 2 * r ^ (s.length - 1) → initString N s r = none) := by
  obtain ⟨rb, rb1, rb2⟩ := radix_big N hN r hr31
  have hrev := digits_reverse hd
  have hv : lowFirst r ds.reverse = horner r ds := by rw [← horner_reverse, List.reverse_reverse]
  have hlen : ds.reverse.length = s.length := by rw [List.length_reverse, digits_length hd]
  cases hd with
  | nil => exact absurd rfl hs
  | @cons c d cs ds hcd hds =>
    have hc : (c == 45) = false := by simpa using digit_ne_minus hcd.1
    rw [initString_cons N hN r rb rb1, hc]
    have h0 : Is N (zero N) (sgn false 0) := zero_is N hN
    have h1 : Is N (one N) (1 : Nat) := one_is N hN
    constructor
    · intro k1 k2
      obtain ⟨b, b1, b2⟩ := parseLoop_ok hN r hr rb rb2 false _ _ hrev (zero N) (one N) 0 1 h0 h1 (Nat.le_refl _)
        (Or.inr ⟨by rw [hv]; omega, by rw [hlen]; omega⟩)
      rw [hv, Nat.zero_add, Nat.one_mul] at b2
      refine ⟨b, ?_, b2⟩
      rw [if_neg (by decide), b1]
      have : b.isNegative N = false := by rw [isNeg hN b2]; simp [sgn]
      simp [checkSign, this]
    · intro k
      rw [if_neg (by decide), parseLoop_stop hN r hr rb rb2 false _ _ hrev (zero N) (one N) 0 1 h0 h1
        (Nat.le_refl _) (by have := span_pos N; omega) (by
          rw [hv, hlen]
          rcases k with k | k
          · exact Or.inr (Or.inr ⟨rfl, by omega⟩)
          · exact Or.inr (Or.inl (by omega)))]
      rfl

/-- C87: what `init_string_radix` makes of a minus sign with digits behind it.
If their number is zero, or there are none, it returns the fault
`INTEGER_OVERFLOW`. -/
theorem C87_parse_neg (N : Nat) (hN : 0 < N) (r : Nat) (hr : 2 ≤ r) (hr31 : r < 2 ^ 31) (s ds : List Nat)
    (hd : Digits r s ds) :
    (2 * horner r ds < span N → 2 * r ^ (s.length - 1) < span N → horner r ds ≠ 0 →
      ∃ b, initString N (45 :: s) r = some (.ok b) ∧ Is N b (-(horner r ds : Int))) ∧
    (2 * r ^ (s.length - 1) < span N → horner r ds = 0 →
      initString N (45 :: s) r = some (.error .integerOverflow)) ∧
    (span N < 2 * horner r ds ∨ span N ≤ 2 * r ^ (s.length - 1) → initString N (45 :: s) r = none) := by
  obtain ⟨rb, rb1, rb2⟩ := radix_big N hN r hr31
  have hrev := digits_reverse hd
  have hv : lowFirst r ds.reverse = horner r ds := by rw [← horner_reverse, List.reverse_reverse]
  have hlen : ds.reverse.length = s.length := by rw [List.length_reverse, digits_length hd]
  rw [initString_cons N hN r rb rb1, show (45 == 45) = true by decide, if_pos rfl]
  have h0 : Is N (zero N) (sgn true 0) := zero_is N hN
  have h1 : Is N (one N) (1 : Nat) := one_is N hN
  have hsp := span_pos N
  have key : 2 * horner r ds < span N → 2 * r ^ (s.length - 1) < span N → ∃ b,
      parseLoop N r rb true s.reverse (zero N) (one N) = some (.ok b) ∧ Is N b (-(horner r ds : Int)) := by
    intro k1 k2
    obtain ⟨b, b1, b2⟩ := parseLoop_ok hN r hr rb rb2 true _ _ hrev (zero N) (one N) 0 1 h0 h1 (Nat.le_refl _)
      (Or.inr ⟨by rw [hv]; omega, by rw [hlen]; omega⟩)
    rw [hv, Nat.zero_add, Nat.one_mul] at b2
    exact ⟨b, b1, b2⟩
  refine ⟨?_, ?_, ?_⟩
  · intro k1 k2 k3
    obtain ⟨b, b1, b2⟩ := key k1 k2
    refine ⟨b, ?_, b2⟩
    rw [b1]
    have : b.isNegative N = true := by rw [isNeg hN b2]; simp; omega
    simp [checkSign, this]
  · intro k2 k3
    obtain ⟨b, b1, b2⟩ := key (by omega) k2
    rw [b1]
    have : b.isNegative N = false := by rw [isNeg hN b2]; simp; omega
    simp [checkSign, this]
  · intro k
    rw [parseLoop_stop hN r hr rb rb2 true _ _ hrev (zero N) (one N) 0 1 h0 h1 (Nat.le_refl _) (by omega) (by
      rw [hv, hlen]
      rcases k with k | k
      · exact Or.inl (by omega)
      · exact Or.inr (Or.inl (by omega)))]
    rfl

theorem parseLoop_bad (N : Nat) (r : Int) (rb : Big) (neg : Bool) (cs : List Nat)
    (h : ∃ c ∈ cs, digitOf c r = none) :
    ∀ (self mul b : Big), parseLoop N r rb neg cs self mul ≠ some (.ok b) := by
  induction cs with
  | nil => obtain ⟨c, hc, -⟩ := h; cases hc
  | cons c cs ih =>
    intro self mul b hb
    rw [parseLoop] at hb
    cases hc : digitOf c r with
    | none => rw [hc] at hb; cases hb
    | some d =>
      rw [hc] at hb
      have h' : ∃ c ∈ cs, digitOf c r = none := by
        obtain ⟨e, he, he'⟩ := h
        rcases List.mem_cons.1 he with rfl | he
        · rw [hc] at he'; cases he'
        · exact ⟨e, he, he'⟩
      simp only [Option.bind_eq_bind, Option.bind_eq_some_iff] at hb
      obtain ⟨_, _, _, _, s, _, m, _, hb⟩ := hb
      exact ih h' s m b hb

theorem digitOf_lt {c r : Nat} {z : Int} (h : digitOf c r = some z) :
    ∃ d : Nat, z = d ∧ IsDigit c d ∧ d < r := by
  by_cases hex : ∃ d, d < r ∧ IsDigit c d
  · obtain ⟨d, hd, hc⟩ := hex
    rw [digitOf_some c d r hc hd] at h
    cases h
    exact ⟨d, rfl, hc, hd⟩
  · rw [digitOf_none c r fun d hd hc => hex ⟨d, hd, hc⟩] at h
    cases h

theorem parseLoop_malformed {N : Nat} (hN : 0 < N) (r : Nat) (hr : 2 ≤ r) (rb : Big) (hrb : Is N rb r)
    (neg : Bool) (cs : List Nat) (h : ∃ c ∈ cs, digitOf c r = none) :
    ∀ (self mul : Big) (v m : Nat), Is N self (sgn neg v) → Is N mul m → 1 ≤ m → v < m →
    2 * (m * r ^ cs.length) < span N →
    parseLoop N r rb neg cs self mul = some (.error .malformedInteger) := by
  induction cs with
  | nil => obtain ⟨c, hc, -⟩ := h; cases hc
  | cons c cs ih =>
    intro self mul v m hs hm h1 hvm hb
    rw [parseLoop]
    cases hc : digitOf c r with
    | none => rfl
    | some z =>
      obtain ⟨d, rfl, hd, hdr⟩ := digitOf_lt hc
      have h' : ∃ c ∈ cs, digitOf c r = none := by
        obtain ⟨e, he, he'⟩ := h
        rcases List.mem_cons.1 he with rfl | he
        · rw [hc] at he'; cases he'
        · exact ⟨e, he, he'⟩
      have hne : cs.isEmpty = false := by
        obtain ⟨e, he, -⟩ := h'
        cases cs with
        | nil => cases he
        | cons _ _ => rfl
      have h2m := hm.nat.2
      have hsp : (2 : Nat) ^ 32 ≤ span N := by
        have := span_mono (m := 1) (n := N) hN
        simpa [span] using this
      have hmr : m * r ≤ m * r ^ (c :: cs).length := by
        apply Nat.mul_le_mul_left
        exact Nat.le_self_pow (by simp) r
      have hmd : m * d + m ≤ m * r := by
        have := Nat.mul_le_mul_left m (show d + 1 ≤ r from hdr)
        rwa [Nat.mul_add, Nat.mul_one] at this
      obtain ⟨t, t1, t2⟩ := init_spec N hN (sgn neg d) (by
        have := hd.1
        unfold sgn InRange
        split <;> omega)
      obtain ⟨p, p1, p2⟩ := (C82_mult N hN mul t m _ hm t2).1 ((fits_sgn N m d neg h2m h1 hN).2 (by omega))
      have hsum : sgn neg v + (m : Int) * sgn neg d = sgn neg (v + m * d) := by
        unfold sgn
        split <;> push_cast <;> ring
      obtain ⟨s, s1, s2⟩ := (C80_add N hN self p _ _ hs p2).1 (by
        rw [hsum]
        unfold sgn InRange
        split <;> omega)
      rw [hsum] at s2
      obtain ⟨m', m1, m2⟩ := (C82_mult N hN mul rb m r hm hrb).1 (by
        refine Or.inr (Or.inr ⟨?_, ?_⟩)
        · rw [← Int.natCast_mul, Int.natAbs_natCast]
          omega
        · simpa using hrb.nat.2)
      rw [← Int.natCast_mul] at m2
      have tt : (if neg then -(d : Int) else (d : Int)) = sgn neg d := rfl
      have e : nextMultiplier N rb cs mul = some m' := by
        unfold nextMultiplier
        rw [hne]
        exact m1
      simp only [tt, t1, p1, s1, e, Option.bind_eq_bind, Option.bind_some]
      refine ih h' s m' (v + m * d) (m * r) s2 m2 (Nat.mul_pos h1 (by omega)) (by omega) ?_
      rw [List.length_cons, Nat.pow_succ] at hb
      calc 2 * (m * r * r ^ cs.length) = 2 * (m * (r ^ cs.length * r)) := by ring
        _ < span N := hb

/-- C87: a string with a byte that is not a digit is never taken as a number;
if it is not too long, the fault is `MALFORMED_INTEGER`. -/
theorem C87_malformed (N : Nat) (hN : 0 < N) (r : Nat) (hr : 2 ≤ r) (hr31 : r < 2 ^ 31) (c : Nat)
    (cs : List Nat) (h : ∃ e ∈ (if c = 45 then cs else c :: cs), ∀ d, d < r → ¬ IsDigit e d) :
    (∀ b, initString N (c :: cs) r ≠ some (.ok b)) ∧
    (2 * r ^ (cs.length + 1) < span N →
      initString N (c :: cs) r = some (.error .malformedInteger)) := by
  obtain ⟨rb, rb1, rb2⟩ := radix_big N hN r hr31
  rw [initString_cons N hN r rb rb1]
  have h' : ∃ e ∈ (if (c == 45) = true then cs else c :: cs).reverse, digitOf e r = none := by
    obtain ⟨e, he, he'⟩ := h
    refine ⟨e, ?_, digitOf_none e r he'⟩
    rw [List.mem_reverse]
    simpa using he
  constructor
  · intro b hb
    rw [Option.map_eq_some_iff] at hb
    obtain ⟨q, q1, q2⟩ := hb
    cases q with
    | error e => cases q2
    | ok b' => exact parseLoop_bad N r rb _ _ h' _ _ b' q1
  · intro hb
    have hlen : (if (c == 45) = true then cs else c :: cs).reverse.length ≤ cs.length + 1 := by
      rw [List.length_reverse]
      split <;> simp
    have hpow := Nat.pow_le_pow_right (show 0 < r by omega) hlen
    rw [parseLoop_malformed hN r hr rb rb2 _ _ h' (zero N) (one N) 0 1 ?_ (one_is N hN) (Nat.le_refl _)
      (by decide) (by omega)]
    · rfl
    · unfold sgn
      split
      · exact zero_is N hN
      · exact zero_is N hN

theorem horner_foldl (r : Nat) (ds : List Nat) (v : Nat) :
    ds.foldl (fun v d => v * r + d) v = v * r ^ ds.length + horner r ds := by
  induction ds generalizing v with
  | nil => simp [horner]
  | cons d ds ih =>
    unfold horner
    rw [List.foldl_cons, List.foldl_cons, ih, ih, List.length_cons, Nat.pow_succ]
    ring

/-- C87: reading what was written gives the number back. -/
theorem C87_round_trip (N : Nat) (hN : 0 < N) (r : Nat) (hr : 2 ≤ r) (hr36 : r ≤ 36) (a : Big) (x : Int)
    (ha : Is N a x) (hx : InRange N x.natAbs) :
    ∃ s, toString N a r = some s ∧ initString N s r = some (.ok a) := by
  obtain ⟨s, s1, ds, s2, s3, s4, s5, s6⟩ := C87_to_string N hN r hr hr36 a x ha hx
  refine ⟨s, s1, ?_⟩
  have hsp : (2 : Nat) ^ 32 ≤ span N := by
    have := span_mono (m := 1) (n := N) hN
    simpa [span] using this
  have hx' : 2 * x.natAbs < span N := by unfold InRange at hx; omega
  have hD := digits_chars hr36 ds s3
  have hw : 2 * r ^ ((ds.map charOf).length - 1) < span N := by
    rw [List.length_map]
    cases ds with
    | nil => exact absurd rfl s4
    | cons d es =>
      cases es with
      | nil => simp; omega
      | cons e es =>
        have h0 := s6 (by simp)
        rw [List.headD_cons] at h0
        have h1 : horner r (d :: e :: es) = d * r ^ (es.length + 1) + horner r (e :: es) := by
          conv => lhs; unfold horner
          rw [List.foldl_cons, horner_foldl]
          simp
        have h2 : r ^ (es.length + 1) ≤ d * r ^ (es.length + 1) := Nat.le_mul_of_pos_left _ (by omega)
        simp only [List.length_cons, Nat.add_sub_cancel]
        omega
  rw [← s5] at hx'
  subst s2
  by_cases hneg : x < 0
  · rw [if_pos hneg]
    obtain ⟨b, b1, b2⟩ := (C87_parse_neg N hN r hr (by omega) _ ds hD).1 hx' hw (by omega)
    have : -((horner r ds : Nat) : Int) = x := by omega
    rw [this] at b2
    rw [C80_unique N b a x b2 ha] at b1
    exact b1
  · rw [if_neg hneg]
    obtain ⟨b, b1, b2⟩ := (C87_parse N hN r hr (by omega) _ ds hD (by simpa using s4)).1 hx' hw
    have : ((horner r ds : Nat) : Int) = x := by omega
    rw [this] at b2
    rw [C80_unique N b a x b2 ha] at b1
    exact b1

/-- C87, the whole claim for reading, which is false: digits with or without a
sign are read if there is room for the number. -/
def C87_full (N : Nat) : Prop := ∀ (r : Nat) (s ds : List Nat), 2 ≤ r → r ≤ 36 → Digits r s ds → s ≠ [] →
  2 * horner r ds < span N →
  (∃ b, initString N s r = some (.ok b) ∧ Is N b (horner r ds)) ∧
  (∃ b, initString N (45 :: s) r = some (.ok b) ∧ Is N b (-(horner r ds : Int)))

/-- C87: `-0` is not read, -/
theorem C87_fails (N : Nat) (hN : 0 < N) : ¬ C87_full N := by
  intro h
  have hsp : (2 : Nat) ^ 32 ≤ span N := by
    have := span_mono (m := 1) (n := N) hN
    simpa [span] using this
  have hd : Digits 10 [48] [0] := .cons ⟨⟨by decide, Or.inl rfl⟩, by decide⟩ .nil
  obtain ⟨-, b, b1, -⟩ := h 10 [48] [0] (by decide) (by decide) hd (by simp) (by simp [horner]; omega)
  rw [(C87_parse_neg N hN 10 (by decide) (by decide) [48] [0] hd).2.1 (by simp; omega) rfl] at b1
  cases b1

/-- C87: and at zeros in front of a number the program stops if there are too
many of them, whatever the number. -/
theorem C87_zeros_stop (N : Nat) (hN : 0 < N) (r : Nat) (hr : 2 ≤ r) (hr31 : r < 2 ^ 31) (s ds : List Nat)
    (hd : Digits r s ds) (k : Nat) (hk : 32 * N ≤ k) :
    initString N (List.replicate k 48 ++ s) r = none ∧ horner r (List.replicate k 0 ++ ds) = horner r ds := by
  have hd' : Digits r (List.replicate k 48 ++ s) (List.replicate k 0 ++ ds) := by
    clear hk
    induction k with
    | zero => exact hd
    | succ k ih => exact .cons ⟨⟨by decide, Or.inl rfl⟩, by omega⟩ ih
  constructor
  · refine (C87_parse N hN r hr hr31 _ _ hd' ?_).2 (Or.inr ?_)
    · cases k with
      | zero => omega
      | succ k => simp [List.replicate_succ]
    · rw [span_two_pow, List.length_append, List.length_replicate]
      calc 2 ^ (32 * N) ≤ 2 ^ (k + s.length - 1 + 1) := Nat.pow_le_pow_right (by decide) (by omega)
        _ = 2 * 2 ^ (k + s.length - 1) := by rw [Nat.pow_succ, Nat.mul_comm]
        _ ≤ 2 * r ^ (k + s.length - 1) := Nat.mul_le_mul_left 2 (Nat.pow_le_pow_left hr _)
  · clear hd' hk
    induction k with
    | zero => rfl
    | succ k ih =>
      rw [List.replicate_succ, List.cons_append]
      unfold horner at *
      rw [List.foldl_cons, Nat.zero_mul]
      exact ih

/-- C87: at an empty string the program stops. -/
theorem C87_empty_stops (N : Nat) (r : Int) : initString N [] r = none := rfl

/-- -255 in radix 16 is `-FF`. -/
example : ∃ a s, init 4 (-255) = some a ∧ toString 4 a 16 = some s ∧ initString 4 s 16 = some (.ok a) := by
  obtain ⟨a, ha, ha'⟩ := init_spec 4 (by decide) (-255) (by decide)
  obtain ⟨s, h1, h2⟩ := C87_round_trip 4 (by decide) 16 (by decide) (by decide) a (-255) ha' (by decide)
  exact ⟨a, s, ha, h1, h2⟩

example : Numeral 16 (-255) [45, 70, 70] :=
  ⟨[15, 15], by decide, by decide, by decide, by decide, by decide⟩

/-- `fF` is read as 255, `-0` and `-` are overflows, `1x` is malformed. -/
example : (∃ b, initString 4 [102, 70] 16 = some (.ok b) ∧ Is 4 b 255) ∧
    initString 4 [45, 48] 16 = some (.error .integerOverflow) ∧
    initString 4 [45] 16 = some (.error .integerOverflow) ∧
    initString 4 [49, 120] 16 = some (.error .malformedInteger) := by
  have hd : Digits 16 [102, 70] [15, 15] :=
    .cons ⟨⟨by decide, Or.inr (by decide)⟩, by decide⟩ (.cons ⟨⟨by decide, Or.inl rfl⟩, by decide⟩ .nil)
  have h0 : Digits 16 [48] [0] := .cons ⟨⟨by decide, Or.inl rfl⟩, by decide⟩ .nil
  refine ⟨(C87_parse 4 (by decide) 16 (by decide) (by decide) _ _ hd (by simp)).1 (by decide) (by decide),
    (C87_parse_neg 4 (by decide) 16 (by decide) (by decide) _ _ h0).2.1 (by decide) (by decide),
    (C87_parse_neg 4 (by decide) 16 (by decide) (by decide) _ _ .nil).2.1 (by decide) (by decide),
    (C87_malformed 4 (by decide) 16 (by decide) (by decide) 49 [120] ⟨120, by simp, ?_⟩).2 (by decide)⟩
  intro d hd h
  unfold IsDigit charOf at h
  split at h <;> omega

end C3.BigNum
