import Verif.BigNum.PropsInit
import Verif.BigNum.PropsMul

set_option autoImplicit false

namespace C3.BigNum

/-- The loop of the division by one word. -/
theorem divLoop_spec (d rem : Nat) (ws : List Nat) (hd : d < 2 ^ 32) (hr : rem < d)
    (hs : ∀ w ∈ ws, w < 2 ^ 32) :
    (divLoop d rem ws).1.length = ws.length ∧ (∀ w ∈ (divLoop d rem ws).1, w < 2 ^ 32) ∧
    (divLoop d rem ws).2 < d ∧
    value (divLoop d rem ws).1.reverse * d + (divLoop d rem ws).2 =
      rem * span ws.length + value ws.reverse := by
  induction ws generalizing rem with
  | nil =>
    rw [divLoop]
    exact ⟨rfl, by simp, hr, by simp [value, span]⟩
  | cons w ws ih =>
    have hw := hs w (List.mem_cons_self ..)
    have hd0 : 0 < d := by omega
    obtain ⟨i1, i2, i3, i4⟩ := ih ((rem * 2 ^ 32 + w) % d) (Nat.mod_lt _ hd0)
      (fun v hv => hs v (List.mem_cons_of_mem _ hv))
    have hq : (rem * 2 ^ 32 + w) / d < 2 ^ 32 := by
      apply Nat.div_lt_of_lt_mul
      have : (rem + 1) * 2 ^ 32 ≤ d * 2 ^ 32 := Nat.mul_le_mul_right _ hr
      omega
    rw [divLoop]
    dsimp only
    rw [Nat.mod_eq_of_lt hq]
    refine ⟨by simpa using i1, ?_, i3, ?_⟩
    · intro v hv
      rcases List.mem_cons.1 hv with rfl | hv
      · exact hq
      · exact i2 v hv
    · rw [List.reverse_cons, value_append, List.length_reverse, i1, List.reverse_cons, value_append,
        List.length_reverse, List.length_cons, span_succ]
      simp only [value, Nat.mul_zero, Nat.add_zero]
      have hdm := Nat.div_add_mod (rem * 2 ^ 32 + w) d
      generalize (rem * 2 ^ 32 + w) / d = q at *
      generalize (rem * 2 ^ 32 + w) % d = m at *
      generalize value (divLoop d m ws).1.reverse = p at *
      generalize (divLoop d m ws).2 = r at *
      calc (p + span ws.length * q) * d + r = (p * d + r) + span ws.length * (d * q) := by ring
        _ = m * span ws.length + value ws.reverse + span ws.length * (d * q) := by rw [i4]
        _ = (d * q + m) * span ws.length + value ws.reverse := by ring
        _ = _ := by rw [hdm]; ring

theorem findLength_self {N : Nat} {a : Big} (h : Canon N a) : findLength a.data a.len = a.len := by
  have hp := h.pos
  obtain ⟨n, hn⟩ : ∃ n, a.len = n + 1 := ⟨a.len - 1, by omega⟩
  rw [hn, findLength, if_neg]
  intro ⟨h1, h2⟩
  rcases h.top with h3 | h3
  · omega
  · apply h3
    rw [hn]
    exact h2

/-- The division by one word. -/
theorem singleDivide_spec {N : Nat} (hN : 0 < N) {a b : Big} {m d : Nat} (ha : Is N a m)
    (hd : b.word 0 = d) (hd0 : 0 < d) (hd32 : d < 2 ^ 32) :
    ∃ q r, singleDivide N a b = some (q, r) ∧ Is N q (m / d : Nat) ∧ Is N r (m % d : Nat) := by
  obtain ⟨hv, hm⟩ := ha.nat
  have hc := ha.1
  have hp := hc.pos
  have hle := hc.le
  have hsz := hc.size
  unfold singleDivide
  dsimp only
  rw [findLength_self hc, hd]
  have htl := take_len hc.toValid
  have htv := take_value hc.toValid
  have hts := take_small hc.toValid
  cases hrev : (a.data.take a.len).reverse with
  | nil =>
    have := congrArg List.length hrev
    rw [List.length_reverse, htl] at this
    simp at this
    omega
  | cons w ws =>
    dsimp only
    rw [if_neg (by omega)]
    have hlen : ws.length + 1 = a.len := by
      have := congrArg List.length hrev
      rw [List.length_reverse, htl, List.length_cons] at this
      omega
    have hsm : ∀ v ∈ w :: ws, v < 2 ^ 32 := by
      rw [← hrev]
      intro v hv
      exact hts v (List.mem_reverse.1 hv)
    have hw := hsm w (List.mem_cons_self ..)
    have hval : value ws.reverse + span ws.length * w = m := by
      rw [← hv, ← htv, ← List.reverse_reverse (a.data.take a.len), hrev, List.reverse_cons, value_append,
        List.length_reverse]
      simp [value]
    -- the first digit
    have hf : (firstDigit d w).1.length ≤ 1 ∧ (∀ v ∈ (firstDigit d w).1, v < 2 ^ 32) ∧
        (firstDigit d w).2 < d ∧ value (firstDigit d w).1.reverse * d + (firstDigit d w).2 = w := by
      unfold firstDigit
      split
      · refine ⟨Nat.le_refl _, ?_, Nat.mod_lt _ hd0, ?_⟩
        · intro v hv
          rw [List.mem_singleton.1 hv]
          exact Nat.lt_of_le_of_lt (Nat.div_le_self _ _) hw
        · simp only [List.reverse_singleton, value, Nat.mul_zero, Nat.add_zero]
          rw [Nat.mul_comm]
          exact Nat.div_add_mod w d
      · refine ⟨by simp, by simp, by dsimp only; omega, by simp [value]⟩
    obtain ⟨f1, f2, f3, f4⟩ := hf
    obtain ⟨l1, l2, l3, l4⟩ := divLoop_spec d (firstDigit d w).2 ws hd32 f3
      (fun v hv => hsm v (List.mem_cons_of_mem _ hv))
    generalize firstDigit d w = f at *
    generalize divLoop d f.2 ws = l at *
    have hqv : value (f.1 ++ l.1).reverse * d + l.2 = m := by
      rw [List.reverse_append, value_append, List.length_reverse, l1, ← hval]
      calc (value l.1.reverse + span ws.length * value f.1.reverse) * d + l.2
          = (value l.1.reverse * d + l.2) + span ws.length * (value f.1.reverse * d) := by ring
        _ = f.2 * span ws.length + value ws.reverse + span ws.length * (value f.1.reverse * d) := by rw [l4]
        _ = value ws.reverse + span ws.length * (value f.1.reverse * d + f.2) := by ring
        _ = _ := by rw [f4]
    have hq : value (f.1 ++ l.1).reverse = m / d := by
      rw [← hqv, Nat.add_comm, Nat.add_mul_div_right _ _ hd0, Nat.div_eq_of_lt l3, Nat.zero_add]
    have hr : l.2 = m % d := by
      rw [← hqv, Nat.add_comm, Nat.add_mul_mod_self_right, Nat.mod_eq_of_lt l3]
    have hrl : (f.1 ++ l.1).length ≤ N := by rw [List.length_append]; omega
    have hrs : ∀ v ∈ (f.1 ++ l.1).reverse, v < 2 ^ 32 := by
      intro v hv
      rcases List.mem_append.1 (List.mem_reverse.1 hv) with hv | hv
      · exact f2 v hv
      · exact l2 v hv
    have e : (f.1 ++ l.1).length = (f.1 ++ l.1).reverse.length := List.length_reverse.symm
    rw [e]
    rw [e] at hrl
    generalize (f.1 ++ l.1).reverse = rs at *
    have hmd : m / d ≤ m := Nat.div_le_self _ _
    have hmd2 : m % d ≤ m := Nat.mod_le _ _
    refine ⟨_, _, rfl, ?_, ?_⟩
    · rw [← hq, ← pad_value (N := N)]
      refine is_nat (reduce_canon hN (pad_len hrl) (pad_small hrs) hrl pad_high) ?_
      rw [reduce_data]
      dsimp only
      rw [pad_value]
      omega
    · have hz : ∀ v ∈ List.replicate (a.len - 1) 0 ++ a.data.drop a.len, v = 0 := by
        intro v hv
        rcases List.mem_append.1 hv with hv | hv
        · exact (List.mem_replicate.1 hv).2
        · exact hc.high v hv
      have hrv : value (l.2 :: (List.replicate (a.len - 1) 0 ++ a.data.drop a.len)) = m % d := by
        rw [value, value_zeros _ hz, hr]
        rfl
      rw [← hrv]
      refine is_nat (reduce_canon hN ?_ ?_ hle ?_) ?_
      · rw [List.length_cons, List.length_append, List.length_replicate, List.length_drop]
        omega
      · intro v hv
        rcases List.mem_cons.1 hv with rfl | hv
        · omega
        · rw [hz v hv]; decide
      · intro v hv
        apply hz v
        rw [show a.len = a.len - 1 + 1 by omega, List.drop_succ_cons] at hv
        rw [show a.len - 1 + 1 = a.len by omega] at hv
        exact List.mem_of_mem_drop hv
      · rw [reduce_data]
        dsimp only
        rw [hrv]
        omega

/-- One pass of a shift to the left. -/
theorem shlPass_spec (s n c : Nat) (ws : List Nat) (hs : s ≤ 32) (hc : c < 2 ^ s) (hn : n ≤ ws.length)
    (hsm : ∀ w ∈ ws, w < 2 ^ 32) :
    (shlPass s n c ws).1.length = ws.length ∧ (∀ w ∈ (shlPass s n c ws).1, w < 2 ^ 32) ∧
    (shlPass s n c ws).1.drop n = ws.drop n ∧ (shlPass s n c ws).2 < 2 ^ s ∧
    value ((shlPass s n c ws).1.take n) + span n * (shlPass s n c ws).2 =
      value (ws.take n) * 2 ^ s + c := by
  induction n generalizing c ws with
  | zero =>
    rw [shlPass.eq_def]
    exact ⟨rfl, hsm, rfl, hc, by simp [value, span]⟩
  | succ n ih =>
    cases ws with
    | nil => simp at hn
    | cons w ws =>
      have hw := hsm w (List.mem_cons_self ..)
      have hp : 2 ^ s ≤ 2 ^ 32 := Nat.pow_le_pow_right (by decide) hs
      have hlt : w * 2 ^ s + c < 2 ^ 32 * 2 ^ s := by
        have : (w + 1) * 2 ^ s ≤ 2 ^ 32 * 2 ^ s := Nat.mul_le_mul_right _ hw
        rw [Nat.add_mul] at this
        omega
      have h64 : w * 2 ^ s < 2 ^ 64 := by
        have : 2 ^ 32 * 2 ^ s ≤ 2 ^ 32 * 2 ^ 32 := Nat.mul_le_mul_left _ hp
        omega
      have hor : (w * 2 ^ s % 2 ^ 64) ||| c = w * 2 ^ s + c := by
        rw [Nat.mod_eq_of_lt h64, Nat.mul_comm, ← Nat.two_pow_add_eq_or_of_lt hc]
      rw [shlPass, hor]
      dsimp only
      obtain ⟨i1, i2, i3, i4, i5⟩ := ih ((w * 2 ^ s + c) / 2 ^ 32) ws
        (Nat.div_lt_of_lt_mul hlt) (by simpa using hn) (fun v hv => hsm v (List.mem_cons_of_mem _ hv))
      refine ⟨by simpa using i1, ?_, by simpa using i3, i4, ?_⟩
      · intro v hv
        rcases List.mem_cons.1 hv with rfl | hv
        · omega
        · exact i2 v hv
      · simp only [List.take_succ_cons, value]
        rw [span_succ, Nat.mul_assoc, Nat.add_mul, Nat.mul_assoc]
        generalize span n * _ = p at *
        generalize w * 2 ^ s = q at *
        generalize value (ws.take n) * 2 ^ s = t at *
        omega

/-- A pass that does not store its carry. -/
theorem shlLoop_spec (len count : Nat) (data : List Nat) (bufLen : Nat) (hb : bufLen = len)
    (hl : bufLen ≤ data.length) (hs : ∀ w ∈ data, w < 2 ^ 32) :
    (shlLoop len count data bufLen).2 = bufLen ∧
    (shlLoop len count data bufLen).1.length = data.length ∧
    (∀ w ∈ (shlLoop len count data bufLen).1, w < 2 ^ 32) ∧
    (shlLoop len count data bufLen).1.drop bufLen = data.drop bufLen ∧
    value ((shlLoop len count data bufLen).1.take bufLen) =
      value (data.take bufLen) * 2 ^ count % span bufLen := by
  induction count using Nat.strongRecOn generalizing data with
  | ind count ih =>
    cases count with
    | zero =>
      rw [shlLoop]
      refine ⟨rfl, rfl, hs, rfl, ?_⟩
      have := value_lt (data.take bufLen) fun w hw => hs w (List.mem_of_mem_take hw)
      rw [List.length_take, Nat.min_eq_left hl] at this
      rw [Nat.pow_zero, Nat.mul_one, Nat.mod_eq_of_lt this]
    | succ count =>
      obtain ⟨p1, p2, p3, p4, p5⟩ := shlPass_spec (min (count + 1) 32) bufLen 0 data (Nat.min_le_right _ _)
        (Nat.pow_pos (by decide)) hl hs
      rw [shlLoop]
      have hst : shlStore len bufLen (shlPass (min (count + 1) 32) bufLen 0 data) =
          ((shlPass (min (count + 1) 32) bufLen 0 data).1, bufLen) := by
        unfold shlStore
        rw [if_neg (by omega)]
      rw [hst]
      dsimp only
      generalize hsh : min (count + 1) 32 = s at *
      generalize shlPass s bufLen 0 data = P at *
      obtain ⟨i1, i2, i3, i4, i5⟩ := ih (count + 1 - s) (by omega) P.1 (by omega) p2
      refine ⟨i1, by omega, i3, by rw [i4, p3], ?_⟩
      rw [i5]
      rw [Nat.add_zero] at p5
      have h1 : value (P.1.take bufLen) % span bufLen = value (data.take bufLen) * 2 ^ s % span bufLen := by
        rw [← p5, Nat.add_mul_mod_self_left]
      rw [Nat.mul_mod, h1, ← Nat.mul_mod, Nat.mul_assoc, ← Nat.pow_add]
      congr 3
      omega

end C3.BigNum
