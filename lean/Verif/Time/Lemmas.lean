import Verif.Time.Model

/-! Lemmas about the calendar, seconds in doubles, and `from_time`, `from_date`. -/

set_option autoImplicit false

namespace C3.Time
open Std

theorem newYear_zero : newYear 1970 = 0 := by decide

theorem newYear_succ (y : Int) : newYear (y + 1) = newYear y + yearDays y := by
  unfold newYear yearDays leap
  by_cases h4 : y % 4 = 0 <;> by_cases h100 : y % 100 = 0 <;> by_cases h400 : y % 400 = 0 <;> simp [h4, h100, h400] <;> omega

theorem yearDays_bounds (y : Int) : 365 ≤ yearDays y ∧ yearDays y ≤ 366 := by
  unfold yearDays; split <;> omega

theorem newYear_mono (n : Nat) (y : Int) : newYear y + 365 * n ≤ newYear (y + n) := by
  induction n with
  | zero => simp
  | succ n ih =>
    have := newYear_succ (y + n)
    have hb := yearDays_bounds (y + n)
    rw [show y + ((n + 1 : Nat) : Int) = y + n + 1 by omega]
    omega

theorem year_unique {y z d : Int} (h1 : newYear y ≤ d) (h2 : d < newYear (y + 1)) (h3 : newYear z ≤ d)
    (h4 : d < newYear (z + 1)) : y = z := by
  rcases Int.lt_trichotomy y z with h | h | h
  · have := newYear_mono (z - (y + 1)).toNat (y + 1)
    rw [show y + 1 + ((z - (y + 1)).toNat : Int) = z by omega] at this
    omega
  · exact h
  · have := newYear_mono (y - (z + 1)).toNat (z + 1)
    rw [show z + 1 + ((y - (z + 1)).toNat : Int) = y by omega] at this
    omega

theorem yearOf_spec (d : Int) : newYear (yearOf d) ≤ d ∧ d < newYear (yearOf d + 1) := by
  unfold yearOf
  simp only
  generalize hy : 400 * (d + 719162) / 146097 + 1 = y
  have hy1 : (y - 1) * 146097 ≤ 400 * (d + 719162) ∧ 400 * (d + 719162) < y * 146097 := by omega
  split
  · rename_i h
    rw [show y - 1 + 1 = y by omega]
    refine ⟨?_, h⟩
    unfold newYear; omega
  · rename_i h
    split
    · rename_i h2
      refine ⟨h2, ?_⟩
      unfold newYear; omega
    · rename_i h2
      omega

/-! ### Months -/

def monthDaysL (l : Bool) (m : Nat) : Nat :=
  match m with
  | 1 => if l then 29 else 28
  | 3 | 5 | 8 | 10 => 30
  | _ => 31

def beforeL (l : Bool) (m : Nat) : Nat := ((List.range m).map (monthDaysL l)).sum

def monthOfL (l : Bool) (yday : Nat) : Nat := (List.range 11).countP fun m => beforeL l (m + 1) ≤ yday

theorem monthDays_eq (y : Int) : monthDays y = monthDaysL (leap y) := by
  funext m; rfl

theorem before_eq (y : Int) (m : Nat) : before y m = beforeL (leap y) m := by
  unfold before beforeL; rw [monthDays_eq]

theorem monthOf_eq (y : Int) (d : Nat) : monthOf y d = monthOfL (leap y) d := by
  unfold monthOf monthOfL
  simp only [before_eq]

theorem month_table : ∀ l : Bool, ∀ m < 12, ∀ k < monthDaysL l m,
    monthOfL l (beforeL l m + k) = m ∧ beforeL l m + monthDaysL l m ≤ if l then 366 else 365 := by decide +kernel

theorem day_table : ∀ l : Bool, ∀ d < (if l then 366 else 365), monthOfL l d < 12 ∧ beforeL l (monthOfL l d) ≤ d ∧
    d < beforeL l (monthOfL l d) + monthDaysL l (monthOfL l d) := by decide +kernel

/-! ### `gmtime` -/

theorem day_in_year {y : Int} {m d : Nat} (h : Date y m d) : newYear y ≤ dayNumber y m d ∧ dayNumber y m d < newYear (y + 1) := by
  obtain ⟨h1, h2, h3⟩ := h
  have hn := newYear_succ y
  rw [monthDays_eq] at h3
  have ht := (month_table (leap y) m h1 (d - 1) (by omega)).2
  unfold yearDays at hn
  unfold dayNumber
  rw [before_eq]
  cases hl : leap y <;> simp only [hl] at * <;> simp at * <;> omega

/-- `gmtime` of a date. -/
theorem gmtime_date {y : Int} {m d h mi s : Nat} (hd : Date y m d) (hh : h < 24) (hm : mi < 60) (hs : s < 60) :
    gmtime (((dayNumber y m d * 24 + h) * 60 + mi) * 60 + s) =
      { sec := s, min := mi, hour := h, day := d, month := m, year := y,
        weekday := (weekday (dayNumber y m d)).toNat, year_day := before y m + (d - 1) } := by
  have hday : (((dayNumber y m d * 24 + h) * 60 + mi) * 60 + s) / 86400 = dayNumber y m d := by omega
  have hrest : ((((dayNumber y m d * 24 + h) * 60 + mi) * 60 + s) % 86400).toNat = (h * 60 + mi) * 60 + s := by omega
  have hy : yearOf (dayNumber y m d) = y :=
    year_unique (yearOf_spec _).1 (yearOf_spec _).2 (day_in_year hd).1 (day_in_year hd).2
  have hyd : (dayNumber y m d - newYear y).toNat = before y m + (d - 1) := by
    unfold dayNumber; have := hd.2.1; omega
  have hmo : monthOf y (before y m + (d - 1)) = m := by
    rw [monthOf_eq, before_eq]
    have h3 := hd.2.2
    rw [monthDays_eq] at h3
    have := hd.2.1
    exact (month_table (leap y) m hd.1 (d - 1) (by omega)).1
  unfold gmtime
  simp only [hday, hrest, hy, hyd, hmo]
  have := hd.2.1
  simp only [weekday, Tm.mk.injEq, true_and, and_true]
  omega

/-- The fields of `gmtime` are a date and a time of day, and stand for the seconds. -/
theorem gmtime_spec (t : Int) :
    Date (gmtime t).year (gmtime t).month (gmtime t).day ∧ (gmtime t).hour < 24 ∧ (gmtime t).min < 60 ∧ (gmtime t).sec < 60 ∧
    ((dayNumber (gmtime t).year (gmtime t).month (gmtime t).day * 24 + (gmtime t).hour) * 60 + (gmtime t).min) * 60 + (gmtime t).sec = t ∧
    dayNumber (gmtime t).year (gmtime t).month (gmtime t).day = t / 86400 := by
  obtain ⟨h1, h2⟩ := yearOf_spec (t / 86400)
  rw [newYear_succ] at h2
  have hlt : (t / 86400 - newYear (yearOf (t / 86400))).toNat < (if leap (yearOf (t / 86400)) then 366 else 365) := by
    unfold yearDays at h2
    cases hl : leap (yearOf (t / 86400)) <;> simp [hl] at * <;> omega
  obtain ⟨g1, g2, g3⟩ := day_table _ _ hlt
  rw [← monthOf_eq] at g1 g2 g3
  rw [← before_eq] at g2 g3
  have hdate : Date (gmtime t).year (gmtime t).month (gmtime t).day := by
    refine ⟨g1, ?_, ?_⟩
    · show 1 ≤ _ + 1; omega
    · rw [monthDays_eq]
      show (t / 86400 - newYear (yearOf (t / 86400))).toNat - before (yearOf (t / 86400))
        (monthOf (yearOf (t / 86400)) (t / 86400 - newYear (yearOf (t / 86400))).toNat) + 1 ≤
        monthDaysL (leap (yearOf (t / 86400))) (monthOf (yearOf (t / 86400)) (t / 86400 - newYear (yearOf (t / 86400))).toNat)
      omega
  have hday : dayNumber (gmtime t).year (gmtime t).month (gmtime t).day = t / 86400 := by
    show newYear (yearOf (t / 86400)) + (before (yearOf (t / 86400))
        (monthOf (yearOf (t / 86400)) (t / 86400 - newYear (yearOf (t / 86400))).toNat) : Nat) +
      ((((t / 86400 - newYear (yearOf (t / 86400))).toNat - before (yearOf (t / 86400))
        (monthOf (yearOf (t / 86400)) (t / 86400 - newYear (yearOf (t / 86400))).toNat) + 1 : Nat) : Int) - 1) = _
    omega
  refine ⟨hdate, ?_, ?_, ?_, ?_, hday⟩
  · show (t % 86400).toNat / 3600 < 24; omega
  · show (t % 86400).toNat / 60 % 60 < 60; omega
  · show (t % 86400).toNat % 60 < 60; omega
  · rw [hday]
    show ((t / 86400 * 24 + ((t % 86400).toNat / 3600 : Nat)) * 60 + ((t % 86400).toNat / 60 % 60 : Nat)) * 60 + ((t % 86400).toNat % 60 : Nat) = t
    omega

/-! ### Doubles -/

theorem quotient_eq (n : Nat) (h : n < 2 ^ 53) : quotient n = n / 1000000 := by
  unfold quotient
  split
  · omega
  · rename_i hn
    have hq : n / 1000000 < 2 ^ 34 := by omega
    have hq0 : n / 1000000 ≠ 0 := by omega
    have hl : (n / 1000000).log2 < 34 := (Nat.log2_lt hq0).2 hq
    generalize hk : 52 - (n / 1000000).log2 = k
    have hk19 : 19 ≤ k := by omega
    have h19 : 2 ^ 19 ≤ 2 ^ k := Nat.pow_le_pow_right (by decide) hk19
    generalize hP : 2 ^ k = P at h19
    have h19' : 524288 ≤ P := h19
    have hPpos : 0 < P := by omega
    generalize hf : n / 1000000 = f at *
    have hn1 : 1000000 * f ≤ n := by omega
    have hn2 : n + 1 ≤ 1000000 * (f + 1) := by omega
    have lo : f * P ≤ n * P / 1000000 := by
      rw [Nat.le_div_iff_mul_le (by decide)]
      calc f * P * 1000000 = (1000000 * f) * P := by rw [Nat.mul_comm (f * P), Nat.mul_assoc]
        _ ≤ n * P := Nat.mul_le_mul_right _ hn1
    have hi : n * P + P ≤ 1000000 * ((f + 1) * P) := by
      calc n * P + P = (n + 1) * P := by rw [Nat.succ_mul]
        _ ≤ (1000000 * (f + 1)) * P := Nat.mul_le_mul_right _ hn2
        _ = _ := by rw [Nat.mul_assoc]
    have key : f * P ≤ nearest (n * P) 1000000 ∧ nearest (n * P) 1000000 < (f + 1) * P := by
      unfold nearest
      generalize n * P = a at *
      generalize (f + 1) * P = b at *
      generalize f * P = c at *
      split <;> omega
    rw [Nat.div_eq_of_lt_le]
    · exact key.1
    · exact key.2

/-- The seconds of a time less than 2^53 microseconds away from 1970 are cut off exactly. -/
theorem seconds_eq (t : Int) (h : t.natAbs < 2 ^ 53) : seconds t = t.tdiv 1000000 := by
  unfold seconds toDouble
  rw [if_pos h, quotient_eq _ h]
  rcases Int.lt_trichotomy t 0 with ht | ht | ht
  · rw [Int.sign_eq_neg_one_of_neg ht]
    obtain ⟨n, rfl⟩ : ∃ n : Nat, t = -(n : Int) := ⟨t.natAbs, by omega⟩
    rw [Int.neg_tdiv, Int.tdiv_eq_ediv_of_nonneg (by omega), Int.natAbs_neg, Int.natAbs_natCast]
    omega
  · subst ht; decide
  · rw [Int.sign_eq_one_of_pos ht, Int.tdiv_eq_ediv_of_nonneg (by omega)]
    omega

theorem wrap64_small (x : Int) (h1 : -2 ^ 63 ≤ x) (h2 : x < 2 ^ 63) : wrap64 x = x := by unfold wrap64; omega
theorem wrap32_small (x : Int) (h1 : -2 ^ 31 ≤ x) (h2 : x < 2 ^ 31) : wrap32 x = x := by unfold wrap32; omega

/-! ### `from_date` -/

theorem before_le (y : Int) (m : Nat) (h : m < 12) : before y m ≤ 366 := by
  have : ∀ l : Bool, ∀ m < 12, beforeL l m ≤ 366 := by decide +kernel
  rw [before_eq]; exact this _ m h

theorem year_range {y : Int} {m d h mi s : Nat} {us : Int} (hm : m < 12) (hd2 : d < 32) (hc : Clock h mi s us)
    (h1 : -2 ^ 63 ≤ stamp y m d h mi s us) (h2 : stamp y m d h mi s us < 2 ^ 63) : -400000 < y ∧ y < 400000 := by
  obtain ⟨c1, c2, c3, c4, c5⟩ := hc
  have hb := before_le y m hm
  unfold stamp at h1 h2
  have hD : -110000000 < dayNumber y m d ∧ dayNumber y m d < 110000000 := by omega
  unfold dayNumber newYear at hD
  omega

/-- The microseconds that `from_date` makes. -/
theorem from_date_eq {y : Int} {m d h mi s : Nat} {us : Int} (hm : m < 12) (hd1 : 1 ≤ d) (hd2 : d < 32)
    (hc : Clock h mi s us)
    (h1 : -2 ^ 63 ≤ stamp y m d h mi s us) (h2 : stamp y m d h mi s us < 2 ^ 63) :
    from_date y m d h mi s us = some (from_time (stamp y m d h mi s us)) := by
  obtain ⟨hy, hy2⟩ := year_range hm hd2 hc h1 h2
  obtain ⟨c1, c2, c3, c4, c5⟩ := hc
  unfold from_date
  rw [if_pos ⟨hm, hd1, hd2, c1, c2, c3, c4, by omega⟩, wrap32_small (y - 1900) (by omega) (by omega)]
  have : timegm s mi h d m (y - 1900 + 1900) * SEC + us = stamp y m d h mi s us := by
    rw [show y - 1900 + 1900 = y by omega]
    unfold timegm stamp dayNumber SEC; omega
  rw [this, wrap64_small _ h1 h2]

/-- The fields of a time from 1970 on, up to 2^53 microseconds. -/
theorem from_time_date {y : Int} {m d h mi s : Nat} {us : Int} (hd : Date y m d) (hc : Clock h mi s us)
    (h1 : 0 ≤ stamp y m d h mi s us) (h2 : stamp y m d h mi s us < 2 ^ 53) :
    from_time (stamp y m d h mi s us) =
      { sec := s, min := mi, hour := h, day := d, month := m, year := y,
        weekday := (weekday (dayNumber y m d)).toNat, year_day := before y m + (d - 1),
        usec := us, time := stamp y m d h mi s us } := by
  obtain ⟨c1, c2, c3, c4, c5⟩ := hc
  have hs : seconds (stamp y m d h mi s us) = ((dayNumber y m d * 24 + h) * 60 + mi) * 60 + s := by
    rw [seconds_eq _ (by omega), Int.tdiv_eq_ediv_of_nonneg h1]
    unfold stamp; omega
  unfold from_time
  rw [hs, gmtime_date hd c1 c2 c3, Int.tmod_eq_emod_of_nonneg h1]
  have : stamp y m d h mi s us % SEC = us := by unfold stamp SEC; omega
  rw [this]

end C3.Time
