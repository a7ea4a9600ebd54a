import Verif.Time.LemmasLayout

/-! # Dates and durations: what the theorems say -/

set_option autoImplicit false

namespace C3.Time
open C3.Fmt (Byte ch txt Stop vprintf numeral_small)
open C3.Fmt.Std (numeral)
open Std

/-! ## C136: durations are printed -/

/-- **C136.** A `NanoDuration` is printed as the duration it is, with a minus if it is negative; the count is the number of
bytes. -/
def C136_full : Prop := ∀ nd : Int, nd ≠ 0 → -2 ^ 63 ≤ nd → nd < 2 ^ 63 → ∃ s, Duration nd.natAbs s ∧
  nano_to_format nd = .ok ((if nd < 0 then [ch '-'] else []) ++ s, ((if nd < 0 then [ch '-'] else []) ++ s).length)

/-- **C136, partial.** It is for durations below a second, and above if the thousandths are none or at least 100.

Missing from the property: the rest. -/
theorem C136_print_partial (nd : Int) (h1 : 0 < nd) (h2 : nd < 2 ^ 63)
    (h : nd < 1000000000 ∨ nd / 1000000 % 1000 = 0 ∨ 100 ≤ nd / 1000000 % 1000) :
    ∃ s, Duration nd.natAbs s ∧ nano_to_format nd = .ok (s, s.length) := by
  refine ⟨nanoText nd, ?_, nano_format nd h1 h2⟩
  by_cases hs : nd < 1000000000
  · rw [short_text nd h1 hs]
    have e : nd.natAbs = nd.toNat / 1000000 * 1000000 + nd.toNat / 1000 % 1000 * 1000 + nd.toNat % 1000 := by omega
    rw [e]
    exact .short _ _ _ (by omega) (by omega) (by omega)
  · rw [long_text nd (by omega) h2]
    by_cases hm : nd / 1000000 % 1000 = 0
    · have hz : nd.toNat / 1000000 % 1000 = 0 := by omega
      have e : nd.natAbs = ((nd.toNat / 1000000000 / 3600 * 60 + nd.toNat / 1000000000 / 60 % 60) * 60 + nd.toNat / 1000000000 % 60) * 1000000000 +
          nd.toNat % 1000000 := by omega
      rw [hz, frac, if_pos rfl, e, List.append_nil]
      exact .whole _ _ _ _ (by omega) (by omega) (by omega) (by omega)
    · have e : nd.natAbs = ((nd.toNat / 1000000000 / 3600 * 60 + nd.toNat / 1000000000 / 60 % 60) * 60 + nd.toNat / 1000000000 % 60) * 1000000000 +
          nd.toNat / 1000000 % 1000 * 1000000 + nd.toNat % 1000000 := by omega
      rw [frac, if_neg (by omega), e]
      exact .parts _ _ _ _ _ _ (by omega) (by omega) (by omega) (by omega) (by omega) (by omega) (frac_ok _ (by omega) (by omega))

/-- The sign is lost: every negative duration is printed like the positive one. -/
theorem C136_sign_fails (nd : Int) (h1 : 0 < nd) (h2 : nd < 2 ^ 63) : nano_to_format (-nd) = nano_to_format nd := by
  unfold nano_to_format
  rw [if_neg (by omega), if_neg (by omega)]
  unfold nanoText
  have e1 : (if -nd < 0 then wrap64 (- -nd) else -nd) = nd := by
    rw [if_pos (by omega), Int.neg_neg, wrap64_small _ (by omega) h2]
  have e2 : (if nd < 0 then wrap64 (-nd) else nd) = nd := if_neg (by omega)
  rw [e1, e2]

/-- A second and five hundredths is printed like a second and five tenths; the smallest duration is printed as nothing. -/
theorem C136_zeros_fail : nano_to_format 1050000000 = .ok (txt ['1', '.', '5', 's'], 4) ∧
    nano_to_format 1500000000 = .ok (txt ['1', '.', '5', 's'], 4) ∧ nano_to_format (-2 ^ 63) = .ok ([], 0) := by
  refine ⟨?_, ?_, ?_⟩ <;> decide +kernel

theorem C136_fails : ¬ C136_full := by
  intro h
  obtain ⟨s, -, hs⟩ := h (-1) (by decide) (by decide) (by decide)
  have : nano_to_format (-1) = .ok (txt ['1', 'n', 's'], 3) := by decide +kernel
  rw [this] at hs
  have : some (ch '1') = some (ch '-') := congrArg (fun r => match r with | Except.ok (o, _) => o.head? | .error _ => none) hs
  revert this
  decide

example : nano_to_format 3723250000000 = .ok (txt ['1', 'h', '2', 'm', '3', '.', '2', '5', 's'], 9) := by decide +kernel
example : nano_to_format 1002003 = .ok (txt ['1', 'm', 's', '2'] ++ [0xC2, 0xB5] ++ txt ['s', '3', 'n', 's'], 10) := by decide +kernel

/-! ## C137: dates are what they were made from -/

/-- **C137.** `from_date` of a date and time of day gives a `DateTime` with these fields, its time, its day of the week (from
Monday) and of the year. -/
def C137_full : Prop := ∀ (y : Int) (m d h mi s : Nat) (us : Int), Date y m d → Clock h mi s us →
  -2 ^ 63 ≤ stamp y m d h mi s us → stamp y m d h mi s us < 2 ^ 63 →
  from_date y m d h mi s us = some
    { sec := s, min := mi, hour := h, day := d, month := m, year := y,
      weekday := (weekday (dayNumber y m d)).toNat, year_day := (dayNumber y m d - dayNumber y 0 1).toNat,
      usec := us, time := stamp y m d h mi s us }

theorem yday {y : Int} {m d : Nat} (h : Date y m d) : (dayNumber y m d - dayNumber y 0 1).toNat = before y m + (d - 1) := by
  have := h.2.1
  unfold dayNumber
  have : before y 0 = 0 := rfl
  omega

/-- **C137, partial.** It does from 1970 to 2^53 microseconds later, in the year 2255.

Missing from the property: earlier and later dates. -/
theorem C137_fields_partial (y : Int) (m d h mi s : Nat) (us : Int) (hd : Date y m d) (hc : Clock h mi s us)
    (h1 : 0 ≤ stamp y m d h mi s us) (h2 : stamp y m d h mi s us < 2 ^ 53) :
    from_date y m d h mi s us = some
      { sec := s, min := mi, hour := h, day := d, month := m, year := y,
        weekday := (weekday (dayNumber y m d)).toNat, year_day := (dayNumber y m d - dayNumber y 0 1).toNat,
        usec := us, time := stamp y m d h mi s us } := by
  have hl : monthDays y m ≤ 31 := by rw [monthDays_eq]; unfold monthDaysL; split <;> (try split) <;> omega
  have := hd.2.2
  rw [from_date_eq hd.1 hd.2.1 (by omega) hc (by omega) (by omega), from_time_date hd hc h1 h2, yday hd]

/-- No date before 1970 that has microseconds comes back: they are negative, and the second is the next one. -/
theorem C137_early_fails (y : Int) (m d h mi s : Nat) (us : Int) (hd : Date y m d) (hc : Clock h mi s us) (h0 : us ≠ 0)
    (h1 : -2 ^ 53 < stamp y m d h mi s us) (h2 : stamp y m d h mi s us < 0) :
    ∃ D, from_date y m d h mi s us = some D ∧ D.usec = us - 1000000 ∧
      stamp D.year D.month D.day D.hour D.min D.sec 0 = stamp y m d h mi s 0 + 1000000 := by
  have hl : monthDays y m ≤ 31 := by rw [monthDays_eq]; unfold monthDaysL; split <;> (try split) <;> omega
  have h3 := hd.2.2
  refine ⟨_, from_date_eq hd.1 hd.2.1 (by omega) hc (by omega) (by omega), ?_, ?_⟩
  · obtain ⟨c1, c2, c3, c4, c5⟩ := hc
    show (stamp y m d h mi s us).tmod SEC = _
    obtain ⟨n, hn⟩ : ∃ n : Nat, stamp y m d h mi s us = -(n : Int) := ⟨(stamp y m d h mi s us).natAbs, by omega⟩
    rw [hn, Int.neg_tmod, Int.tmod_eq_emod_of_nonneg (by omega)]
    unfold stamp at hn
    unfold SEC; omega
  · obtain ⟨g1, g2, g3, g4, g5, g6⟩ := gmtime_spec (seconds (stamp y m d h mi s us))
    have hs : seconds (stamp y m d h mi s us) = ((dayNumber y m d * 24 + h) * 60 + mi) * 60 + s + 1 := by
      obtain ⟨c1, c2, c3, c4, c5⟩ := hc
      rw [seconds_eq _ (by omega)]
      obtain ⟨n, hn⟩ : ∃ n : Nat, stamp y m d h mi s us = -(n : Int) := ⟨(stamp y m d h mi s us).natAbs, by omega⟩
      rw [hn, Int.neg_tdiv, Int.tdiv_eq_ediv_of_nonneg (by omega)]
      unfold stamp at hn
      omega
    rw [hs] at g5
    have e : stamp (gmtime (seconds (stamp y m d h mi s us))).year (gmtime (seconds (stamp y m d h mi s us))).month
      (gmtime (seconds (stamp y m d h mi s us))).day (gmtime (seconds (stamp y m d h mi s us))).hour
      (gmtime (seconds (stamp y m d h mi s us))).min (gmtime (seconds (stamp y m d h mi s us))).sec 0 = stamp y m d h mi s 0 + 1000000 := by
      rw [hs]
      unfold stamp
      omega
    exact e

/-- In 2600 the last microsecond of a second belongs to the next second: the seconds are computed as a `double`. -/
theorem C137_late_fails : (from_date 2600 0 1 0 0 0 999999).map (fun D => (D.sec, D.usec)) = some (1, 999999) := by decide +kernel

theorem C137_fails : ¬ C137_full := by
  intro h
  have := h 2600 0 1 0 0 0 999999 (by unfold Date; decide) (by unfold Clock; decide) (by decide) (by decide)
  have := congrArg (fun r => r.map fun (D : DateTime) => D.sec) this
  revert this
  decide +kernel

example : from_date 2024 1 29 12 34 56 7 = some
    { sec := 56, min := 34, hour := 12, day := 29, month := 1, year := 2024, weekday := 3, year_day := 59, usec := 7,
      time := 1709210096000007 } := by decide +kernel

/-! ## C138: the fields of a time -/

/-- **C138.** The fields of `from_time` are a date and a time of day, and they stand for the time. -/
def C138_full : Prop := ∀ t : Int, -2 ^ 63 ≤ t → t < 2 ^ 63 →
  Date (from_time t).year (from_time t).month (from_time t).day ∧
  Clock (from_time t).hour (from_time t).min (from_time t).sec (from_time t).usec ∧
  stamp (from_time t).year (from_time t).month (from_time t).day (from_time t).hour (from_time t).min (from_time t).sec (from_time t).usec = t

/-- **C138, partial.** From 1970 on, up to 2^53 microseconds.

Missing from the property: other times. -/
theorem C138_time_partial (t : Int) (h1 : 0 ≤ t) (h2 : t < 2 ^ 53) :
    Date (from_time t).year (from_time t).month (from_time t).day ∧
    Clock (from_time t).hour (from_time t).min (from_time t).sec (from_time t).usec ∧
    stamp (from_time t).year (from_time t).month (from_time t).day (from_time t).hour (from_time t).min (from_time t).sec (from_time t).usec = t := by
  obtain ⟨g1, g2, g3, g4, g5, g6⟩ := gmtime_spec (seconds t)
  have hs : seconds t = t / 1000000 := by rw [seconds_eq t (by omega), Int.tdiv_eq_ediv_of_nonneg h1]
  have hu : (from_time t).usec = t % 1000000 := by
    show t.tmod SEC = _
    rw [Int.tmod_eq_emod_of_nonneg h1]; rfl
  refine ⟨g1, ⟨g2, g3, g4, by rw [hu]; omega, by rw [hu]; omega⟩, ?_⟩
  rw [hu]
  show (((dayNumber (gmtime (seconds t)).year (gmtime (seconds t)).month (gmtime (seconds t)).day * 24 + (gmtime (seconds t)).hour) * 60 +
    (gmtime (seconds t)).min) * 60 + (gmtime (seconds t)).sec) * 1000000 + t % 1000000 = t
  rw [g5, hs]
  omega

/-- **C138, partial.** Before 1970 they stand for the time if microseconds may be negative, and the date is a date.

Missing from the property: the microseconds. -/
theorem C138_early_partial (t : Int) (h1 : -2 ^ 53 < t) (h2 : t < 0) :
    Date (from_time t).year (from_time t).month (from_time t).day ∧
    stamp (from_time t).year (from_time t).month (from_time t).day (from_time t).hour (from_time t).min (from_time t).sec (from_time t).usec = t ∧
    -1000000 < (from_time t).usec ∧ (from_time t).usec ≤ 0 := by
  obtain ⟨g1, g2, g3, g4, g5, g6⟩ := gmtime_spec (seconds t)
  obtain ⟨n, rfl⟩ : ∃ n : Nat, t = -(n : Int) := ⟨t.natAbs, by omega⟩
  have hs : seconds (-(n : Int)) = -((n / 1000000 : Nat) : Int) := by
    rw [seconds_eq _ (by omega), Int.neg_tdiv, Int.tdiv_eq_ediv_of_nonneg (by omega)]; omega
  have hu : (from_time (-(n : Int))).usec = -((n % 1000000 : Nat) : Int) := by
    show (-(n : Int)).tmod SEC = _
    rw [Int.neg_tmod, Int.tmod_eq_emod_of_nonneg (by omega)]; unfold SEC; omega
  refine ⟨g1, ?_, by rw [hu]; omega, by rw [hu]; omega⟩
  rw [hu]
  show (((dayNumber (gmtime (seconds (-(n : Int)))).year (gmtime (seconds (-(n : Int)))).month (gmtime (seconds (-(n : Int)))).day * 24 +
    (gmtime (seconds (-(n : Int)))).hour) * 60 + (gmtime (seconds (-(n : Int)))).min) * 60 + (gmtime (seconds (-(n : Int)))).sec) * 1000000 +
    -((n % 1000000 : Nat) : Int) = -(n : Int)
  rw [g5, hs]
  omega

theorem C138_fails : ¬ C138_full := by
  intro h
  have := (h (-1) (by decide) (by decide)).2.1.2.2.2.1
  revert this
  decide +kernel

example : (from_time 951868800000000).month = 2 ∧ (from_time 951868800000000).day = 1 ∧ (from_time 951868799999999).day = 29 := by
  decide +kernel

end C3.Time
