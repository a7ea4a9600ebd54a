import Verif.Time.Props

/-! # Calculating with dates, and their texts: what the theorems say -/

set_option autoImplicit false

namespace C3.Time
open C3.Fmt (Byte ch txt Stop vprintf numeral_small)
open C3.Fmt.Std (numeral)
open Std

/-- The fields are a date and a time of day. -/
def Fields (D : DateTime) : Prop := Date D.year D.month D.day ∧ Clock D.hour D.min D.sec D.usec

/-- What the fields stand for. -/
def DateTime.stamp (D : DateTime) : Int := Std.stamp D.year D.month D.day D.hour D.min D.sec D.usec

theorem day_lt {y : Int} {m d : Nat} (h : Date y m d) : d < 32 := by
  have hl : monthDays y m ≤ 31 := by rw [monthDays_eq]; unfold monthDaysL; split <;> (try split) <;> omega
  have := h.2.2
  omega

/-! ## C139: months and years later -/

/-- **C139.** A number of months later is in the month that many months later. -/
def C139_full : Prop := ∀ (D : DateTime) (n : Int), Fields D → -2 ^ 31 ≤ n → n < 2 ^ 31 →
  ∀ R, D.add_months n = some R → 12 * R.year + R.month = 12 * D.year + D.month + n

theorem add_months_eq (D : DateTime) (n : Int) (hf : Fields D) (h0 : n ≠ 0) (h1 : -2 ^ 31 ≤ n) (h2 : n ≤ 2 ^ 31 - 13)
    (Y : Int) (M : Nat) (hM : M < 12) (hY : 12 * Y + M = 12 * D.year + D.month + n)
    (h3 : -2 ^ 63 ≤ stamp Y M D.day D.hour D.min D.sec D.usec) (h4 : stamp Y M D.day D.hour D.min D.sec D.usec < 2 ^ 63) :
    D.add_months n = some (from_time (stamp Y M D.day D.hour D.min D.sec D.usec)) := by
  obtain ⟨hd, hc⟩ := hf
  have hday := day_lt hd
  have hm := hd.1
  obtain ⟨y1, y2⟩ := year_range hM hday hc h3 h4
  have key := from_date_eq hM hd.2.1 hday hc h3 h4
  unfold DateTime.add_months
  rw [if_neg h0]
  have hsplit : n = 12 * n.tdiv 12 + n.tmod 12 := (Int.mul_tdiv_add_tmod n 12).symm
  by_cases ha : n.tmod 12 = 0
  · simp only [if_pos ha]
    have e1 : wrap32 (D.year + n.tdiv 12) = Y := by
      rw [wrap32_small _ (by omega) (by omega)]; omega
    have e2 : D.month = M := by omega
    rw [if_pos (by omega), e1, e2, Int.toNat_natCast, key]
  · simp only [if_neg ha]
    by_cases hneg : n < 0
    · simp only [if_pos hneg]
      obtain ⟨k, rfl⟩ : ∃ k : Nat, n = -(k : Int) := ⟨n.natAbs, by omega⟩
      rw [Int.neg_tmod, Int.tmod_eq_emod_of_nonneg (by omega), Int.neg_tdiv, Int.tdiv_eq_ediv_of_nonneg (by omega)] at *
      by_cases hb : (D.month : Int) + -((k : Int) % 12) < 0
      · simp only [if_pos hb]
        have e1 : wrap32 (wrap32 (D.year + -((k : Int) / 12)) - 1) = Y := by
          rw [wrap32_small (D.year + -((k : Int) / 12)) (by omega) (by omega), wrap32_small _ (by omega) (by omega)]; omega
        have e2 : ((D.month : Int) + -((k : Int) % 12) + 12).toNat = M := by omega
        rw [if_pos (by omega), e1, e2, key]
      · simp only [if_neg hb]
        have e1 : wrap32 (D.year + -((k : Int) / 12)) = Y := by
          rw [wrap32_small _ (by omega) (by omega)]; omega
        have e2 : ((D.month : Int) + -((k : Int) % 12)).toNat = M := by omega
        rw [if_pos (by omega), e1, e2, key]
    · simp only [if_neg hneg]
      have e0 : wrap32 (D.month + n) = D.month + n := wrap32_small _ (by omega) (by omega)
      rw [e0, Int.tdiv_eq_ediv_of_nonneg (by omega), Int.tmod_eq_emod_of_nonneg (by omega)]
      have e1 : wrap32 (D.year + (D.month + n) / 12) = Y := by
        rw [wrap32_small _ (by omega) (by omega)]; omega
      have e2 : ((D.month + n) % 12 : Int).toNat = M := by omega
      rw [if_pos (by omega), e1, e2, key]

/-- **C139, partial.** It is if that month has the day, and nothing but the month and the year changes.

Missing from the property: the days that the month does not have, and results before 1970 and from 2^53 microseconds on. -/
theorem C139_months_partial (D : DateTime) (n : Int) (hf : Fields D) (h1 : -2 ^ 31 ≤ n) (h2 : n ≤ 2 ^ 31 - 13)
    (Y : Int) (M : Nat) (hM : M < 12) (hY : 12 * Y + M = 12 * D.year + D.month + n) (hd : D.day ≤ monthDays Y M)
    (h3 : 0 ≤ stamp Y M D.day D.hour D.min D.sec D.usec) (h4 : stamp Y M D.day D.hour D.min D.sec D.usec < 2 ^ 53) :
    ∃ R, D.add_months n = some R ∧ R.year = Y ∧ R.month = M ∧ R.day = D.day ∧ R.hour = D.hour ∧ R.min = D.min ∧ R.sec = D.sec ∧
      R.usec = D.usec := by
  by_cases h0 : n = 0
  · refine ⟨D, by unfold DateTime.add_months; rw [if_pos h0], ?_⟩
    have := hf.1.1
    refine ⟨by omega, by omega, rfl, rfl, rfl, rfl, rfl⟩
  · refine ⟨_, add_months_eq D n hf h0 h1 h2 Y M hM hY (by omega) (by omega), ?_⟩
    rw [from_time_date ⟨hM, hf.1.2.1, hd⟩ hf.2 h3 h4]
    exact ⟨rfl, rfl, rfl, rfl, rfl, rfl, rfl⟩

/-- A day that the month does not have becomes a day of the month after it. -/
theorem C139_spill_fails (D : DateTime) (n : Int) (hf : Fields D) (h0 : n ≠ 0) (h1 : -2 ^ 31 ≤ n) (h2 : n ≤ 2 ^ 31 - 13)
    (Y : Int) (M : Nat) (hM : M < 12) (hY : 12 * Y + M = 12 * D.year + D.month + n) (hd : monthDays Y M < D.day)
    (h3 : 0 ≤ stamp Y M D.day D.hour D.min D.sec D.usec) (h4 : stamp Y M D.day D.hour D.min D.sec D.usec < 2 ^ 53) :
    ∃ R, D.add_months n = some R ∧ R.year = Y ∧ R.month = M + 1 ∧ R.day = D.day - monthDays Y M := by
  have hday := day_lt hf.1
  have hM11 : M < 11 := by
    rcases Nat.lt_or_ge M 11 with h | h
    · exact h
    · have : M = 11 := by omega
      subst this
      simp [monthDays] at hd; omega
  have hb : before Y (M + 1) = before Y M + monthDays Y M := by
    simp [before, List.range_succ]
  have hn : D.day - monthDays Y M ≤ monthDays Y (M + 1) := by
    have : ∀ l : Bool, ∀ m < 11, 31 - monthDaysL l m ≤ monthDaysL l (m + 1) := by decide
    have := this (leap Y) M hM11
    rw [monthDays_eq] at *
    omega
  have he : stamp Y M D.day D.hour D.min D.sec D.usec = stamp Y (M + 1) (D.day - monthDays Y M) D.hour D.min D.sec D.usec := by
    unfold stamp dayNumber
    rw [hb]; omega
  refine ⟨_, add_months_eq D n hf h0 h1 h2 Y M hM hY (by omega) (by omega), ?_⟩
  rw [he] at h3 h4 ⊢
  rw [from_time_date ⟨by omega, by omega, hn⟩ hf.2 h3 h4]
  exact ⟨rfl, rfl, rfl⟩

/-- A month after 31 January 2023 is in March. -/
theorem C139_fails : ¬ C139_full := by
  intro h
  have := h (from_time 1675123200000000) 1 (by unfold Fields Date Clock; decide +kernel) (by decide) (by decide)
    (from_time 1677801600000000) (by decide +kernel)
  revert this
  decide +kernel

/-- **C139, partial.** A number of years later is the same day of that year, if it exists. -/
theorem C139_years_partial (D : DateTime) (n : Int) (hf : Fields D) (hy : -2 ^ 31 ≤ D.year + n) (hy' : D.year + n < 2 ^ 31)
    (hd : D.day ≤ monthDays (D.year + n) D.month)
    (h3 : 0 ≤ stamp (D.year + n) D.month D.day D.hour D.min D.sec D.usec)
    (h4 : stamp (D.year + n) D.month D.day D.hour D.min D.sec D.usec < 2 ^ 53) :
    ∃ R, D.add_years n = some R ∧ R.year = D.year + n ∧ R.month = D.month ∧ R.day = D.day ∧ R.hour = D.hour ∧ R.min = D.min ∧
      R.sec = D.sec ∧ R.usec = D.usec := by
  unfold DateTime.add_years
  by_cases h0 : n = 0
  · refine ⟨D, if_pos h0, by omega, rfl, rfl, rfl, rfl, rfl, rfl⟩
  · rw [if_neg h0, wrap32_small _ hy hy', from_date_eq hf.1.1 hf.1.2.1 (day_lt hf.1) hf.2 (by omega) (by omega)]
    refine ⟨_, rfl, ?_⟩
    rw [from_time_date ⟨hf.1.1, hf.1.2.1, hd⟩ hf.2 h3 h4]
    exact ⟨rfl, rfl, rfl, rfl, rfl, rfl, rfl⟩

example : ((from_date 2023 0 31 12 0 0 0).bind fun D => D.add_months (-13)).map (fun R => (R.year, R.month, R.day)) = some (2021, 11, 31) := by
  decide +kernel

/-! ## C140: time zones -/

/-- The fields are those of the time at the offset. -/
def TzDateTime.Sound (T : TzDateTime) : Prop := Fields T.dt ∧ T.dt.stamp = T.dt.time + T.gmt_offset * 1000000

theorem from_time_fields (t : Int) (h1 : 0 ≤ t) (h2 : t < 2 ^ 53) : Fields (from_time t) ∧ (from_time t).stamp = t :=
  ⟨⟨(C138_time_partial t h1 h2).1, (C138_time_partial t h1 h2).2.1⟩, (C138_time_partial t h1 h2).2.2⟩

/-- **C140.** `to_gmt_offset` keeps the time and gives the fields at the other offset (as long as `C138` gives fields). -/
theorem C140_to_offset (T : TzDateTime) (o : Int) (hT : T.Sound) (ho : -12 * 3600 ≤ o ∧ o ≤ 14 * 3600)
    (h1 : 0 ≤ T.dt.time + o * 1000000) (h2 : T.dt.time + o * 1000000 < 2 ^ 53) :
    ∃ R, T.to_gmt_offset o = some R ∧ R.Sound ∧ R.dt.time = T.dt.time ∧ R.gmt_offset = o := by
  have hg : goodOffset o = true := by simp only [goodOffset, Bool.and_eq_true, decide_eq_true_iff]; exact ho
  unfold TzDateTime.to_gmt_offset
  rw [if_pos hg]
  by_cases h : T.gmt_offset = o
  · rw [if_pos h]
    exact ⟨T, rfl, hT, rfl, h⟩
  · rw [if_neg h]
    have e : wrap64 (T.dt.time + o * SEC) = T.dt.time + o * 1000000 := by
      unfold SEC; exact wrap64_small _ (by omega) (by omega)
    rw [e]
    obtain ⟨g1, g2⟩ := from_time_fields _ h1 h2
    exact ⟨_, rfl, ⟨g1, g2⟩, rfl, rfl⟩

/-- **C140.** `with_gmt_offset` keeps the fields and gives the time they stand for at the other offset. -/
theorem C140_with_offset (T : TzDateTime) (o : Int) (hT : T.Sound) (ho : -12 * 3600 ≤ o ∧ o ≤ 14 * 3600)
    (h1 : -2 ^ 63 ≤ T.dt.stamp - o * 1000000) (h2 : T.dt.stamp - o * 1000000 < 2 ^ 63) :
    ∃ R, T.with_gmt_offset o = some R ∧ R.Sound ∧ R.dt.toTm = T.dt.toTm ∧ R.dt.usec = T.dt.usec ∧ R.gmt_offset = o := by
  have hg : goodOffset o = true := by simp only [goodOffset, Bool.and_eq_true, decide_eq_true_iff]; exact ho
  have hs := hT.2
  unfold TzDateTime.with_gmt_offset
  rw [if_pos hg]
  have e : wrap64 (T.dt.time - (o - T.gmt_offset) * SEC) = T.dt.stamp - o * 1000000 := by
    unfold SEC
    rw [wrap64_small _ (by omega) (by omega)]; omega
  rw [e]
  refine ⟨_, rfl, ⟨hT.1, ?_⟩, rfl, rfl, rfl⟩
  show T.dt.stamp = T.dt.stamp - o * 1000000 + o * 1000000
  omega

/-- **C140.** Seconds, minutes, hours, days and weeks later: the time is that much later, the offset stays, and the fields
fit. -/
theorem C140_add (u : Int) (hu : u ∈ [SEC, 60 * SEC, 3600 * SEC, DAY, 7 * DAY]) (T : TzDateTime) (n : Int)
    (ho : -12 * 3600 ≤ T.gmt_offset ∧ T.gmt_offset ≤ 14 * 3600) (hn : -2 ^ 63 ≤ n * u ∧ n * u < 2 ^ 63)
    (h1 : 0 ≤ T.dt.time + n * u) (h2 : T.dt.time + n * u < 2 ^ 53)
    (h3 : 0 ≤ T.dt.time + n * u + T.gmt_offset * 1000000) (h4 : T.dt.time + n * u + T.gmt_offset * 1000000 < 2 ^ 53) :
    ∃ R, T.add u n = some R ∧ R.Sound ∧ R.dt.time = T.dt.time + n * u ∧ R.gmt_offset = T.gmt_offset := by
  unfold TzDateTime.add DateTime.add DateTime.to_gmt_offset
  rw [wrap64_small (n * u) hn.1 hn.2, wrap64_small _ (by omega) (by omega)]
  obtain ⟨g1, g2⟩ := from_time_fields _ h1 h2
  exact C140_to_offset ⟨from_time (T.dt.time + n * u), 0⟩ T.gmt_offset ⟨g1, by rw [g2]; show _ = _ + 0 * 1000000; rw [Int.zero_mul, Int.add_zero]; rfl⟩ ho h3 h4

/-- **C140.** Adding months leaves fields that fit the time at the offset. -/
def C140_full : Prop := ∀ (T : TzDateTime) (n : Int), T.Sound → ∀ R, T.add_months n = some R → R.Sound

/-- **C140, partial.** It does unless no months are added.

Missing from the property: no months, and what `C139` leaves out. -/
theorem C140_months_partial (T : TzDateTime) (n : Int) (hT : T.Sound) (h0 : n ≠ 0) (h1 : -2 ^ 31 ≤ n) (h2 : n ≤ 2 ^ 31 - 13)
    (ho : -12 * 3600 ≤ T.gmt_offset ∧ T.gmt_offset ≤ 14 * 3600)
    (Y : Int) (M : Nat) (hM : M < 12) (hY : 12 * Y + M = 12 * T.dt.year + T.dt.month + n) (hd : T.dt.day ≤ monthDays Y M)
    (h3 : 0 ≤ stamp Y M T.dt.day T.dt.hour T.dt.min T.dt.sec T.dt.usec) (h4 : stamp Y M T.dt.day T.dt.hour T.dt.min T.dt.sec T.dt.usec < 2 ^ 53) :
    ∃ R, T.add_months n = some R ∧ R.Sound ∧ R.gmt_offset = T.gmt_offset ∧ R.dt.year = Y ∧ R.dt.month = M ∧ R.dt.day = T.dt.day ∧
      R.dt.hour = T.dt.hour := by
  have hf := hT.1
  have e := add_months_eq T.dt n hf h0 h1 h2 Y M hM hY (by omega) (by omega)
  have e2 := from_time_date ⟨hM, hf.1.2.1, hd⟩ hf.2 h3 h4
  obtain ⟨g1, g2⟩ := from_time_fields _ h3 h4
  obtain ⟨R, r1, r2, r3, r4, r5⟩ := C140_with_offset ⟨from_time (stamp Y M T.dt.day T.dt.hour T.dt.min T.dt.sec T.dt.usec), 0⟩ T.gmt_offset
    ⟨g1, by rw [g2]; show _ = _ + 0 * 1000000; rw [Int.zero_mul, Int.add_zero]; rfl⟩ ho (by rw [g2]; omega) (by rw [g2]; omega)
  refine ⟨R, ?_, r2, r5, ?_⟩
  · unfold TzDateTime.add_months
    rw [e]
    exact r1
  · have q : R.dt.toTm = (from_time (stamp Y M T.dt.day T.dt.hour T.dt.min T.dt.sec T.dt.usec)).toTm := r3
    rw [e2] at q
    rw [q]
    exact ⟨rfl, rfl, rfl, rfl⟩

/-- Adding no months (or years) moves the time by the offset. -/
theorem C140_zero_fails (T : TzDateTime) (ho : -12 * 3600 ≤ T.gmt_offset ∧ T.gmt_offset ≤ 14 * 3600)
    (h1 : 0 ≤ T.dt.time) (h2 : T.dt.time < 2 ^ 62) :
    T.add_months 0 = some ⟨{ T.dt with time := T.dt.time - T.gmt_offset * 1000000 }, T.gmt_offset⟩ ∧
    T.add_years 0 = some ⟨{ T.dt with time := T.dt.time - T.gmt_offset * 1000000 }, T.gmt_offset⟩ := by
  have hg : goodOffset T.gmt_offset = true := by simp only [goodOffset, Bool.and_eq_true, decide_eq_true_iff]; exact ho
  have e : wrap64 (T.dt.time - (T.gmt_offset - 0) * SEC) = T.dt.time - T.gmt_offset * 1000000 := by
    unfold SEC; rw [wrap64_small _ (by omega) (by omega)]; omega
  constructor
  · show TzDateTime.with_gmt_offset ⟨T.dt, 0⟩ T.gmt_offset = _
    unfold TzDateTime.with_gmt_offset
    rw [if_pos hg, e]
  · show TzDateTime.with_gmt_offset ⟨T.dt, 0⟩ T.gmt_offset = _
    unfold TzDateTime.with_gmt_offset
    rw [if_pos hg, e]

theorem C140_fails : ¬ C140_full := by
  intro h
  have hT : TzDateTime.Sound ⟨{ from_time 7200000000 with time := 3600000000 }, 3600⟩ := by
    unfold TzDateTime.Sound Fields Date Clock; decide +kernel
  have := (h ⟨{ from_time 7200000000 with time := 3600000000 }, 3600⟩ 0 hT ⟨{ from_time 7200000000 with time := 0 }, 3600⟩ (by decide +kernel)).2
  revert this
  decide +kernel

example : ((from_date 2024 0 1 1 0 0 0).bind fun D => D.to_gmt_offset (-7200)).map
    (fun T => (T.dt.year, T.dt.month, T.dt.day, T.dt.hour, T.gmt_offset)) = some (2023, 11, 31, 23, -7200) := by decide +kernel

/-! ## C141: whole years between dates -/

/-- The day of the year fits. -/
def YearDay (D : DateTime) : Prop := Date D.year D.month D.day ∧ D.year_day = (dayNumber D.year D.month D.day - dayNumber D.year 0 1).toNat

/-- **C141.** `diff_years` of a date and one not after it is the number of whole years in between. -/
def C141_full : Prop := ∀ A B : DateTime, YearDay A → YearDay B → dayNumber B.year B.month B.day ≤ dayNumber A.year A.month A.day →
  A.diff_years B = wholeYears B.year B.month B.day A.year A.month A.day

theorem yday_lt {l : Bool} {m d m' d' : Nat} (hm : m < 12) (hm' : m' < 12) (h1 : 1 ≤ d) (h2 : d ≤ monthDaysL l m) (h3 : 1 ≤ d')
    (h4 : d' ≤ monthDaysL l m') : beforeL l m' + (d' - 1) < beforeL l m + (d - 1) ↔ m' < m ∨ m' = m ∧ d' < d := by
  have key : ∀ l : Bool, ∀ m < 12, ∀ m' < 12, m < m' → beforeL l m + monthDaysL l m ≤ beforeL l m' := by decide +kernel
  rcases Nat.lt_trichotomy m m' with h | h | h
  · have := key l m hm m' hm' h
    constructor
    · intro; omega
    · rintro (g | ⟨g, -⟩) <;> omega
  · subst h
    constructor
    · intro; right; omega
    · rintro (g | ⟨-, g⟩) <;> omega
  · have := key l m' hm' m hm h
    constructor
    · intro; left; exact h
    · intro; omega

/-- **C141, partial.** It is if both years are leap years or both are not.

Missing from the property: a leap year and another. -/
theorem C141_years_partial (A B : DateTime) (hA : YearDay A) (hB : YearDay B)
    (hle : dayNumber B.year B.month B.day ≤ dayNumber A.year A.month A.day) (hl : leap A.year = leap B.year) :
    A.diff_years B = wholeYears B.year B.month B.day A.year A.month A.day := by
  obtain ⟨a1, a2⟩ := hA
  obtain ⟨b1, b2⟩ := hB
  rw [yday a1, before_eq, hl] at a2
  rw [yday b1, before_eq] at b2
  have hy : B.year ≤ A.year := by
    rcases Decidable.em (A.year < B.year) with h | h
    · have p := (day_in_year a1).2
      have q := (day_in_year b1).1
      have := newYear_mono (B.year - (A.year + 1)).toNat (A.year + 1)
      rw [show A.year + 1 + ((B.year - (A.year + 1)).toNat : Int) = B.year by omega] at this
      omega
    · omega
  have a3 := a1.2.2
  have b3 := b1.2.2
  rw [monthDays_eq] at a3 b3
  rw [hl] at a3
  have key := yday_lt b1.1 a1.1 b1.2.1 b3 a1.2.1 a3
  rw [← a2, ← b2] at key
  unfold DateTime.diff_years wholeYears
  rw [if_neg (by omega)]
  by_cases h0 : A.year - B.year = 0
  · have hge : ¬ A.year_day < B.year_day := by
      have ey : A.year = B.year := by omega
      unfold dayNumber at hle
      rw [ey, before_eq, before_eq] at hle
      have := a1.2.1
      have := b1.2.1
      omega
    rw [if_pos h0, if_neg (fun h => hge (key.2 h)), h0]
  · rw [if_neg h0]
    by_cases h : A.year_day < B.year_day
    · rw [if_pos h, if_pos (key.1 h)]
    · rw [if_neg h, if_neg (fun g => h (key.2 g))]

/-- **C141.** With the dates exchanged it is the opposite. -/
theorem C141_opposite (A B : DateTime) : A.diff_years B = -B.diff_years A := by
  unfold DateTime.diff_years
  repeat' split
  all_goals omega

/-- From 1 March 2000 to 1 March 2001 no year has passed. -/
theorem C141_fails : ¬ C141_full := by
  intro h
  have := h (from_time 983404800000000) (from_time 951868800000000) (by unfold YearDay Date; decide +kernel) (by unfold YearDay Date; decide +kernel)
    (by decide +kernel)
  revert this
  decide +kernel

example : (from_time 983404800000000).diff_years (from_time 920246400000000) = 2 := by decide +kernel

/-! ## C142: offsets are printed -/

/-- **C142.** The suffix of every offset is its sign, its hours and its minutes. -/
def C142_full : Prop := ∀ o : Int, -12 * 3600 ≤ o → o ≤ 14 * 3600 →
  tzsuffix [] o = .ok (offset [] o) ∧ tzsuffix [':'] o = .ok (offset [ch ':'] o)

/-- **C142, partial.** East of Greenwich, and for whole hours west.

Missing from the property: minutes of western offsets. -/
theorem C142_suffix_partial (o : Int) (h1 : -12 * 3600 ≤ o) (h2 : o ≤ 14 * 3600) (h : 0 ≤ o ∨ o ≤ -3600 ∧ o.natAbs % 3600 < 60) :
    tzsuffix [] o = .ok (offset [] o) ∧ tzsuffix [':'] o = .ok (offset [ch ':'] o) := by
  have hg : goodOffset o = true := by simp only [goodOffset, Bool.and_eq_true, decide_eq_true_iff]; exact ⟨h1, h2⟩
  exact ⟨tz_good [] (by intro c hc; cases hc) o hg h, tz_good [':'] (by intro c hc; revert c; decide) o hg h⟩

/-- Western offsets with minutes have a second sign, and below an hour the first one is wrong. -/
theorem C142_west_fails (o : Int) (h1 : -12 * 3600 ≤ o) (h : o < 0) (hm : 60 ≤ o.natAbs % 3600) :
    tzsuffix [':'] o = .ok ((if o ≤ -3600 then ch '-' else ch '+') :: padded 2 (o.natAbs / 3600) ++ [ch ':', ch '-'] ++
      numeral 10 false (o.natAbs % 3600 / 60)) := by
  have hg : goodOffset o = true := by simp only [goodOffset, Bool.and_eq_true, decide_eq_true_iff]; exact ⟨h1, by omega⟩
  rw [tz_bad [':'] (by intro c hc; revert c; decide) o hg h hm]
  simp [txt]

theorem C142_fails : ¬ C142_full := by
  intro h
  have h1 := (h (-1800) (by decide) (by decide)).1
  have h2 : tzsuffix [] (-1800) = .ok (txt ['+', '0', '0', '-', '3', '0']) := by decide +kernel
  rw [h2] at h1
  have : some (ch '+') = some (ch '-') := congrArg (fun r => match r with | Except.ok o => o.head? | .error _ => none) h1
  revert this
  decide

example : tzsuffix [] 19800 = .ok (txt ['+', '0', '5', '3', '0']) ∧ tzsuffix [':'] (-12600) = .ok (txt ['-', '0', '3', ':', '-', '3', '0']) := by
  decide +kernel

/-! ## C143: dates are printed -/

/-- **C143.** A format prints the fields in the layout that its comment promises; where the layout says that it is universal
time, the fields of that. -/
def C143_full : Prop := ∀ (f : DateTimeFormat) (T G : TzDateTime), -12 * 3600 ≤ T.gmt_offset → T.gmt_offset ≤ 14 * 3600 →
  T.to_gmt_offset 0 = some G → Shown T.dt → Shown G.dt → 0 ≤ T.dt.usec → 0 ≤ G.dt.usec →
  format f T = .ok ((layout f).flatMap (Elem.show (if universal f then look G.dt 0 else look T.dt T.gmt_offset)))

/-- **C143, partial.** Missing from the property: `UNIXDATE`, `RUBYDATE`, the two formats with microseconds, and the offsets that
`C142` leaves out. -/
theorem C143_format_partial (f : DateTimeFormat) (T G : TzDateTime)
    (hf : f ∉ [DateTimeFormat.UNIXDATE, .RUBYDATE, .RFC3339MS, .RFC3339ZMS])
    (h1 : -12 * 3600 ≤ T.gmt_offset) (h2 : T.gmt_offset ≤ 14 * 3600) (h : 0 ≤ T.gmt_offset ∨ T.gmt_offset ≤ -3600 ∧ T.gmt_offset.natAbs % 3600 < 60)
    (hG : T.to_gmt_offset 0 = some G) (sT : Shown T.dt) (sG : Shown G.dt) :
    format f T = .ok ((layout f).flatMap (Elem.show (if universal f then look G.dt 0 else look T.dt T.gmt_offset))) := by
  have hg : goodOffset T.gmt_offset = true := by simp only [goodOffset, Bool.and_eq_true, decide_eq_true_iff]; exact ⟨h1, h2⟩
  cases f with
  | ANSIC => exact ansic_eq _ sT _
  | UNIXDATE => exact absurd (by decide) hf
  | RUBYDATE => exact absurd (by decide) hf
  | RFC822 => exact rfc822_eq _ sG _ T ⟨_, hG⟩
  | RFC822Z => exact rfc822z_eq _ sT _ hg h
  | RFC850 => exact rfc850_eq _ sG _ T ⟨_, hG⟩
  | RFC1123 => exact rfc1123_eq _ sG _ T ⟨_, hG⟩
  | RFC1123Z => exact rfc1123z_eq _ sT _ hg h
  | RFC3339 => exact rfc3339_eq _ sG _ T ⟨_, hG⟩
  | RFC3339Z => exact rfc3339z_eq _ sT _ hg h
  | RFC3339MS => exact absurd (by decide) hf
  | RFC3339ZMS => exact absurd (by decide) hf
  | DATETIME => exact datetime_eq _ sT _
  | DATEONLY => exact dateonly_eq _ sT _
  | TIMEONLY => exact timeonly_eq _ sT _

/-- `UNIXDATE` prints the local fields of every date, and says they are universal time. -/
theorem C143_unixdate_fails (T : TzDateTime) (sT : Shown T.dt) :
    format .UNIXDATE T = .ok ((layout .UNIXDATE).flatMap (Elem.show (look T.dt T.gmt_offset))) := unixdate_eq _ sT _

/-- Seven microseconds are printed as seven tenths of a second; the day of `RUBYDATE` is not filled with a zero. -/
theorem C143_other_fails :
    format .RFC3339MS ⟨from_time 7, 0⟩ =
      .ok (txt ['1', '9', '7', '0', '-', '0', '1', '-', '0', '1', 'T', '0', '0', ':', '0', '0', ':', '0', '0', '.', '7', 'Z']) ∧
    format .RUBYDATE ⟨from_time 0, 0⟩ =
      .ok (txt ['T', 'h', 'u', ' ', 'J', 'a', 'n', ' ', ' ', '1', ' ', '0', '0', ':', '0', '0', ':', '0', '0', ' ', '-', '0', '0', '0', '0', ' ', '1', '9', '7', '0']) := by
  refine ⟨?_, ?_⟩ <;> decide +kernel

theorem shown_zero (t : Int) (ht : t ∈ [0, 3600000000]) : Shown (from_time t) := by
  simp only [List.mem_cons, List.not_mem_nil, or_false] at ht
  rcases ht with rfl | rfl <;> exact ⟨by decide +kernel, by decide +kernel, by decide +kernel, by decide +kernel, by decide +kernel, by decide +kernel, by decide +kernel⟩

theorem C143_fails : ¬ C143_full := by
  intro h
  have hs := shown_zero 3600000000 (by simp)
  have h1 := h .UNIXDATE ⟨{ from_time 3600000000 with time := 0 }, 3600⟩ ⟨from_time 0, 0⟩ (by decide) (by decide) (by decide +kernel)
    ⟨hs.1, hs.2, hs.3, hs.4, hs.5, hs.6, hs.7⟩ (shown_zero 0 (by simp)) (by decide +kernel) (by decide +kernel)
  have h2 : format .UNIXDATE ⟨{ from_time 3600000000 with time := 0 }, 3600⟩ =
      .ok (txt ['T', 'h', 'u', ' ', 'J', 'a', 'n', ' ', ' ', '1', ' ', '0', '1', ':', '0', '0', ':', '0', '0', ' ', 'G', 'M', 'T', ' ', '1', '9', '7', '0']) := by
    decide +kernel
  rw [h2] at h1
  have h3 : format .UNIXDATE ⟨from_time 0, 0⟩ =
      .ok (txt ['T', 'h', 'u', ' ', 'J', 'a', 'n', ' ', ' ', '1', ' ', '0', '0', ':', '0', '0', ':', '0', '0', ' ', 'G', 'M', 'T', ' ', '1', '9', '7', '0']) := by
    decide +kernel
  rw [unixdate_eq _ (shown_zero 0 (by simp)) 0] at h3
  have h4 := h1.trans h3
  revert h4
  decide

end C3.Time
