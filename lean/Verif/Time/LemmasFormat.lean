import Verif.Time.LemmasText

/-! Lemmas about the formats of dates. -/

set_option autoImplicit false

namespace C3.Time
open C3.Fmt (Byte ch txt Stop vprintf numeral_small Arg)
open C3.Fmt.Std (numeral zeros spaces Item Dir Flag Clean val utf8)
open Std

def D02 : Dir := ⟨[.zero], 2, none⟩
def D04 : Dir := ⟨[.zero], 4, none⟩
def D2 : Dir := ⟨[], 2, none⟩
def D03 : Dir := ⟨[.plus, .zero], 3, none⟩

theorem dir_good (D : Dir) (h1 : D.prec = none) (h2 : .alt ∉ D.flags) (h3 : D.width ≤ 253) (s : Bool) (w : Nat) (hw : w ≤ 128)
    (x : BitVec w) : (Item.int D .d s w x).Good :=
  ⟨⟨by omega, by intro p hp; rw [h1] at hp; cases hp⟩, hw,
    ⟨by rw [h1]; decide, fun _ => h3, fun p _ h => (by rw [h1] at h; cases h), fun h => absurd h h2,
      fun _ h => (by rw [h1] at h; cases h)⟩⟩

theorem zero_int (w n : Nat) : Dir.int ⟨[.zero], w, none⟩ .d n = padded w n := by
  have hn : ¬ ((n : Int) < 0) := by omega
  simp [Dir.int, Dir.digits, Dir.sign, Dir.pre, zeros, C3.Fmt.Std.Conv.base, C3.Fmt.Std.Conv.upper, hn, padded]

theorem field_int (n : Nat) : Dir.int D2 .d n = spaces (2 - (numeral 10 false n).length) ++ numeral 10 false n := by
  have hn : ¬ ((n : Int) < 0) := by omega
  simp [D2, Dir.int, Dir.digits, Dir.sign, Dir.pre, Dir.field, zeros, C3.Fmt.Std.Conv.base, C3.Fmt.Std.Conv.upper, hn]

theorem plain_int (n : Nat) : Dir.int D0 .d n = numeral 10 false n := by
  have hn : ¬ ((n : Int) < 0) := by omega
  simp [D0, Dir.int, Dir.digits, Dir.sign, Dir.pre, Dir.field, zeros, spaces, C3.Fmt.Std.Conv.base, C3.Fmt.Std.Conv.upper, hn]

theorem sign_int (v : Int) : Dir.int D03 .d v = (if v < 0 then ch '-' else ch '+') :: padded 2 v.natAbs := by
  by_cases hn : v < 0 <;>
  simp [D03, Dir.int, Dir.digits, Dir.sign, Dir.pre, zeros, C3.Fmt.Std.Conv.base, C3.Fmt.Std.Conv.upper, hn, padded] <;> omega

theorem zero_int_neg (v : Int) (h : v < 0) : Dir.int D02 .d v = ch '-' :: numeral 10 false v.natAbs := by
  have := C3.Fmt.numeral_length_pos 10 false v.natAbs
  have e : 2 - (1 + (numeral 10 false v.natAbs).length) = 0 := by omega
  simp [D02, Dir.int, Dir.digits, Dir.sign, Dir.pre, zeros, C3.Fmt.Std.Conv.base, C3.Fmt.Std.Conv.upper, h, e]

theorem val_chr (n : Nat) (h : n < 256) : val false (BitVec.ofNat 8 n) = n := by
  simp only [val, Bool.false_eq_true, if_false, BitVec.toNat_ofNat]; omega

theorem val_int (k : Int) (h1 : -2 ^ 31 ≤ k) (h2 : k < 2 ^ 31) : val true (BitVec.ofInt 32 k) = k := by
  unfold val
  simp only [if_true]
  rw [BitVec.toInt_ofInt, Int.bmod_eq_of_le (by omega) (by omega)]

/-! Pieces. -/

def iChr (D : Dir) (n : Nat) : Item := .int D .d false 8 (BitVec.ofNat 8 n)
def iInt (D : Dir) (n : Int) : Item := .int D .d true 32 (BitVec.ofInt 32 n)
def iStr (s : List Char) : Item := .str D0 s

theorem text02 : D02.text (ch 'd') = txt ['%', '0', '2', 'd'] := by
  have : numeral 10 false 2 = [ch '2'] := numeral_small 2 (by decide)
  simp [Dir.text, D02, this, Flag.char, txt]
theorem text2 : D2.text (ch 'd') = txt ['%', '2', 'd'] := by
  have : numeral 10 false 2 = [ch '2'] := numeral_small 2 (by decide)
  simp [Dir.text, D2, this, txt]
theorem text04 : D04.text (ch 'd') = txt ['%', '0', '4', 'd'] := by
  have : numeral 10 false 4 = [ch '4'] := numeral_small 4 (by decide)
  simp [Dir.text, D04, this, Flag.char, txt]
theorem text03 : D03.text (ch 'd') = txt ['%', '+', '0', '3', 'd'] := by
  have : numeral 10 false 3 = [ch '3'] := numeral_small 3 (by decide)
  simp [Dir.text, D03, this, Flag.char, txt]

theorem iChr_text (D : Dir) (n : Nat) : (iChr D n).text = D.text (ch 'd') := rfl
theorem iInt_text (D : Dir) (n : Int) : (iInt D n).text = D.text (ch 'd') := rfl
theorem iStr_text (s : List Char) : (iStr s).text = txt ['%', 's'] := rfl
theorem D0_text : D0.text (ch 'd') = txt ['%', 'd'] := rfl
theorem lit_text (c : Byte) : (Item.lit c).text = [c] := rfl

theorem iChr_args (D : Dir) (n : Nat) : (iChr D n).args = [chr n] := rfl
theorem iInt_args (D : Dir) (n : Int) : (iInt D n).args = [int n] := rfl
theorem iStr_args (s : List Char) : (iStr s).args = [.str (s.flatMap utf8)] := rfl
theorem lit_args (c : Byte) : (Item.lit c).args = [] := rfl

theorem iChr_out (D : Dir) (n : Nat) (h : n < 256) : (iChr D n).out = D.int .d n := by
  show D.int .d (val false (BitVec.ofNat 8 n)) = _
  rw [val_chr n h]
theorem iInt_out (D : Dir) (n : Int) (h1 : -2 ^ 31 ≤ n) (h2 : n < 2 ^ 31) : (iInt D n).out = D.int .d n := by
  show D.int .d (val true (BitVec.ofInt 32 n)) = _
  rw [val_int n h1 h2]
theorem iStr_out (s : List Char) : (iStr s).out = s.flatMap utf8 := by
  simp [iStr, Item.out, Dir.str, D0, Dir.field, spaces]
theorem lit_out (c : Byte) : (Item.lit c).out = [c] := rfl

/-- The pieces used here. -/
def Ours (i : Item) : Prop :=
  (∃ D ∈ [D0, D2, D02, D04, D03], (∃ n, i = iChr D n) ∨ ∃ n, i = iInt D n) ∨ (∃ s, i = iStr s) ∨ ∃ c, c ≠ ch '%' ∧ i = .lit c

theorem ours_chr {D : Dir} (n : Nat) (h : D ∈ [D0, D2, D02, D04, D03]) : Ours (iChr D n) := Or.inl ⟨D, h, Or.inl ⟨n, rfl⟩⟩
theorem ours_int {D : Dir} (n : Int) (h : D ∈ [D0, D2, D02, D04, D03]) : Ours (iInt D n) := Or.inl ⟨D, h, Or.inr ⟨n, rfl⟩⟩
theorem ours_str (s : List Char) : Ours (iStr s) := Or.inr (Or.inl ⟨s, rfl⟩)
theorem ours_lit (c : Byte) (h : c ≠ ch '%') : Ours (.lit c) := Or.inr (Or.inr ⟨c, h, rfl⟩)

theorem Ours.good {i : Item} (h : Ours i) : i.Good := by
  rcases h with ⟨D, hD, h⟩ | ⟨s, rfl⟩ | ⟨c, hc, rfl⟩
  · have hd : D.prec = none ∧ Flag.alt ∉ D.flags ∧ D.width ≤ 253 := by
      simp only [List.mem_cons, List.not_mem_nil, or_false] at hD
      rcases hD with rfl | rfl | rfl | rfl | rfl <;> exact ⟨rfl, by decide, by decide⟩
    rcases h with ⟨n, rfl⟩ | ⟨n, rfl⟩
    · exact dir_good D hd.1 hd.2.1 hd.2.2 _ _ (by decide) _
    · exact dir_good D hd.1 hd.2.1 hd.2.2 _ _ (by decide) _
  · exact ⟨by decide, by intro p hp; cases hp⟩
  · exact hc

theorem print_ours (l : List Item) (h : ∀ i ∈ l, Ours i) :
    text (vprintf (l.flatMap Item.text) (l.flatMap Item.args)) = .ok (l.flatMap Item.out) := by
  obtain ⟨n, hn⟩ := C3.Fmt.C122_pieces l (fun i hi => (h i hi).good) []
  rw [List.append_nil] at hn
  rw [hn]; rfl

/-! ### Offsets -/

theorem tz_text (colon : List Char) (hc : Plain (txt colon)) (o : Int) (hg : goodOffset o = true) (h0 : o ≠ 0) :
    tzsuffix colon o = .ok (Dir.int D03 .d (o.tdiv 3600) ++ txt colon ++ Dir.int D02 .d ((o.tmod 3600).tdiv 60)) := by
  have hb : -43200 ≤ o ∧ o ≤ 50400 := by simpa [goodOffset] using hg
  have e1 : -12 ≤ o.tdiv 3600 ∧ o.tdiv 3600 ≤ 14 := by
    rcases Int.le_total 0 o with h | h
    · rw [Int.tdiv_eq_ediv_of_nonneg h]; omega
    · obtain ⟨n, rfl⟩ : ∃ n : Nat, o = -(n : Int) := ⟨o.natAbs, by omega⟩
      rw [Int.neg_tdiv, Int.tdiv_eq_ediv_of_nonneg (by omega)]; omega
  have e2 : -60 ≤ (o.tmod 3600).tdiv 60 ∧ (o.tmod 3600).tdiv 60 ≤ 60 := by
    rcases Int.le_total 0 o with h | h
    · rw [Int.tmod_eq_emod_of_nonneg h, Int.tdiv_eq_ediv_of_nonneg (by omega)]; omega
    · obtain ⟨n, rfl⟩ : ∃ n : Nat, o = -(n : Int) := ⟨o.natAbs, by omega⟩
      rw [Int.neg_tmod, Int.neg_tdiv, Int.tmod_eq_emod_of_nonneg (by omega), Int.tdiv_eq_ediv_of_nonneg (by omega)]; omega
  have := print_ours (iInt D03 (o.tdiv 3600) :: ((txt colon).map Item.lit ++ [iInt D02 ((o.tmod 3600).tdiv 60)])) (by
    intro i hi
    rcases List.mem_cons.1 hi with rfl | hi
    · exact ours_int _ (by simp)
    rcases List.mem_append.1 hi with hi | hi
    · obtain ⟨c, hc', rfl⟩ := List.mem_map.1 hi
      exact ours_lit c (hc c hc')
    · rw [List.mem_singleton] at hi
      subst hi
      exact ours_int _ (by simp))
  simp only [List.flatMap_cons, List.flatMap_append, List.flatMap_nil, List.append_nil, lits_text, lits_args, lits_out, iInt_text, iInt_args,
    text03, text02] at this
  rw [iInt_out _ _ (by omega) (by omega), iInt_out _ _ (by omega) (by omega)] at this
  unfold tzsuffix
  rw [if_neg (by simp [hg]), if_neg h0]
  rw [List.append_assoc (Dir.int D03 .d _), ← this]
  simp [txt]

theorem tz_good (colon : List Char) (hc : Plain (txt colon)) (o : Int) (hg : goodOffset o = true)
    (h : 0 ≤ o ∨ o ≤ -3600 ∧ o.natAbs % 3600 < 60) : tzsuffix colon o = .ok (offset (txt colon) o) := by
  have hb : -43200 ≤ o ∧ o ≤ 50400 := by simpa [goodOffset] using hg
  by_cases h0 : o = 0
  · subst h0
    unfold tzsuffix
    rw [if_neg (by decide), if_pos rfl]
    have : numeral 10 false 0 = [ch '0'] := numeral_small 0 (by decide)
    simp [offset, padded, this, zeros, txt]
  rw [tz_text colon hc o hg h0]
  rcases h with h | ⟨h, hm⟩
  · rw [Int.tmod_eq_emod_of_nonneg h, Int.tdiv_eq_ediv_of_nonneg (by omega), Int.tdiv_eq_ediv_of_nonneg (by omega), sign_int,
      if_neg (by omega)]
    have e1 : (o / 3600).natAbs = o.natAbs / 3600 := by omega
    have e2 : o % 3600 / 60 = ((o.natAbs % 3600 / 60 : Nat) : Int) := by omega
    rw [e1, e2]
    unfold offset
    rw [if_neg (by omega), show D02 = ⟨[.zero], 2, none⟩ from rfl, zero_int]
  · obtain ⟨n, rfl⟩ : ∃ n : Nat, o = -(n : Int) := ⟨o.natAbs, by omega⟩
    have f : ((-(n : Int)).tmod 3600).tdiv 60 = ((0 : Nat) : Int) := by
      rw [Int.neg_tmod, Int.neg_tdiv, Int.tmod_eq_emod_of_nonneg (by omega), Int.tdiv_eq_ediv_of_nonneg (by omega)]; omega
    have g : (-(n : Int)).tdiv 3600 = -((n / 3600 : Nat) : Int) := by
      rw [Int.neg_tdiv, Int.tdiv_eq_ediv_of_nonneg (by omega)]; omega
    rw [f, g, sign_int, if_pos (by omega), show D02 = ⟨[.zero], 2, none⟩ from rfl, zero_int]
    unfold offset
    rw [if_pos (by omega), Int.natAbs_neg, Int.natAbs_neg, Int.natAbs_natCast, Int.natAbs_natCast]
    have : n % 3600 / 60 = 0 := by omega
    rw [this]

/-- A negative offset that is no number of hours. -/
theorem tz_bad (colon : List Char) (hc : Plain (txt colon)) (o : Int) (hg : goodOffset o = true)
    (h : o < 0) (hm : 60 ≤ o.natAbs % 3600) :
    tzsuffix colon o = .ok ((if o ≤ -3600 then ch '-' else ch '+') :: padded 2 (o.natAbs / 3600) ++ txt colon ++
      ch '-' :: numeral 10 false (o.natAbs % 3600 / 60)) := by
  rw [tz_text colon hc o hg (by omega)]
  obtain ⟨n, rfl⟩ : ∃ n : Nat, o = -(n : Int) := ⟨o.natAbs, by omega⟩
  rw [Int.natAbs_neg, Int.natAbs_natCast] at *
  have f : ((-(n : Int)).tmod 3600).tdiv 60 = -((n % 3600 / 60 : Nat) : Int) := by
    rw [Int.neg_tmod, Int.neg_tdiv, Int.tmod_eq_emod_of_nonneg (by omega), Int.tdiv_eq_ediv_of_nonneg (by omega)]; omega
  have g : (-(n : Int)).tdiv 3600 = -((n / 3600 : Nat) : Int) := by
    rw [Int.neg_tdiv, Int.tdiv_eq_ediv_of_nonneg (by omega)]; omega
  rw [f, g, sign_int, zero_int_neg _ (by omega), Int.natAbs_neg, Int.natAbs_neg, Int.natAbs_natCast, Int.natAbs_natCast]
  by_cases hh : -(n : Int) ≤ -3600
  · rw [if_pos (by omega), if_pos hh]
  · rw [if_neg (by omega), if_neg hh]

/-! ### Dates -/

/-- A date and time of day that can be shown in four, two, two … digits. -/
structure Shown (d : DateTime) : Prop where
  year : 1000 ≤ d.year ∧ d.year ≤ 9999
  month : d.month < 12
  day : d.day < 32
  hour : d.hour < 24
  min : d.min < 60
  sec : d.sec < 60
  weekday : d.weekday < 7

/-- The fields of a `DateTime`, at an offset. -/
def look (d : DateTime) (o : Int) : Look :=
  ⟨d.year.toNat, d.month, d.day, d.hour, d.min, d.sec, d.usec.toNat, d.weekday, o⟩

theorem wa (w : Nat) (h : w < 7) : txt (weekdayAbbrev w) = txt ((weekdays.getD w []).take 3) ∧
    txt (weekdayName w) = txt (weekdays.getD w []) := by
  have : ∀ w < 7, txt (weekdayAbbrev w) = txt ((weekdays.getD w []).take 3) ∧
    txt (weekdayName w) = txt (weekdays.getD w []) := by decide +kernel
  exact this w h
theorem ma (m : Nat) (h : m < 12) : txt (monthAbbrev m) = txt ((months.getD m []).take 3) := by
  have : ∀ m < 12, txt (monthAbbrev m) = txt ((months.getD m []).take 3) := by decide +kernel
  exact this m h

theorem utf8_one (c : Char) (h : c.toNat < 128) : utf8 c = [ch c] := by
  have h' : c.val.toNat ≤ 0x7f := by
    have : c.val.toNat < 128 := h
    omega
  unfold utf8 String.utf8EncodeChar
  simp only [h', if_true, List.map_cons, List.map_nil]
  have : c.val.toNat.toUInt8.toBitVec = BitVec.ofNat 8 c.toNat := rfl
  rw [this]; rfl

theorem ascii (s : List Char) (h : ∀ c ∈ s, c.toNat < 128) : s.flatMap utf8 = txt s := by
  induction s with
  | nil => rfl
  | cons c s ih =>
    rw [List.flatMap_cons, utf8_one c (h c (List.mem_cons_self ..)), ih (fun c hc => h c (List.mem_cons_of_mem _ hc))]
    rfl

theorem wa_ascii (w : Nat) : (weekdayAbbrev w).flatMap utf8 = txt (weekdayAbbrev w) := by
  apply ascii; unfold weekdayAbbrev; split <;> decide
theorem wn_ascii (w : Nat) : (weekdayName w).flatMap utf8 = txt (weekdayName w) := by
  apply ascii; unfold weekdayName; split <;> decide
theorem ma_ascii (m : Nat) : (monthAbbrev m).flatMap utf8 = txt (monthAbbrev m) := by
  apply ascii; unfold monthAbbrev; split <;> decide

/-- Bytes that are ASCII are a string. -/
theorem ascii_str (s : List Byte) (h : ∀ c ∈ s, c.toNat < 128) : ∃ l : List Char, l.flatMap utf8 = s := by
  have key : ∀ n < 128, ch (Char.ofNat n) = BitVec.ofNat 8 n ∧ (Char.ofNat n).toNat < 128 := by decide +kernel
  refine ⟨s.map fun c => Char.ofNat c.toNat, ?_⟩
  rw [ascii]
  · unfold txt
    rw [List.map_map]
    conv => rhs; rw [← List.map_id s]
    apply List.map_congr_left
    intro c hc
    show ch (Char.ofNat c.toNat) = c
    rw [(key _ (h c hc)).1]
    simp
  · intro c hc
    obtain ⟨b, hb, rfl⟩ := List.mem_map.1 hc
    exact (key _ (h b hb)).2

end C3.Time
