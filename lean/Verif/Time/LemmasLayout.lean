import Verif.Time.LemmasFormat
import Verif.Time.SpecLayout

/-! Lemmas: the formats follow their layouts. -/

set_option autoImplicit false
set_option linter.unusedSimpArgs false

namespace C3.Time
open C3.Fmt (Byte ch txt Stop vprintf numeral_small Arg)
open C3.Fmt.Std (numeral zeros spaces Item Dir Flag Clean val utf8)
open Std

macro "ours" : tactic => `(tactic|
  ((repeat' (refine List.forall_mem_cons.2 ⟨?_, ?_⟩)) <;>
    first | exact List.forall_mem_nil _ | exact ours_lit _ (by decide) | exact ours_str _ | (refine ours_chr _ ?_; simp) | (refine ours_int _ ?_; simp)))

theorem padded4 (d : DateTime) (h : Shown d) : padded 4 d.year.toNat = numeral 10 false d.year.toNat := by
  have := h.year
  unfold padded
  rw [numeral_length4 _ (by omega) (by omega)]
  simp [zeros]

theorem out_year4 (d : DateTime) (h : Shown d) (o : Int) : (iInt D04 d.year).out = Elem.n2006.show (look d o) := by
  have := h.year
  rw [iInt_out _ _ (by omega) (by omega)]
  obtain ⟨n, hn⟩ : ∃ n : Nat, d.year = n := ⟨d.year.toNat, by omega⟩
  show _ = padded 4 d.year.toNat
  rw [hn, Int.toNat_natCast]
  exact zero_int 4 n

theorem out_year (d : DateTime) (h : Shown d) (o : Int) : (iInt D0 d.year).out = Elem.n2006.show (look d o) := by
  have := h.year
  show _ = padded 4 d.year.toNat
  rw [padded4 d h, iInt_out _ _ (by omega) (by omega)]
  obtain ⟨n, hn⟩ : ∃ n : Nat, d.year = n := ⟨d.year.toNat, by omega⟩
  rw [hn, Int.toNat_natCast]
  exact plain_int n

theorem out_year2 (d : DateTime) (h : Shown d) (o : Int) : (iInt D02 (d.year.tmod 100)).out = Elem.n06.show (look d o) := by
  have := h.year
  show _ = padded 2 (d.year.toNat % 100)
  obtain ⟨n, hn⟩ : ∃ n : Nat, d.year = n := ⟨d.year.toNat, by omega⟩
  rw [hn, Int.toNat_natCast, Int.tmod_eq_emod_of_nonneg (by omega), iInt_out _ _ (by omega) (by omega)]
  have : (n : Int) % 100 = ((n % 100 : Nat) : Int) := by omega
  rw [this]
  exact zero_int 2 _

theorem out_month (d : DateTime) (h : Shown d) (o : Int) : (iInt D02 (d.month + 1)).out = Elem.n01.show (look d o) := by
  have := h.month
  rw [iInt_out _ _ (by omega) (by omega)]
  have : (d.month : Int) + 1 = ((d.month + 1 : Nat) : Int) := by omega
  rw [this]
  exact zero_int 2 _

theorem out_day (d : DateTime) (h : Shown d) (o : Int) : (iChr D02 d.day).out = Elem.n02.show (look d o) := by
  have := h.day
  rw [iChr_out _ _ (by omega)]
  exact zero_int 2 _

theorem out__day (d : DateTime) (h : Shown d) (o : Int) : (iChr D2 d.day).out = Elem._2.show (look d o) := by
  have := h.day
  rw [iChr_out _ _ (by omega)]
  exact field_int _

theorem out_hour (d : DateTime) (h : Shown d) (o : Int) : (iChr D02 d.hour).out = Elem.n15.show (look d o) := by
  have := h.hour
  rw [iChr_out _ _ (by omega)]
  exact zero_int 2 _

theorem out_min (d : DateTime) (h : Shown d) (o : Int) : (iChr D02 d.min).out = Elem.n04.show (look d o) := by
  have := h.min
  rw [iChr_out _ _ (by omega)]
  exact zero_int 2 _

theorem out_sec (d : DateTime) (h : Shown d) (o : Int) : (iChr D02 d.sec).out = Elem.n05.show (look d o) := by
  have := h.sec
  rw [iChr_out _ _ (by omega)]
  exact zero_int 2 _

theorem out_Mon (d : DateTime) (h : Shown d) (o : Int) : (iStr (weekdayAbbrev d.weekday)).out = Elem.Mon.show (look d o) := by
  rw [iStr_out, wa_ascii, (wa _ h.weekday).1]; rfl

theorem out_Monday (d : DateTime) (h : Shown d) (o : Int) : (iStr (weekdayName d.weekday)).out = Elem.Monday.show (look d o) := by
  rw [iStr_out, wn_ascii, (wa _ h.weekday).2]; rfl

theorem out_Jan (d : DateTime) (h : Shown d) (o : Int) : (iStr (monthAbbrev d.month)).out = Elem.Jan.show (look d o) := by
  rw [iStr_out, ma_ascii, ma _ h.month]; rfl

theorem out_is (l : Look) (c : Char) : (Item.lit (ch c)).out = (Elem.is c).show l := rfl

theorem args_Mon (d : DateTime) : (iStr (weekdayAbbrev d.weekday)).args = [str (weekdayAbbrev d.weekday)] := by
  rw [iStr_args, wa_ascii]; rfl
theorem args_Monday (d : DateTime) : (iStr (weekdayName d.weekday)).args = [str (weekdayName d.weekday)] := by
  rw [iStr_args, wn_ascii]; rfl
theorem args_Jan (d : DateTime) : (iStr (monthAbbrev d.month)).args = [str (monthAbbrev d.month)] := by
  rw [iStr_args, ma_ascii]; rfl

theorem offset_ascii (colon : List Byte) (hc : ∀ c ∈ colon, c.toNat < 128) (o : Int) : ∀ c ∈ offset colon o, c.toNat < 128 := by
  have hp : ∀ n, ∀ c ∈ padded 2 n, c.toNat < 128 := by
    intro n c hc
    unfold padded at hc
    rcases List.mem_append.1 hc with hc | hc
    · have := (List.mem_replicate.1 hc).2
      rw [this]; decide
    · have := ((numeral_digits n).1 c hc).2; omega
  intro c h
  unfold offset at h
  simp only [List.cons_append, List.append_assoc, List.mem_cons, List.mem_append] at h
  rcases h with h | h | h | h
  · rw [h]; split <;> decide
  · exact hp _ c h
  · exact hc c h
  · exact hp _ c h

/-- Pieces printed one after another. -/
theorem print_list (l : List Item) (h : ∀ i ∈ l, Ours i) (F : List Byte) (A : List Arg) (O : List Byte)
    (h1 : l.flatMap Item.text = F) (h2 : l.flatMap Item.args = A) (h3 : l.flatMap Item.out = O) :
    text (vprintf F A) = .ok O := by
  rw [← h1, ← h2, ← h3]; exact print_ours l h

macro "texts" : tactic => `(tactic|
  (simp only [List.flatMap_cons, List.flatMap_nil, List.append_nil, iInt_text, iChr_text, iStr_text, lit_text, text02, text2, text04, D0_text]; rfl))
macro "argss" : tactic => `(tactic|
  (simp only [List.flatMap_cons, List.flatMap_nil, List.append_nil, iInt_args, iChr_args, args_Mon, args_Monday, args_Jan, lit_args]; rfl))

section
variable (d : DateTime) (h : Shown d) (o : Int)
include h

/-- The formats without an offset, from the fields. -/
theorem ansic_eq : format .ANSIC ⟨d, o⟩ = .ok ((layout .ANSIC).flatMap (Elem.show (look d o))) := by
  refine print_list [iStr (weekdayAbbrev d.weekday), .lit (ch ' '), iStr (monthAbbrev d.month), .lit (ch ' '), iChr D2 d.day, .lit (ch ' '),
    iChr D02 d.hour, .lit (ch ':'), iChr D02 d.min, .lit (ch ':'), iChr D02 d.sec, .lit (ch ' '), iInt D04 d.year] (by ours) _ _ _ (by texts) (by argss) ?_
  simp only [List.flatMap_cons, List.flatMap_nil, List.append_nil, out_Mon d h o, out_Jan d h o, out__day d h o, out_hour d h o, out_min d h o,
    out_sec d h o, out_year4 d h o, out_is (look d o)]
  simp only [layout, clock, GMT, List.cons_append, List.nil_append, List.flatMap_cons, List.flatMap_nil, List.append_nil]
  try rfl

theorem unixdate_eq : format .UNIXDATE ⟨d, o⟩ = .ok ((layout .UNIXDATE).flatMap (Elem.show (look d o))) := by
  refine print_list [iStr (weekdayAbbrev d.weekday), .lit (ch ' '), iStr (monthAbbrev d.month), .lit (ch ' '), iChr D2 d.day, .lit (ch ' '),
    iChr D02 d.hour, .lit (ch ':'), iChr D02 d.min, .lit (ch ':'), iChr D02 d.sec, .lit (ch ' '), .lit (ch 'G'), .lit (ch 'M'), .lit (ch 'T'), .lit (ch ' '),
    iInt D04 d.year] (by ours) _ _ _ (by texts) (by argss) ?_
  simp only [List.flatMap_cons, List.flatMap_nil, List.append_nil, out_Mon d h o, out_Jan d h o, out__day d h o, out_hour d h o, out_min d h o,
    out_sec d h o, out_year4 d h o, out_is (look d o)]
  simp only [layout, clock, GMT, List.cons_append, List.nil_append, List.flatMap_cons, List.flatMap_nil, List.append_nil]
  try rfl

theorem datetime_eq : format .DATETIME ⟨d, o⟩ = .ok ((layout .DATETIME).flatMap (Elem.show (look d o))) := by
  refine print_list [iInt D04 d.year, .lit (ch '-'), iInt D02 (d.month + 1), .lit (ch '-'), iChr D02 d.day, .lit (ch ' '),
    iChr D02 d.hour, .lit (ch ':'), iChr D02 d.min, .lit (ch ':'), iChr D02 d.sec] (by ours) _ _ _ (by texts) (by argss) ?_
  simp only [List.flatMap_cons, List.flatMap_nil, List.append_nil, out_month d h o, out_day d h o, out_hour d h o, out_min d h o,
    out_sec d h o, out_year4 d h o, out_is (look d o)]
  simp only [layout, clock, GMT, List.cons_append, List.nil_append, List.flatMap_cons, List.flatMap_nil, List.append_nil]
  try rfl

theorem dateonly_eq : format .DATEONLY ⟨d, o⟩ = .ok ((layout .DATEONLY).flatMap (Elem.show (look d o))) := by
  refine print_list [iInt D04 d.year, .lit (ch '-'), iInt D02 (d.month + 1), .lit (ch '-'), iChr D02 d.day] (by ours) _ _ _ (by texts) (by argss) ?_
  simp only [List.flatMap_cons, List.flatMap_nil, List.append_nil, out_month d h o, out_day d h o,
    out_year4 d h o, out_is (look d o)]
  simp only [layout, clock, GMT, List.cons_append, List.nil_append, List.flatMap_cons, List.flatMap_nil, List.append_nil]
  try rfl

theorem timeonly_eq : format .TIMEONLY ⟨d, o⟩ = .ok ((layout .TIMEONLY).flatMap (Elem.show (look d o))) := by
  refine print_list [iChr D02 d.hour, .lit (ch ':'), iChr D02 d.min, .lit (ch ':'), iChr D02 d.sec] (by ours) _ _ _ (by texts) (by argss) ?_
  simp only [List.flatMap_cons, List.flatMap_nil, List.append_nil, out_hour d h o, out_min d h o, out_sec d h o, out_is (look d o)]
  simp only [layout, clock, GMT, List.cons_append, List.nil_append, List.flatMap_cons, List.flatMap_nil, List.append_nil]
  try rfl

/-! In universal time. -/

theorem rfc822_eq (t : TzDateTime) (ht : ∃ z, t.to_gmt_offset 0 = some ⟨d, z⟩) :
    format .RFC822 t = .ok ((layout .RFC822).flatMap (Elem.show (look d o))) := by
  obtain ⟨z, hz⟩ := ht
  unfold format
  rw [hz]
  refine print_list [iChr D02 d.day, .lit (ch ' '), iStr (monthAbbrev d.month), .lit (ch ' '), iInt D02 (d.year.tmod 100), .lit (ch ' '),
    iChr D02 d.hour, .lit (ch ':'), iChr D02 d.min, .lit (ch ' '), .lit (ch 'G'), .lit (ch 'M'), .lit (ch 'T')] (by ours) _ _ _ (by texts) (by argss) ?_
  simp only [List.flatMap_cons, List.flatMap_nil, List.append_nil, out_day d h o, out_Jan d h o, out_year2 d h o, out_hour d h o, out_min d h o,
    out_is (look d o)]
  simp only [layout, clock, GMT, List.cons_append, List.nil_append, List.flatMap_cons, List.flatMap_nil, List.append_nil]
  try rfl

theorem rfc850_eq (t : TzDateTime) (ht : ∃ z, t.to_gmt_offset 0 = some ⟨d, z⟩) :
    format .RFC850 t = .ok ((layout .RFC850).flatMap (Elem.show (look d o))) := by
  obtain ⟨z, hz⟩ := ht
  unfold format
  rw [hz]
  refine print_list [iStr (weekdayName d.weekday), .lit (ch ','), .lit (ch ' '), iChr D02 d.day, .lit (ch '-'), iStr (monthAbbrev d.month), .lit (ch '-'),
    iInt D02 (d.year.tmod 100), .lit (ch ' '),
    iChr D02 d.hour, .lit (ch ':'), iChr D02 d.min, .lit (ch ':'), iChr D02 d.sec, .lit (ch ' '), .lit (ch 'G'), .lit (ch 'M'), .lit (ch 'T')]
    (by ours) _ _ _ (by texts) (by argss) ?_
  simp only [List.flatMap_cons, List.flatMap_nil, List.append_nil, out_day d h o, out_Jan d h o, out_year2 d h o, out_hour d h o, out_min d h o,
    out_sec d h o, out_Monday d h o, out_is (look d o)]
  simp only [layout, clock, GMT, List.cons_append, List.nil_append, List.flatMap_cons, List.flatMap_nil, List.append_nil]
  try rfl

theorem rfc1123_eq (t : TzDateTime) (ht : ∃ z, t.to_gmt_offset 0 = some ⟨d, z⟩) :
    format .RFC1123 t = .ok ((layout .RFC1123).flatMap (Elem.show (look d o))) := by
  obtain ⟨z, hz⟩ := ht
  unfold format
  rw [hz]
  refine print_list [iStr (weekdayAbbrev d.weekday), .lit (ch ','), .lit (ch ' '), iChr D02 d.day, .lit (ch ' '), iStr (monthAbbrev d.month), .lit (ch ' '),
    iInt D0 d.year, .lit (ch ' '),
    iChr D02 d.hour, .lit (ch ':'), iChr D02 d.min, .lit (ch ':'), iChr D02 d.sec, .lit (ch ' '), .lit (ch 'G'), .lit (ch 'M'), .lit (ch 'T')]
    (by ours) _ _ _ (by texts) (by argss) ?_
  simp only [List.flatMap_cons, List.flatMap_nil, List.append_nil, out_day d h o, out_Jan d h o, out_year d h o, out_hour d h o, out_min d h o,
    out_sec d h o, out_Mon d h o, out_is (look d o)]
  simp only [layout, clock, GMT, List.cons_append, List.nil_append, List.flatMap_cons, List.flatMap_nil, List.append_nil]
  try rfl

theorem rfc3339_eq (t : TzDateTime) (ht : ∃ z, t.to_gmt_offset 0 = some ⟨d, z⟩) :
    format .RFC3339 t = .ok ((layout .RFC3339).flatMap (Elem.show (look d o))) := by
  obtain ⟨z, hz⟩ := ht
  unfold format
  rw [hz]
  refine print_list [iInt D04 d.year, .lit (ch '-'), iInt D02 (d.month + 1), .lit (ch '-'), iChr D02 d.day, .lit (ch 'T'),
    iChr D02 d.hour, .lit (ch ':'), iChr D02 d.min, .lit (ch ':'), iChr D02 d.sec, .lit (ch 'Z')] (by ours) _ _ _ (by texts) (by argss) ?_
  simp only [List.flatMap_cons, List.flatMap_nil, List.append_nil, out_month d h o, out_day d h o, out_hour d h o, out_min d h o,
    out_sec d h o, out_year4 d h o, out_is (look d o)]
  simp only [layout, clock, GMT, List.cons_append, List.nil_append, List.flatMap_cons, List.flatMap_nil, List.append_nil]
  try rfl

/-! With the offset. -/

variable (ho : goodOffset o = true) (hs : 0 ≤ o ∨ o ≤ -3600 ∧ o.natAbs % 3600 < 60)
include ho hs

theorem rfc822z_eq : format .RFC822Z ⟨d, o⟩ = .ok ((layout .RFC822Z).flatMap (Elem.show (look d o))) := by
  obtain ⟨l, hl⟩ := ascii_str (offset [] o) (offset_ascii [] (by decide) o)
  have hz := tz_good [] (by intro c hc; cases hc) o ho hs
  unfold format
  rw [hz]
  refine print_list [iChr D02 d.day, .lit (ch ' '), iStr (monthAbbrev d.month), .lit (ch ' '), iInt D02 (d.year.tmod 100), .lit (ch ' '),
    iChr D02 d.hour, .lit (ch ':'), iChr D02 d.min, .lit (ch ' '), iStr l] (by ours) _ _ _ (by texts) ?_ ?_
  · simp only [List.flatMap_cons, List.flatMap_nil, List.append_nil, iInt_args, iChr_args, args_Jan, lit_args, iStr_args, hl, ma_ascii, wa_ascii]; rfl
  · simp only [List.flatMap_cons, List.flatMap_nil, List.append_nil, out_day d h o, out_Jan d h o, out_year2 d h o, out_hour d h o, out_min d h o,
      out_is (look d o), iStr_out, hl]
    simp only [layout, clock, GMT, List.cons_append, List.nil_append, List.flatMap_cons, List.flatMap_nil, List.append_nil]
    try rfl

theorem rfc1123z_eq : format .RFC1123Z ⟨d, o⟩ = .ok ((layout .RFC1123Z).flatMap (Elem.show (look d o))) := by
  obtain ⟨l, hl⟩ := ascii_str (offset [] o) (offset_ascii [] (by decide) o)
  have hz := tz_good [] (by intro c hc; cases hc) o ho hs
  unfold format
  rw [hz]
  refine print_list [iStr (weekdayAbbrev d.weekday), .lit (ch ','), .lit (ch ' '), iChr D02 d.day, .lit (ch ' '), iStr (monthAbbrev d.month), .lit (ch ' '),
    iInt D0 d.year, .lit (ch ' '),
    iChr D02 d.hour, .lit (ch ':'), iChr D02 d.min, .lit (ch ':'), iChr D02 d.sec, .lit (ch ' '), iStr l] (by ours) _ _ _ (by texts) ?_ ?_
  · simp only [List.flatMap_cons, List.flatMap_nil, List.append_nil, iInt_args, iChr_args, args_Mon, args_Jan, lit_args, iStr_args, hl, ma_ascii, wa_ascii]; rfl
  · simp only [List.flatMap_cons, List.flatMap_nil, List.append_nil, out_day d h o, out_Jan d h o, out_year d h o, out_hour d h o, out_min d h o,
      out_sec d h o, out_Mon d h o, out_is (look d o)]
    rw [iStr_out l, hl]
    simp only [layout, clock, GMT, List.cons_append, List.nil_append, List.flatMap_cons, List.flatMap_nil, List.append_nil]
    try rfl

theorem rfc3339z_eq : format .RFC3339Z ⟨d, o⟩ = .ok ((layout .RFC3339Z).flatMap (Elem.show (look d o))) := by
  obtain ⟨l, hl⟩ := ascii_str (offset [ch ':'] o) (offset_ascii [ch ':'] (by decide) o)
  have hz := tz_good [':'] (by intro c hc; revert c; decide) o ho hs
  unfold format
  rw [hz]
  refine print_list [iInt D04 d.year, .lit (ch '-'), iInt D02 (d.month + 1), .lit (ch '-'), iChr D02 d.day, .lit (ch 'T'),
    iChr D02 d.hour, .lit (ch ':'), iChr D02 d.min, .lit (ch ':'), iChr D02 d.sec, iStr l] (by ours) _ _ _ (by texts) ?_ ?_
  · simp only [List.flatMap_cons, List.flatMap_nil, List.append_nil, iInt_args, iChr_args, lit_args, iStr_args, hl, ma_ascii, wa_ascii]; rfl
  · simp only [List.flatMap_cons, List.flatMap_nil, List.append_nil, out_month d h o, out_day d h o, out_hour d h o, out_min d h o,
      out_sec d h o, out_year4 d h o, out_is (look d o), iStr_out, hl]
    simp only [layout, clock, GMT, List.cons_append, List.nil_append, List.flatMap_cons, List.flatMap_nil, List.append_nil]
    try rfl

end

end C3.Time
