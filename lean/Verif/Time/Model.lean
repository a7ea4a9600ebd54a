import Verif.Fmt.Model
import Verif.Time.Spec

/-!
Model of `lib/std/time/time.c3`, `datetime.c3` and `format.c3`.

`timegm` and `gmtime_r` are functions of the C library and not part of the code: they are taken to be the Gregorian
calendar of `Spec` (`timegm`, `gmtime` below). `long` and `int` are integers that wrap around (`wrap64`, `wrap32`). Local
time zones (`to_local`) and the clock are left out.
-/

set_option autoImplicit false

namespace C3.Time
open C3.Fmt (Byte ch txt Arg Stop vprintf)

/-- Arithmetic of `long` wraps around. -/
def wrap64 (x : Int) : Int := (x + 2 ^ 63) % 2 ^ 64 - 2 ^ 63
/-- Arithmetic of `int` wraps around. -/
def wrap32 (x : Int) : Int := (x + 2 ^ 31) % 2 ^ 32 - 2 ^ 31

/-! ### `time.c3` -/

/-- `SEC` (time.c3 12), microseconds. -/
def SEC : Int := 1000000
/-- `DAY` (time.c3 15). -/
def DAY : Int := 24 * 60 * 60 * SEC

/-- The nearest integer to `n / d`, ties to even: how IEEE 754 rounds. -/
def nearest (n d : Nat) : Nat :=
  if 2 * (n % d) < d ∨ (2 * (n % d) = d ∧ n / d % 2 = 0) then n / d else n / d + 1

/-- `(double)n` for a natural number: 53 binary digits are kept. -/
def toDouble (n : Nat) : Nat :=
  if n < 2 ^ 53 then n else nearest n (2 ^ (n.log2 - 52)) * 2 ^ (n.log2 - 52)

/-- `(Time_t)(a / 1000000.0)` for a double that is the natural number `a` of at most 64 binary digits: the quotient is rounded to 53 binary
digits, then the fraction is cut off. (A quotient below one is at most 0.999999 and is rounded to something below one.) -/
def quotient (a : Nat) : Nat :=
  if a < 1000000 then 0
  else nearest (a * 2 ^ (52 - (a / 1000000).log2)) 1000000 / 2 ^ (52 - (a / 1000000).log2)

/-- `(Time_t)time.to_seconds()` (time.c3 98, datetime.c3 139). -/
def seconds (t : Int) : Int := t.sign * (quotient (toDouble t.natAbs) : Nat)

/-- The loop that drops zeros at the end (time.c3 163); a `long` has at most 19 digits, so 20 rounds are enough. -/
def strip : Nat → Int → Int
  | 0, ms => ms
  | n + 1, ms => if (ms.tdiv 10) * 10 = ms then strip n (ms.tdiv 10) else ms

/-- `str.appendf(format, …)`; what it returns is dropped. -/
def appendf (format : List Byte) (args : List Int) : List Byte :=
  match vprintf format (args.map fun x => .int true 64 (BitVec.ofInt 64 x)) with
  | .ok (s, _) => s
  | .error _ => []

/-- The text that `NanoDuration.to_format` makes (time.c3 125-172), before the last `printf`. -/
def nanoText (nd : Int) : List Byte :=
  let nd := if nd < 0 then wrap64 (-nd) else nd
  if nd < 1000000000 then
    let ms := nd.tdiv 1000000
    let s := if ms > 0 then appendf (txt ['%', 'd', 'm', 's']) [ms] else []
    let nd := if ms > 0 then nd - ms * 1000000 else nd
    let us := nd.tdiv 1000
    let s := s ++ if us > 0 then appendf (txt ['%', 'd'] ++ [0xC2, 0xB5, ch 's']) [us] else []
    let nd := if us > 0 then nd - us * 1000 else nd
    s ++ if nd > 0 then appendf (txt ['%', 'd', 'n', 's']) [nd] else []
  else
    let ms := (nd - nd.tdiv 1000000000 * 1000000000).tdiv 1000000
    let nd := nd.tdiv 1000000000
    let hour := nd.tdiv 3600
    let s := if hour > 0 then appendf (txt ['%', 'd', 'h']) [hour] else []
    let nd := if hour > 0 then nd - hour * 3600 else nd
    let min := nd.tdiv 60
    let s := s ++ if min > 0 then appendf (txt ['%', 'd', 'm']) [min] else []
    let nd := if min > 0 then nd - min * 60 else nd
    s ++ if ms > 0 then appendf (txt ['%', 'd', '.', '%', 'd', 's']) [nd, strip 20 ms]
      else appendf (txt ['%', 'd', 's']) [nd]

/-- `NanoDuration.to_format` (time.c3 117-174). -/
def nano_to_format (nd : Int) : Except Stop (List Byte × Nat) :=
  if nd = 0 then vprintf (txt ['0', 's']) [] else vprintf (nanoText nd) []

/-! ### The C library -/

/-- `timegm`: the seconds of a date whose month is 0..11; days of the month beyond its end are days of the next months. -/
def timegm (sec min hour mday mon : Nat) (year : Int) : Int :=
  ((Std.newYear year + Std.before year mon + (mday - 1 : Int)) * 24 + hour) * 3600 + min * 60 + sec

/-- The year a day is in: a guess from the 146097 days of 400 years, put right. -/
def yearOf (day : Int) : Int :=
  let y := (400 * (day + 719162)) / 146097 + 1
  if day < Std.newYear y then y - 1 else if Std.newYear (y + 1) ≤ day then y + 1 else y

/-- The month that a day of the year is in. -/
def monthOf (y : Int) (yday : Nat) : Nat := (List.range 11).countP fun m => Std.before y (m + 1) ≤ yday

/-- The fields of `DateTime` (time.c3 31-43) but `time` that are taken from `struct tm`. -/
structure Tm where
  sec : Nat
  min : Nat
  hour : Nat
  day : Nat
  month : Nat
  year : Int
  weekday : Nat
  year_day : Nat
  deriving DecidableEq

/-- `gmtime_r`, in the form `set_time` (datetime.c3 140-149) gives it: years not counted from 1900, weekdays from Monday. -/
def gmtime (t : Int) : Tm :=
  let day := t / 86400
  let rest := (t % 86400).toNat
  let y := yearOf day
  let yday := (day - Std.newYear y).toNat
  let m := monthOf y yday
  { sec := rest % 60, min := rest / 60 % 60, hour := rest / 3600, day := yday - Std.before y m + 1, month := m, year := y,
    weekday := ((day + 3) % 7).toNat, year_day := yday }

/-! ### `datetime.c3` -/

/-- `DateTime` (time.c3 31-43). -/
structure DateTime extends Tm where
  usec : Int
  time : Int
  deriving DecidableEq

/-- `TzDateTime` (time.c3 45-49). -/
structure TzDateTime where
  dt : DateTime
  gmt_offset : Int
  deriving DecidableEq

/-- `DateTime.set_time`, `from_time` (datetime.c3 136-151, 203-208). -/
def from_time (time : Int) : DateTime :=
  { gmtime (seconds time) with usec := time.tmod SEC, time := time }

/-- `from_date` and `DateTime.set_date` (datetime.c3 10-22, 114-134); `none` where a contract is violated. -/
def from_date (year : Int) (month day hour min sec : Nat) (us : Int) : Option DateTime :=
  if month < 12 ∧ 1 ≤ day ∧ day < 32 ∧ hour < 24 ∧ min < 60 ∧ sec < 60 ∧ 0 ≤ us ∧ us ≤ 999999 then
    some (from_time (wrap64 (timegm sec min hour day month (wrap32 (year - 1900) + 1900) * SEC + us)))
  else none

/-- The contract on offsets (datetime.c3 65-68, 77-80, 90-93, 103-106, format.c3 72-75). -/
def goodOffset (o : Int) : Bool := -12 * 3600 ≤ o && o ≤ 14 * 3600

/-- `TzDateTime.with_gmt_offset` (datetime.c3 80-84). -/
def TzDateTime.with_gmt_offset (self : TzDateTime) (o : Int) : Option TzDateTime :=
  if goodOffset o then
    some ⟨{ self.dt with time := wrap64 (self.dt.time - (o - self.gmt_offset) * SEC) }, o⟩
  else none

/-- `DateTime.with_gmt_offset` (datetime.c3 68-72). -/
def DateTime.with_gmt_offset (self : DateTime) (o : Int) : Option TzDateTime :=
  TzDateTime.with_gmt_offset ⟨self, 0⟩ o

/-- `TzDateTime.to_gmt_offset` (datetime.c3 106-112). -/
def TzDateTime.to_gmt_offset (self : TzDateTime) (o : Int) : Option TzDateTime :=
  if goodOffset o then
    if self.gmt_offset = o then some self
    else some ⟨{ from_time (wrap64 (self.dt.time + o * SEC)) with time := self.dt.time }, o⟩
  else none

/-- `DateTime.to_gmt_offset` (datetime.c3 93-97). -/
def DateTime.to_gmt_offset (self : DateTime) (o : Int) : Option TzDateTime :=
  TzDateTime.to_gmt_offset ⟨self, 0⟩ o

/-- `DateTime.add_seconds`, `add_minutes`, `add_hours`, `add_days`, `add_weeks` (datetime.c3 153-157, time.c3 84-88), for
the unit `u` in microseconds. -/
def DateTime.add (u : Int) (self : DateTime) (n : Int) : DateTime :=
  from_time (wrap64 (self.time + wrap64 (n * u)))

/-- `DateTime.add_years` (datetime.c3 159-163). -/
def DateTime.add_years (self : DateTime) (years : Int) : Option DateTime :=
  if years = 0 then some self
  else from_date (wrap32 (self.year + years)) self.month self.day self.hour self.min self.sec self.usec

/-- `DateTime.add_months` (datetime.c3 165-188); `none` also where `Month.from_ordinal` gets no ordinal of a month. -/
def DateTime.add_months (self : DateTime) (months : Int) : Option DateTime :=
  if months = 0 then some self
  else
    let (year, month) : Int × Int :=
      if months.tmod 12 = 0 then (wrap32 (self.year + months.tdiv 12), (self.month : Int))
      else if months < 0 then
        let month := (self.month : Int) + months.tmod 12
        let year := wrap32 (self.year + months.tdiv 12)
        if month < 0 then (wrap32 (year - 1), month + 12) else (year, month)
      else
        let month := wrap32 (self.month + months)
        (wrap32 (self.year + month.tdiv 12), month.tmod 12)
    if 0 ≤ month ∧ month < 12 then
      from_date year month.toNat self.day self.hour self.min self.sec self.usec
    else none

/-- `TzDateTime.add_seconds` to `add_weeks` (datetime.c3 191-195). -/
def TzDateTime.add (u : Int) (self : TzDateTime) (n : Int) : Option TzDateTime :=
  (self.dt.add u n).to_gmt_offset self.gmt_offset

/-- `TzDateTime.add_years` (datetime.c3 197). -/
def TzDateTime.add_years (self : TzDateTime) (n : Int) : Option TzDateTime := do
  (← self.dt.add_years n).with_gmt_offset self.gmt_offset

/-- `TzDateTime.add_months` (datetime.c3 198). -/
def TzDateTime.add_months (self : TzDateTime) (n : Int) : Option TzDateTime := do
  (← self.dt.add_months n).with_gmt_offset self.gmt_offset

/-- `DateTime.diff_years` (datetime.c3 235-245); the call with the arguments exchanged is written out. -/
def DateTime.diff_years (self src : DateTime) : Int :=
  if self.year - src.year < 0 then
    -(if src.year_day < self.year_day then src.year - self.year - 1 else src.year - self.year)
  else if self.year - src.year = 0 then 0
  else if self.year_day < src.year_day then self.year - src.year - 1
  else self.year - src.year

/-! ### `format.c3` -/

/-- `DateTimeFormat` (format.c3 3-20). -/
inductive DateTimeFormat where
  | ANSIC | UNIXDATE | RUBYDATE | RFC822 | RFC822Z | RFC850 | RFC1123 | RFC1123Z | RFC3339 | RFC3339Z | RFC3339MS
  | RFC3339ZMS | DATETIME | DATEONLY | TIMEONLY
  deriving DecidableEq

/-- `Weekday.name` (time.c3 51-60). -/
def weekdayName : Nat → List Char
  | 0 => ['M', 'o', 'n', 'd', 'a', 'y']
  | 1 => ['T', 'u', 'e', 's', 'd', 'a', 'y']
  | 2 => ['W', 'e', 'd', 'n', 'e', 's', 'd', 'a', 'y']
  | 3 => ['T', 'h', 'u', 'r', 's', 'd', 'a', 'y']
  | 4 => ['F', 'r', 'i', 'd', 'a', 'y']
  | 5 => ['S', 'a', 't', 'u', 'r', 'd', 'a', 'y']
  | _ => ['S', 'u', 'n', 'd', 'a', 'y']

/-- `Weekday.abbrev`. -/
def weekdayAbbrev : Nat → List Char
  | 0 => ['M', 'o', 'n']
  | 1 => ['T', 'u', 'e']
  | 2 => ['W', 'e', 'd']
  | 3 => ['T', 'h', 'u']
  | 4 => ['F', 'r', 'i']
  | 5 => ['S', 'a', 't']
  | _ => ['S', 'u', 'n']

/-- `Month.abbrev` (time.c3 62-76). -/
def monthAbbrev : Nat → List Char
  | 0 => ['J', 'a', 'n']
  | 1 => ['F', 'e', 'b']
  | 2 => ['M', 'a', 'r']
  | 3 => ['A', 'p', 'r']
  | 4 => ['M', 'a', 'y']
  | 5 => ['J', 'u', 'n']
  | 6 => ['J', 'u', 'l']
  | 7 => ['A', 'u', 'g']
  | 8 => ['S', 'e', 'p']
  | 9 => ['O', 'c', 't']
  | 10 => ['N', 'o', 'v']
  | _ => ['D', 'e', 'c']

/-- A `String` argument of `printf`. -/
def str (s : List Char) : Arg := .str (txt s)
/-- A `char`. -/
def chr (n : Nat) : Arg := .int false 8 (BitVec.ofNat 8 n)
/-- An `int`. -/
def int (n : Int) : Arg := .int true 32 (BitVec.ofInt 32 n)

/-- `string::format`, `tformat`: the text that is printed. -/
def text (r : Except Stop (List Byte × Nat)) : Except Stop (List Byte) :=
  match r with
  | .ok (s, _) => .ok s
  | .error e => .error e

/-- `temp_numeric_tzsuffix` (format.c3 72-78) and, with the colon, `temp_numeric_tzsuffix_colon` (format.c3 80-88). -/
def tzsuffix (colon : List Char) (o : Int) : Except Stop (List Byte) :=
  if ¬ goodOffset o then .error .panic
  else if o = 0 then .ok (txt (['-', '0', '0'] ++ colon ++ ['0', '0']))
  else text (vprintf (txt (['%', '+', '0', '3', 'd'] ++ colon ++ ['%', '0', '2', 'd'])) [int (o.tdiv 3600), int ((o.tmod 3600).tdiv 60)])

/-- `%02d:%02d:%02d`. -/
def clockFormat : List Char := ['%', '0', '2', 'd', ':', '%', '0', '2', 'd', ':', '%', '0', '2', 'd']
/-- `%04d-%02d-%02d`. -/
def dateFormat : List Char := ['%', '0', '4', 'd', '-', '%', '0', '2', 'd', '-', '%', '0', '2', 'd']

/-- The arguments for `clockFormat` (format.c3 31-60). -/
def clockArgs (d : DateTime) : List Arg := [chr d.hour, chr d.min, chr d.sec]
/-- The arguments for `dateFormat` (format.c3 44-60). -/
def dateArgs (d : DateTime) : List Arg := [int d.year, int (d.month + 1), chr d.day]

/-- `format` (format.c3 23-63). -/
def format (type : DateTimeFormat) (dt : TzDateTime) : Except Stop (List Byte) := do
  let d := dt.dt
  let gmt : Except Stop DateTime := match dt.to_gmt_offset 0 with | some t => .ok t.dt | none => .error .panic
  match type with
  | .ANSIC =>
    text (vprintf (txt (['%', 's', ' ', '%', 's', ' ', '%', '2', 'd', ' '] ++ clockFormat ++ [' ', '%', '0', '4', 'd']))
      ([str (weekdayAbbrev d.weekday), str (monthAbbrev d.month), chr d.day] ++ clockArgs d ++ [int d.year]))
  | .UNIXDATE =>
    text (vprintf (txt (['%', 's', ' ', '%', 's', ' ', '%', '2', 'd', ' '] ++ clockFormat ++ [' ', 'G', 'M', 'T', ' ', '%', '0', '4', 'd']))
      ([str (weekdayAbbrev d.weekday), str (monthAbbrev d.month), chr d.day] ++ clockArgs d ++ [int d.year]))
  | .RUBYDATE =>
    let z ← tzsuffix [] dt.gmt_offset
    text (vprintf (txt (['%', 's', ' ', '%', 's', ' ', '%', '2', 'd', ' '] ++ clockFormat ++ [' ', '%', 's', ' ', '%', '0', '4', 'd']))
      ([str (weekdayAbbrev d.weekday), str (monthAbbrev d.month), chr d.day] ++ clockArgs d ++ [.str z, int d.year]))
  | .RFC822 =>
    let d ← gmt
    text (vprintf (txt ['%', '0', '2', 'd', ' ', '%', 's', ' ', '%', '0', '2', 'd', ' ', '%', '0', '2', 'd', ':', '%', '0', '2', 'd', ' ', 'G', 'M', 'T'])
      [chr d.day, str (monthAbbrev d.month), int (d.year.tmod 100), chr d.hour, chr d.min])
  | .RFC822Z =>
    let z ← tzsuffix [] dt.gmt_offset
    text (vprintf (txt ['%', '0', '2', 'd', ' ', '%', 's', ' ', '%', '0', '2', 'd', ' ', '%', '0', '2', 'd', ':', '%', '0', '2', 'd', ' ', '%', 's'])
      [chr d.day, str (monthAbbrev d.month), int (d.year.tmod 100), chr d.hour, chr d.min, .str z])
  | .RFC850 =>
    let d ← gmt
    text (vprintf (txt (['%', 's', ',', ' ', '%', '0', '2', 'd', '-', '%', 's', '-', '%', '0', '2', 'd', ' '] ++ clockFormat ++ [' ', 'G', 'M', 'T']))
      ([str (weekdayName d.weekday), chr d.day, str (monthAbbrev d.month), int (d.year.tmod 100)] ++ clockArgs d))
  | .RFC1123 =>
    let d ← gmt
    text (vprintf (txt (['%', 's', ',', ' ', '%', '0', '2', 'd', ' ', '%', 's', ' ', '%', 'd', ' '] ++ clockFormat ++ [' ', 'G', 'M', 'T']))
      ([str (weekdayAbbrev d.weekday), chr d.day, str (monthAbbrev d.month), int d.year] ++ clockArgs d))
  | .RFC1123Z =>
    let z ← tzsuffix [] dt.gmt_offset
    text (vprintf (txt (['%', 's', ',', ' ', '%', '0', '2', 'd', ' ', '%', 's', ' ', '%', 'd', ' '] ++ clockFormat ++ [' ', '%', 's']))
      ([str (weekdayAbbrev d.weekday), chr d.day, str (monthAbbrev d.month), int d.year] ++ clockArgs d ++ [.str z]))
  | .RFC3339 =>
    let d ← gmt
    text (vprintf (txt (dateFormat ++ ['T'] ++ clockFormat ++ ['Z'])) (dateArgs d ++ clockArgs d))
  | .RFC3339Z =>
    let z ← tzsuffix [':'] dt.gmt_offset
    text (vprintf (txt (dateFormat ++ ['T'] ++ clockFormat ++ ['%', 's'])) (dateArgs d ++ clockArgs d ++ [.str z]))
  | .RFC3339MS =>
    let d ← gmt
    text (vprintf (txt (dateFormat ++ ['T'] ++ clockFormat ++ ['.', '%', 'd', 'Z'])) (dateArgs d ++ clockArgs d ++ [int d.usec]))
  | .RFC3339ZMS =>
    let z ← tzsuffix [':'] dt.gmt_offset
    text (vprintf (txt (dateFormat ++ ['T'] ++ clockFormat ++ ['.', '%', 'd', '%', 's'])) (dateArgs d ++ clockArgs d ++ [int d.usec, .str z]))
  | .DATETIME => text (vprintf (txt (dateFormat ++ [' '] ++ clockFormat)) (dateArgs d ++ clockArgs d))
  | .DATEONLY => text (vprintf (txt dateFormat) (dateArgs d))
  | .TIMEONLY => text (vprintf (txt clockFormat) (clockArgs d))

end C3.Time
