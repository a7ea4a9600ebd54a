import Verif.Fmt.Spec

/-! # The calendar, and the texts of dates and durations

The proleptic Gregorian calendar as ISO 8601 has it: the year 0 is a leap year, years before it are negative.
Of the models only the digits and bytes of `printf` are used. -/

set_option autoImplicit false

namespace C3.Time.Std
open C3.Fmt (Byte ch txt)
open C3.Fmt.Std (numeral zeros spaces)

def leap (y : Int) : Bool := y % 4 = 0 && (y % 100 ≠ 0 || y % 400 = 0)

def yearDays (y : Int) : Int := if leap y then 366 else 365

/-- Months are counted from 0. -/
def monthDays (y : Int) (m : Nat) : Nat :=
  match m with
  | 1 => if leap y then 29 else 28
  | 3 | 5 | 8 | 10 => 30
  | _ => 31

/-- The days of the year before the month. -/
def before (y : Int) (m : Nat) : Nat := ((List.range m).map (monthDays y)).sum

/-- The days from 1 January 1970 to 1 January of the year: 365 for every year and one more for every leap year. That this is
so is `newYear_zero` and `newYear_succ`. -/
def newYear (y : Int) : Int := 365 * (y - 1970) + ((y - 1) / 4 - (y - 1) / 100 + (y - 1) / 400) - 477

/-- The days from 1 January 1970 to a date. -/
def dayNumber (y : Int) (m d : Nat) : Int := newYear y + before y m + (d - 1)

/-- A day of the calendar. -/
def Date (y : Int) (m d : Nat) : Prop := m < 12 ∧ 1 ≤ d ∧ d ≤ monthDays y m

/-- A time of day. -/
def Clock (h mi s : Nat) (us : Int) : Prop := h < 24 ∧ mi < 60 ∧ s < 60 ∧ 0 ≤ us ∧ us < 1000000

/-- Microseconds from the beginning of 1970 to a date and time of day. -/
def stamp (y : Int) (m d h mi s : Nat) (us : Int) : Int :=
  (((dayNumber y m d * 24 + h) * 60 + mi) * 60 + s) * 1000000 + us

/-- The day of the week from Monday: 1 January 1970 was a Thursday. -/
def weekday (day : Int) : Int := (day + 3) % 7

/-- Whole years from one day to another that is not before it. -/
def wholeYears (y : Int) (m d : Nat) (y' : Int) (m' d' : Nat) : Int :=
  if m' < m ∨ m' = m ∧ d' < d then y' - y - 1 else y' - y

/-! ### Durations -/

/-- The value of a list of decimal digits, if it is one. -/
def value (s : List Byte) : Nat := s.foldl (fun v c => 10 * v + (c.toNat - 48)) 0

/-- The digits of a fraction of a second stand for so many thousandths. -/
def Fraction (s : List Byte) (ms : Nat) : Prop :=
  s ≠ [] ∧ s.length ≤ 3 ∧ (∀ c ∈ s, 48 ≤ c.toNat ∧ c.toNat ≤ 57) ∧ value s * 10 ^ (3 - s.length) = ms

def unit (k : Nat) (u : List Byte) : List Byte := if k = 0 then [] else numeral 10 false k ++ u

/-- What stands for a number of nanoseconds: below a second exactly, else down to thousandths of a second. -/
inductive Duration : Nat → List Byte → Prop
  | short (ms us ns : Nat) : ms < 1000 → us < 1000 → ns < 1000 →
      Duration (ms * 1000000 + us * 1000 + ns)
        (unit ms (txt ['m', 's']) ++ unit us [0xC2, 0xB5, ch 's'] ++ unit ns (txt ['n', 's']))
  | whole (h m s ns : Nat) : m < 60 → s < 60 → ns < 1000000 → 0 < (h * 60 + m) * 60 + s →
      Duration (((h * 60 + m) * 60 + s) * 1000000000 + ns)
        (unit h [ch 'h'] ++ unit m [ch 'm'] ++ numeral 10 false s ++ [ch 's'])
  | parts (h m s ms ns : Nat) (f : List Byte) : m < 60 → s < 60 → 0 < ms → ms < 1000 → ns < 1000000 →
      0 < (h * 60 + m) * 60 + s → Fraction f ms →
      Duration (((h * 60 + m) * 60 + s) * 1000000000 + ms * 1000000 + ns)
        (unit h [ch 'h'] ++ unit m [ch 'm'] ++ numeral 10 false s ++ ch '.' :: f ++ [ch 's'])

/-! ### Dates -/

/-- A number in a field filled with zeros. -/
def padded (w : Nat) (n : Nat) : List Byte := zeros (w - (numeral 10 false n).length) ++ numeral 10 false n

/-- Sign, hours and minutes of an offset in seconds. Universal time is `-0000`: RFC 2822 and RFC 3339 have this for a time whose
local offset is not known. -/
def offset (colon : List Byte) (o : Int) : List Byte :=
  (if o ≤ 0 then ch '-' else ch '+') :: padded 2 (o.natAbs / 3600) ++ colon ++ padded 2 (o.natAbs % 3600 / 60)

def weekdays : List (List Char) := [['M', 'o', 'n', 'd', 'a', 'y'], ['T', 'u', 'e', 's', 'd', 'a', 'y'],
  ['W', 'e', 'd', 'n', 'e', 's', 'd', 'a', 'y'], ['T', 'h', 'u', 'r', 's', 'd', 'a', 'y'], ['F', 'r', 'i', 'd', 'a', 'y'],
  ['S', 'a', 't', 'u', 'r', 'd', 'a', 'y'], ['S', 'u', 'n', 'd', 'a', 'y']]

def months : List (List Char) := [['J', 'a', 'n', 'u', 'a', 'r', 'y'], ['F', 'e', 'b', 'r', 'u', 'a', 'r', 'y'],
  ['M', 'a', 'r', 'c', 'h'], ['A', 'p', 'r', 'i', 'l'], ['M', 'a', 'y'], ['J', 'u', 'n', 'e'], ['J', 'u', 'l', 'y'],
  ['A', 'u', 'g', 'u', 's', 't'], ['S', 'e', 'p', 't', 'e', 'm', 'b', 'e', 'r'], ['O', 'c', 't', 'o', 'b', 'e', 'r'],
  ['N', 'o', 'v', 'e', 'm', 'b', 'e', 'r'], ['D', 'e', 'c', 'e', 'm', 'b', 'e', 'r']]

/-- A date as people see it. -/
structure Look where
  year : Nat
  month : Nat
  day : Nat
  hour : Nat
  min : Nat
  sec : Nat
  usec : Nat
  weekday : Nat
  offset : Int

/-- The elements of a layout, named after what the reference time Monday 2006-01-02 15:04:05.999999 -0700 shows. -/
inductive Elem where
  | Mon | Monday | Jan | n01 | n02 | _2 | n15 | n04 | n05 | n06 | n2006 | n999999 | n0700 | n07_00
  | is (c : Char)
  deriving DecidableEq

def Elem.show (l : Look) : Elem → List Byte
  | .Mon => txt ((weekdays.getD l.weekday []).take 3)
  | .Monday => txt (weekdays.getD l.weekday [])
  | .Jan => txt ((months.getD l.month []).take 3)
  | .n01 => padded 2 (l.month + 1)
  | .n02 => padded 2 l.day
  | ._2 => spaces (2 - (numeral 10 false l.day).length) ++ numeral 10 false l.day
  | .n15 => padded 2 l.hour
  | .n04 => padded 2 l.min
  | .n05 => padded 2 l.sec
  | .n06 => padded 2 (l.year % 100)
  | .n2006 => padded 4 l.year
  | .n999999 => padded 6 l.usec
  | .n0700 => offset [] l.offset
  | .n07_00 => offset [ch ':'] l.offset
  | .is c => [ch c]

end C3.Time.Std
