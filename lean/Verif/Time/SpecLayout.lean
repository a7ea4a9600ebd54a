import Verif.Time.Model

/-! The layouts that the comments of `DateTimeFormat` (format.c3 4-21) promise, in the notation of the reference time. -/

set_option autoImplicit false

namespace C3.Time
open Std

def clock : List Elem := [.n15, .is ':', .n04, .is ':', .n05]
def GMT : List Elem := [.is 'G', .is 'M', .is 'T']

def layout : DateTimeFormat → List Elem
  | .ANSIC => [.Mon, .is ' ', .Jan, .is ' ', ._2, .is ' '] ++ clock ++ [.is ' ', .n2006]
  | .UNIXDATE => [.Mon, .is ' ', .Jan, .is ' ', ._2, .is ' '] ++ clock ++ [.is ' '] ++ GMT ++ [.is ' ', .n2006]
  | .RUBYDATE => [.Mon, .is ' ', .Jan, .is ' ', .n02, .is ' '] ++ clock ++ [.is ' ', .n0700, .is ' ', .n2006]
  | .RFC822 => [.n02, .is ' ', .Jan, .is ' ', .n06, .is ' ', .n15, .is ':', .n04, .is ' '] ++ GMT
  | .RFC822Z => [.n02, .is ' ', .Jan, .is ' ', .n06, .is ' ', .n15, .is ':', .n04, .is ' ', .n0700]
  | .RFC850 => [.Monday, .is ',', .is ' ', .n02, .is '-', .Jan, .is '-', .n06, .is ' '] ++ clock ++ [.is ' '] ++ GMT
  | .RFC1123 => [.Mon, .is ',', .is ' ', .n02, .is ' ', .Jan, .is ' ', .n2006, .is ' '] ++ clock ++ [.is ' '] ++ GMT
  | .RFC1123Z => [.Mon, .is ',', .is ' ', .n02, .is ' ', .Jan, .is ' ', .n2006, .is ' '] ++ clock ++ [.is ' ', .n0700]
  | .RFC3339 => [.n2006, .is '-', .n01, .is '-', .n02, .is 'T'] ++ clock ++ [.is 'Z']
  | .RFC3339Z => [.n2006, .is '-', .n01, .is '-', .n02, .is 'T'] ++ clock ++ [.n07_00]
  | .RFC3339MS => [.n2006, .is '-', .n01, .is '-', .n02, .is 'T'] ++ clock ++ [.is '.', .n999999, .is 'Z']
  | .RFC3339ZMS => [.n2006, .is '-', .n01, .is '-', .n02, .is 'T'] ++ clock ++ [.is '.', .n999999, .n07_00]
  | .DATETIME => [.n2006, .is '-', .n01, .is '-', .n02, .is ' '] ++ clock
  | .DATEONLY => [.n2006, .is '-', .n01, .is '-', .n02]
  | .TIMEONLY => clock

/-- The formats that say the time is universal time. -/
def universal : DateTimeFormat → Bool
  | .UNIXDATE | .RFC822 | .RFC850 | .RFC1123 | .RFC3339 | .RFC3339MS => true
  | _ => false

end C3.Time
