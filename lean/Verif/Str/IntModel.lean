import Verif.Codec.Model

/-!
# Model of `String.to_integer`, `lib/std/core/string.c3` 699–770

The index into the string is kept as the rest of the string behind it, so that every access is at the head of a list that
is not empty.  `to_int` and its like are `to_integer` at the type of their name.
-/

set_option autoImplicit false

namespace C3.Str
open C3.Codec

/-- An integer type: `$Type`. -/
structure Ty where
  bits : Nat
  signed : Bool
deriving DecidableEq, Repr

/-- `$Type.min` and `$Type.max`. -/
def Ty.min (t : Ty) : Int := if t.signed then -2 ^ (t.bits - 1) else 0
def Ty.max (t : Ty) : Int := if t.signed then 2 ^ (t.bits - 1) - 1 else 2 ^ t.bits - 1

/-- The value of the type that is congruent to `v`: arithmetic wraps.  Types below `int` compute in `int`, where nothing
wraps, and the assignment to `$Type new_value` cuts to the same value. -/
def Ty.wrap (t : Ty) (v : Int) : Int :=
  if t.signed then (v + 2 ^ (t.bits - 1)) % 2 ^ t.bits - 2 ^ (t.bits - 1) else v % 2 ^ t.bits

/-- The faults of the function, string.c3 12–14. -/
inductive IntFault where
  | EMPTY_STRING | NEGATIVE_VALUE | MALFORMED_INTEGER | INTEGER_OVERFLOW
deriving DecidableEq, Repr

/-- `is_blank_m`, ascii.c3 16. -/
def is_blank (c : BitVec 8) : Bool := c = 0x20#8 || c = 0x9#8

/-- The loop over blanks, 704. -/
def skipBlank : List (BitVec 8) → List (BitVec 8)
  | [] => []
  | c :: s => if is_blank c then skipBlank s else c :: s

/-- The sign, 706–717: whether it is negative, and what follows. -/
def sign (t : Ty) : List (BitVec 8) → Except IntFault (Bool × List (BitVec 8))
  | [] => .error .EMPTY_STRING
  | c :: s =>
    if c = 45#8 then if t.min = 0 then .error .NEGATIVE_VALUE else .ok (true, s)
    else if c = 43#8 then .ok (false, s)
    else .ok (false, c :: s)

/-- `x`, `b` or `o` behind a zero, 725–741: the base, and what follows. -/
def radix (base : Nat) : List (BitVec 8) → Nat × List (BitVec 8)
  | [] => (base, [])
  | c :: s =>
    if c = 120#8 || c = 88#8 then (16, s)
    else if c = 98#8 || c = 66#8 then (2, s)
    else if c = 111#8 || c = 79#8 then (8, s)
    else (base, c :: s)

/-- One digit, 748–755, in the arithmetic of `char`. -/
def digit (base_used : Nat) (c : BitVec 8) : Except IntFault Nat :=
  if base_used ≠ 16 || c.toNat < 65 then check (c - 48#8)
  else if c.toNat ≤ 70 then check (c - 55#8)
  else if c.toNat < 97 || c.toNat > 102 then .error .MALFORMED_INTEGER
  else check (c - 87#8)
where
  check (c : BitVec 8) : Except IntFault Nat :=
    if c.toNat ≥ base_used then .error .MALFORMED_INTEGER else .ok c.toNat

/-- The loop over the digits, 745–768. -/
def digits (t : Ty) (base_used : Nat) (neg : Bool) : List (BitVec 8) → Int → Except IntFault Int
  | [], value => .ok value
  | c :: s, value =>
    match digit base_used c with
    | .error f => .error f
    | .ok d =>
      if neg then
        let new_value := t.wrap (value * base_used - d)
        if new_value > value then .error .INTEGER_OVERFLOW else digits t base_used neg s new_value
      else
        let new_value := t.wrap (value * base_used + d)
        if new_value < value then .error .INTEGER_OVERFLOW else digits t base_used neg s new_value

/-- `String.to_integer`, string.c3 699–770. -/
def to_integer (t : Ty) (base : Nat) (self : List (BitVec 8)) : Except IntFault Int :=
  match sign t (skipBlank self) with
  | .error f => .error f
  | .ok (neg, s) =>
    match s with
    | [] => .error .MALFORMED_INTEGER
    | c :: s =>
      if c = 48#8 && base = 10 then
        if s = [] then .ok 0
        else
          match radix base s with
          | (_, []) => .error .MALFORMED_INTEGER
          | (base_used, s) => digits t base_used neg s 0
      else digits t base neg (c :: s) 0

end C3.Str
