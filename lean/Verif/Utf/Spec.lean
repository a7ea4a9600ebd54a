import Mathlib.Init

/-!
# Specification of the Unicode encoding forms, on numbers

The Unicode Standard, section 3.9: scalar values, UTF-8 (table 3-6) and UTF-16 (table 3-5).
-/

set_option autoImplicit false

namespace C3.Utf

/-- Unicode scalar values: code points other than surrogates. -/
def IsScalar (n : Nat) : Prop := n < 0xD800 ∨ (0xE000 ≤ n ∧ n < 0x110000)

instance : DecidablePred IsScalar := fun n =>
  inferInstanceAs (Decidable (n < 0xD800 ∨ (0xE000 ≤ n ∧ n < 0x110000)))

/-- The form with `w` bytes, for numbers it can hold: a lead byte with the upper bits and `w - 1`
continuation bytes with six bits each. -/
def form8 (w n : Nat) : List Nat :=
  match w with
  | 1 => [n]
  | 2 => [0xC0 + n / 64, 0x80 + n % 64]
  | 3 => [0xE0 + n / 4096, 0x80 + n / 64 % 64, 0x80 + n % 64]
  | _ => [0xF0 + n / 262144, 0x80 + n / 4096 % 64, 0x80 + n / 64 % 64, 0x80 + n % 64]

/-- The numbers a form of `w` bytes can hold are those below this. -/
def cap8 (w : Nat) : Nat := match w with | 1 => 0x80 | 2 => 0x800 | 3 => 0x10000 | _ => 0x200000

/-- The least number of bytes that can hold `n`. -/
def width8 (n : Nat) : Nat := if n < 0x80 then 1 else if n < 0x800 then 2 else if n < 0x10000 then 3 else 4

/-- UTF-8: the shortest form. -/
def utf8 (n : Nat) : List Nat := form8 (width8 n) n

/-- UTF-16. -/
def utf16 (n : Nat) : List Nat :=
  if n < 0x10000 then [n] else [0xD800 + (n - 0x10000) / 1024, 0xDC00 + (n - 0x10000) % 1024]

/-- The units of a text as numbers. -/
def nums {w : Nat} (us : List (BitVec w)) : List Nat := us.map BitVec.toNat

/-- Cells that are all initialised, with these numbers. -/
def Filled {w : Nat} (cells : List (Option (BitVec w))) (ns : List Nat) : Prop :=
  cells.map (Option.map BitVec.toNat) = ns.map some

end C3.Utf
