import Verif.Fmt.Spec
/-
Texts of addresses (RFC 4291 section 2.2, dotted decimal) and the blocks of addresses with a meaning
(RFC 1122, 1918, 2365, 3927, 4291, 5771).
-/
set_option autoImplicit false

namespace C3.Inet.Std
open C3.Fmt (Byte ch)

/-- The value of a decimal digit. -/
def decDigit (c : Byte) : Option Nat := if 48 ≤ c.toNat ∧ c.toNat ≤ 57 then some (c.toNat - 48) else none

/-- The value of a hexadecimal digit. -/
def hexDigit (c : Byte) : Option Nat :=
  if 48 ≤ c.toNat ∧ c.toNat ≤ 57 then some (c.toNat - 48)
  else if 97 ≤ c.toNat ∧ c.toNat ≤ 102 then some (c.toNat - 87)
  else if 65 ≤ c.toNat ∧ c.toNat ≤ 70 then some (c.toNat - 55)
  else none

/-- Only digits. -/
def AllDigits (digit : Byte → Option Nat) (s : List Byte) : Prop := ∀ c ∈ s, digit c ≠ none

/-- The number a sequence of digits stands for. -/
def value (digit : Byte → Option Nat) (base : Nat) (s : List Byte) : Nat :=
  s.foldl (fun n c => n * base + (digit c).getD 0) 0

/-- A decimal numeral of a number of 8 bits. -/
def Octet (s : List Byte) (v : Byte) : Prop :=
  s ≠ [] ∧ AllDigits decDigit s ∧ value decDigit 10 s = v.toNat

/-- The text `a.b.c.d`. -/
def Quad (s : List Byte) (a b c d : Byte) : Prop :=
  ∃ A B C D, Octet A a ∧ Octet B b ∧ Octet C c ∧ Octet D d ∧
    s = A ++ ch '.' :: (B ++ ch '.' :: (C ++ ch '.' :: D))

/-- A hexadecimal numeral of at most `len` digits of a number of 16 bits. -/
def Group (len : Nat) (s : List Byte) (v : BitVec 16) : Prop :=
  s ≠ [] ∧ s.length ≤ len ∧ AllDigits hexDigit s ∧ value hexDigit 16 s = v.toNat

/-- Groups separated by colons. -/
inductive Groups (len : Nat) : List Byte → List (BitVec 16) → Prop where
  | one (s : List Byte) (v : BitVec 16) : Group len s v → Groups len s [v]
  | more (s t : List Byte) (v : BitVec 16) (vs : List (BitVec 16)) :
    Group len s v → Groups len t vs → Groups len (s ++ ch ':' :: t) (v :: vs)

/-- As above, or nothing at all. -/
def Groups0 (len : Nat) (s : List Byte) (vs : List (BitVec 16)) : Prop :=
  (s = [] ∧ vs = []) ∨ Groups len s vs

/-- RFC 4291 section 2.2: eight groups, or groups around a `::` that stands for at least `least`
groups of zeros. -/
inductive Text6 (len least : Nat) : List Byte → List (BitVec 16) → Prop where
  | full (s : List Byte) (vs : List (BitVec 16)) : Groups len s vs → vs.length = 8 → Text6 len least s vs
  | short (s t : List Byte) (vs ws : List (BitVec 16)) (z : Nat) :
    Groups0 len s vs → Groups0 len t ws → least ≤ z → vs.length + z + ws.length = 8 →
    Text6 len least (s ++ ch ':' :: ch ':' :: t) (vs ++ List.replicate z 0 ++ ws)

/-- Between two occurrences of `sep` there are at most `n` characters. -/
def NoLong (n : Nat) (sep : Byte) (s : List Byte) : Prop :=
  ∀ a g b, s = a ++ g ++ b → sep ∉ g → g.length ≤ n

/-- The address `v` of `w` bits is in the block `net/len`. -/
def InBlock (w net len v : Nat) : Prop := v / 2 ^ (w - len) = net / 2 ^ (w - len)

instance (w net len v : Nat) : Decidable (InBlock w net len v) :=
  inferInstanceAs (Decidable (_ = _))

end C3.Inet.Std
