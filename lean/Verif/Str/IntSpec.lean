import Verif.Str.IntModel
import Verif.Hex.Spec

/-!
# Texts of integers

Of the model only `Ty` with `min` and `max` is used.
-/

set_option autoImplicit false

namespace C3.Str.Spec
open C3.Codec

/-- The digits `s` in base `b` have the value `n`. -/
inductive Digits (b : Nat) : List Byte → Nat → Prop where
  | one (c : Byte) (v : Nat) : Hex.digitVal c = some v → v < b → Digits b [c] v
  | more (s : List Byte) (n : Nat) (c : Byte) (v : Nat) : Digits b s n → Hex.digitVal c = some v → v < b →
      Digits b (s ++ [c]) (n * b + v)

/-- Digits; behind `0x`, `0b` and `0o` those of base 16, 2 and 8, where the base is 10 otherwise.  `b` is the base of the digits. -/
inductive Body (base : Nat) : Nat → List Byte → Nat → Prop where
  | plain (s : List Byte) (n : Nat) : Digits base s n → Body base base s n
  | hex (x : Byte) (s : List Byte) (n : Nat) : base = 10 → x ∈ ascii ['x', 'X'] → Digits 16 s n →
      Body base 16 (48#8 :: x :: s) n
  | bin (x : Byte) (s : List Byte) (n : Nat) : base = 10 → x ∈ ascii ['b', 'B'] → Digits 2 s n →
      Body base 2 (48#8 :: x :: s) n
  | oct (x : Byte) (s : List Byte) (n : Nat) : base = 10 → x ∈ ascii ['o', 'O'] → Digits 8 s n →
      Body base 8 (48#8 :: x :: s) n

/-- `Reads base b s v`: blanks, a sign, and a body. -/
def Reads (base b : Nat) (s : List Byte) (v : Int) : Prop :=
  ∃ w sg body n, s = w ++ (sg ++ body) ∧ (∀ c ∈ w, c ∈ ascii [' ', '\t']) ∧ Body base b body n ∧
    ((sg ∈ [[], ascii ['+']] ∧ v = n) ∨ (sg = ascii ['-'] ∧ v = -n))

/-- The value is one of the type. -/
def Fits (t : Ty) (v : Int) : Prop := t.min ≤ v ∧ v ≤ t.max

/-- The bases the function may be called with. -/
def BaseOk (base : Nat) : Prop := (2 ≤ base ∧ base ≤ 10) ∨ base = 16

end C3.Str.Spec
