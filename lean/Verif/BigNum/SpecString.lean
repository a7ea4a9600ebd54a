import Verif.BigNum.Spec

/-! # Numerals -/

set_option autoImplicit false

namespace C3.BigNum

/-- The number that digits stand for, highest first. -/
def horner (radix : Nat) (ds : List Nat) : Nat := ds.foldl (fun v d => v * radix + d) 0

/-- The byte of a digit: `0` to `9`, `A` to `Z`. -/
def charOf (d : Nat) : Nat := if d < 10 then d + 48 else d + 55

/-- What a byte is as a digit; both cases count. -/
def IsDigit (c d : Nat) : Prop := d < 36 ∧ (c = charOf d ∨ (10 ≤ d ∧ c = d + 87))

/-- `s` is the numeral of `x`: a minus sign if it is negative, then its digits,
without zeros in front. -/
def Numeral (radix : Nat) (x : Int) (s : List Nat) : Prop :=
  ∃ ds : List Nat, s = (if x < 0 then [45] else []) ++ ds.map charOf ∧ (∀ d ∈ ds, d < radix) ∧
    ds ≠ [] ∧ horner radix ds = x.natAbs ∧ (ds.length > 1 → ds.headD 0 ≠ 0)

/-- The bytes `s` are the digits `ds` in the radix. -/
inductive Digits (radix : Nat) : List Nat → List Nat → Prop
  | nil : Digits radix [] []
  | cons {c d : Nat} {s ds : List Nat} : IsDigit c d ∧ d < radix → Digits radix s ds →
    Digits radix (c :: s) (d :: ds)

end C3.BigNum
