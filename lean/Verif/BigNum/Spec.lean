import Verif.BigNum.Model

/-! # What a `BigInt` stands for -/

set_option autoImplicit false

namespace C3.BigNum

/-- The number that words stand for, lowest first. -/
def value : List Nat → Nat
  | [] => 0
  | w :: ws => w + 2 ^ 32 * value ws

/-- How many values there are in `N` words. -/
def span (N : Nat) : Nat := (2 ^ 32) ^ N

/-- `N` words, of which those behind the first `len` are zero. -/
structure Valid (N : Nat) (a : Big) : Prop where
  size : a.data.length = N
  small : ∀ w ∈ a.data, w < 2 ^ 32
  pos : 1 ≤ a.len
  le : a.len ≤ N
  high : ∀ w ∈ a.data.drop a.len, w = 0

/-- A number the way the library's functions return it: `len` is the place of
the highest word that is not zero. -/
structure Canon (N : Nat) (a : Big) : Prop extends Valid N a where
  top : a.len = 1 ∨ a.word (a.len - 1) ≠ 0

/-- The integer, by two's complement. -/
def toInt (N : Nat) (a : Big) : Int :=
  if 2 * value a.data < span N then value a.data else (value a.data : Int) - span N

/-- `a` is the integer `x`. -/
def Is (N : Nat) (a : Big) (x : Int) : Prop := Canon N a ∧ toInt N a = x

/-- The integers that `N` words have room for. -/
def InRange (N : Nat) (x : Int) : Prop := -(span N : Int) ≤ 2 * x ∧ 2 * x < span N

instance (N : Nat) (x : Int) : Decidable (InRange N x) := inferInstanceAs (Decidable (_ ∧ _))

/-- Bit `i` of an integer, the sign going on forever. -/
def bit (x : Int) (i : Nat) : Bool := decide (x / 2 ^ i % 2 = 1)

end C3.BigNum
