import Verif.IntLiteral.Model
import Verif.Bigint.Spec

/-!
# Specification of integer literals

What a literal means, without reference to the parser.
-/

namespace C3.IntLiteral
open C3.Bigint

/-- The four notations. -/
inductive Base where
  | dec | hex | oct | bin
deriving DecidableEq, Repr

def Base.radix : Base → Nat
  | .dec => 10 | .hex => 16 | .oct => 8 | .bin => 2

/-- The ways of writing the base. -/
def Base.prefixes : Base → List (List Char)
  | .dec => [[]]
  | .hex => [['0', 'x'], ['0', 'X']]
  | .oct => [['0', 'o'], ['0', 'O']]
  | .bin => [['0', 'b'], ['0', 'B']]

/-- Bits written by one digit (0: decimal digits do not have a width). -/
def Base.digitBits : Base → Nat
  | .dec => 0 | .hex => 4 | .oct => 3 | .bin => 1

/-- The value of a digit character. -/
def digitValue (c : Char) : Option Nat :=
  if '0' ≤ c ∧ c ≤ '9' then some (c.toNat - '0'.toNat)
  else if 'a' ≤ c ∧ c ≤ 'f' then some (c.toNat - 'a'.toNat + 10)
  else if 'A' ≤ c ∧ c ≤ 'F' then some (c.toNat - 'A'.toNat + 10)
  else none

def IsDigit (b : Base) (c : Char) : Prop := ∃ d, digitValue c = some d ∧ d < b.radix

/-- A digit sequence: digits and `_`, beginning with a digit. -/
def IsBody (b : Base) (body : List Char) : Prop :=
  (∃ c cs, body = c :: cs ∧ IsDigit b c) ∧ ∀ c ∈ body, IsDigit b c ∨ c = '_'

/-- The digits of a body, separators removed. -/
def digitsOf (body : List Char) : List Nat := body.filterMap digitValue

/-- The number spelled by a body. -/
def spelled (b : Base) (body : List Char) : Nat := positional b.radix (digitsOf body)

/-- A literal suffix: nothing, `l`, `ul`, or `i`/`u` with an optional width. -/
inductive Suffix where
  | none
  | l
  | ul
  | sized (unsigned : Bool) (width : Option Nat)
deriving DecidableEq, Repr

/-- The spellings of a suffix (either letter case, widths without leading zero). -/
def Suffix.Spells : Suffix → List Char → Prop
  | .none, s => s = []
  | .l, s => s = ['l'] ∨ s = ['L']
  | .ul, s => ∃ a b, s = [a, b] ∧ (a = 'u' ∨ a = 'U') ∧ (b = 'l' ∨ b = 'L')
  | .sized u w, s => ∃ a ds, s = a :: ds ∧
      (if u then a = 'u' ∨ a = 'U' else a = 'i' ∨ a = 'I') ∧
      (match w with
       | Option.none => ds = []
       | some w => ds ≠ [] ∧ ds.head? ≠ some '0' ∧ (∀ c ∈ ds, '0' ≤ c ∧ c ≤ '9') ∧
          positional 10 (ds.map fun c => c.toNat - '0'.toNat) = w)

/-- Is the literal unsigned?  Without suffix, hexadecimal, octal and binary literals are. -/
def isUnsigned (b : Base) : Suffix → Bool
  | .none => b ≠ .dec
  | .l => false
  | .ul => true
  | .sized u _ => u

/-- The width given by the suffix. -/
def suffixWidth : Suffix → Option Nat
  | .none => Option.none
  | .l => some 64
  | .ul => some 64
  | .sized _ w => w

/-- The integer type of a width and signedness. -/
def typeOf (unsigned : Bool) (w : Nat) (t : TypeKind) : Prop := t.bits = w ∧ t.signed = !unsigned

/-- `w` is the smallest integer width that has room for `k` bits. -/
def SmallestWidth (k w : Nat) : Prop :=
  w ∈ [8, 16, 32, 64, 128] ∧ k ≤ w ∧ ∀ w' ∈ [8, 16, 32, 64, 128], k ≤ w' → w ≤ w'

/-- The documented type `t` of a literal, `cint` being the width of a C `int`:
the type named by the width in the suffix; else, for decimal literals, the first type of the
literal's sign, from C's `int` on, that holds the number; else the smallest type wide enough for the
digits as written. -/
def DocType (cint : Nat) (b : Base) (s : Suffix) (body : List Char) (t : TypeKind) : Prop :=
  match suffixWidth s with
  | some w => typeOf (isUnsigned b s) w t
  | Option.none =>
    t.signed = !isUnsigned b s ∧
    if b = .dec then
      cint ≤ t.bits ∧ t.InRange (spelled b body) ∧
        ∀ t' : TypeKind, t'.signed = !isUnsigned b s → cint ≤ t'.bits → t'.InRange (spelled b body) →
          t.bits ≤ t'.bits
    else SmallestWidth (b.digitBits * (digitsOf body).length) t.bits

end C3.IntLiteral
