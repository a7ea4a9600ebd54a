import Verif.Bitstruct.Model

/-!
# Where the members are

A bit of an object: byte `j / 8`, bit `j % 8` of it, from the least significant one.
-/

set_option autoImplicit false

namespace C3.Bitstruct

def bitAt (mem : Mem) (j : Nat) : Bool := (mem.getD (j / 8) 0).getLsbD (j % 8)

/-- The number of bits. -/
def Member.width (m : Member) : Nat := m.stop - m.start + 1

/-- Where bit `k` of the member is, in an integer of `n` bytes that has its most significant byte first (`big`) or last. -/
def placeInt (big : Bool) (n : Nat) (m : Member) (k : Nat) : Nat :=
  if big then 8 * (n - 1 - (m.start + k) / 8) + (m.start + k) % 8 else m.start + k

/-- Where bit `k` of the member is, in an array of bytes: with `big` the bytes of the member are in reverse. -/
def placeArray (big : Bool) (m : Member) (k : Nat) : Nat :=
  if big ∧ m.width > 8 then m.start + 8 * (m.width / 8 - 1 - k / 8) + k % 8 else m.start + k

/-- The bits `place 0`, … are those of the value, the others are as before. -/
def Stores (m : Member) (place : Nat → Nat) (before after : Mem) (v : m.Value) : Prop :=
  after.length = before.length ∧
  (∀ k, k < m.width → bitAt after (place k) = v.getLsbD k) ∧
  ∀ j, (∀ k, k < m.width → place k ≠ j) → bitAt after j = bitAt before j

/-- The value has the bits `place 0`, …, and above them the sign, or zero. -/
def Reads (m : Member) (place : Nat → Nat) (mem : Mem) (v : m.Value) : Prop :=
  ∀ k, k < 8 * m.bytes → v.getLsbD k = if k < m.width then bitAt mem (place k) else m.signed && bitAt mem (place (m.width - 1))

/-- What is left of a value of the member in its bits. -/
def Member.wrap (m : Member) (v : m.Value) : m.Value :=
  if m.signed then (v.setWidth m.width).signExtend (8 * m.bytes) else (v.setWidth m.width).setWidth (8 * m.bytes)

/-- The members that the compiler accepts: in a container of `size` bytes, with a type that has all the bits; `bool` is one bit. -/
structure Member.Ok (m : Member) (size : Nat) : Prop where
  le : m.start ≤ m.stop
  lt : m.stop < 8 * size
  fits : m.width ≤ 8 * m.bytes
  small : m.bytes ≤ 16
  bool : m.bool = true → m.bytes = 1 ∧ m.signed = false ∧ m.start = m.stop

/-- The values of `bool` are 0 and 1. -/
def Member.Valid (m : Member) (v : m.Value) : Prop := m.bool = true → v.toNat < 2

/-- No bit in common. -/
def Member.Disjoint (m m' : Member) : Prop := m.stop < m'.start ∨ m'.stop < m.start

/-- The order of the bytes of an integer: as declared, or that of the platform. -/
def Order.ofInt (o : Order) (platform : Bool) : Bool := o.getD platform

/-- The order of the bytes of a member in an array: as declared. -/
def Order.ofArray (o : Order) : Bool := o.getD false

end C3.Bitstruct
