/-!
# Slices and faults shared by the models of `lib/std/encoding`

A slice is the list of its cells; a function that writes through a slice returns the new cells.
An access outside a slice (a panic in safe mode, undefined behaviour otherwise) is `none`.
-/

set_option autoImplicit false

namespace C3.Codec

/-- The faults of `std::encoding`. -/
inductive Fault where
  | INVALID_CHARACTER
  | INVALID_PADDING
deriving DecidableEq, Repr

/-- `slice[i] = v`. -/
def store {α : Type} (slice : List α) (i : Nat) (v : α) : Option (List α) :=
  if i < slice.length then some (slice.set i v) else none

/-- The bytes of a string constant, written as its list of characters (which the kernel evaluates
faster than a string literal). -/
def ascii (s : List Char) : List (BitVec 8) := s.map fun c => BitVec.ofNat 8 c.toNat

/-- The `len` bytes of an `x"…"` constant, written as one hexadecimal number; for tables. -/
def hexTable (len : Nat) (n : Nat) : List (BitVec 8) :=
  (List.range len).map fun i => BitVec.ofNat 8 (n >>> (8 * (len - 1 - i)))

end C3.Codec
