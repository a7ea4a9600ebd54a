/-! # Two-dimensional slices, lib/std/core/slice2d.c3 and `slice2d` of lib/std/core/array.c3

An element is given by its index from the start of the memory the pointer points to. Products and sums of lengths and positions
do not wrap, except for the lengths of a new slice. `none`: a contract does not hold. -/

set_option autoImplicit false

namespace C3.Slice2d

/-- `Slice2d`, slice2d.c3 7–15, without the pointer. -/
structure Slice2d where
  innerLen : Nat
  ystart : Nat
  ylen : Nat
  xstart : Nat
  xlen : Nat
  deriving DecidableEq, Repr

/-- An `isz` as a `usz`. -/
def usz (z : Int) : Nat := (z % 2 ^ 64).toNat

/-- Lines 166, 167 of slice2d.c3 and 53, 54 of array.c3: the length wanted, or less than the whole by so much. -/
def newLen (whole : Nat) (len : Int) : Nat := usz (if len < 1 then whole + len else len)

/-- `slice2d`, array.c3 51–57, of an array of `h` arrays of `w` elements. -/
def ofArray (w h : Nat) (x xlen y ylen : Int) : Slice2d := ⟨w, usz y, newLen h ylen, usz x, newLen w xlen⟩

/-- `Slice2d.slice`, slice2d.c3 164–169, with its contract. -/
def slice (s : Slice2d) (x xlen y ylen : Int) : Option Slice2d :=
  if 0 ≤ y ∧ y < s.ylen ∧ 0 ≤ x ∧ x < s.xlen then
    some ⟨s.innerLen, usz y + s.ystart, newLen s.ylen ylen, usz x + s.xstart, newLen s.xlen xlen⟩
  else none

/-- `get_xy_ref`, slice2d.c3 122–125, without its contract. -/
def addr (s : Slice2d) (x y : Nat) : Nat := s.innerLen * (y + s.ystart) + s.xstart + x

/-- `get_xy_ref` with its contract. -/
def getXyRef (s : Slice2d) (x y : Nat) : Option Nat := if y < s.ylen ∧ x < s.xlen then some (addr s x y) else none

/-- `get_row`, slice2d.c3 68–71, with its contract: the elements of the slice returned. -/
def getRow (s : Slice2d) (y : Nat) : Option (List Nat) :=
  if y < s.ylen then some ((List.range s.xlen).map fun k => s.innerLen * (y + s.ystart) + (s.xstart + k)) else none

/-- `len`, slice2d.c3 20–23. -/
def len (s : Slice2d) : Nat := s.ylen

/-- `count`, slice2d.c3 28–31. -/
def count (s : Slice2d) : Nat := s.ylen * s.xlen

/-- `@each_ref`, slice2d.c3 50–59: the coordinates and elements the body is run with; the outer `foreach` uses `len` and `get_row`. -/
def eachRef (s : Slice2d) : Option (List ((Nat × Nat) × Nat)) :=
  ((List.range (len s)).mapM fun y => (getRow s y).map fun row => row.zipIdx.map fun p => ((p.2, y), p.1)).map List.flatten

end C3.Slice2d
