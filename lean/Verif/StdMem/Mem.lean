/-!
# Memory and allocators

Byte memory for the models of the allocators of the standard library, for a
target with 64 bit addresses.
-/

set_option autoImplicit false

namespace C3.StdMem

/-- The bytes of the address space. -/
abbrev Mem := Nat → UInt8

/-- Loading a `usz` (little endian). -/
def rd64 (m : Mem) (a : Nat) : Nat :=
  (m a).toNat + 256 * ((m (a + 1)).toNat + 256 * ((m (a + 2)).toNat + 256 * ((m (a + 3)).toNat +
    256 * ((m (a + 4)).toNat + 256 * ((m (a + 5)).toNat + 256 * ((m (a + 6)).toNat +
    256 * (m (a + 7)).toNat))))))

/-- Storing a `usz`. -/
def wr64 (m : Mem) (a v : Nat) : Mem := fun x =>
  if a ≤ x ∧ x < a + 8 then UInt8.ofNat (v / 256 ^ (x - a)) else m x

/-- `mem::copy`, lib/std/core/mem.c3 (memcpy; the ranges do not overlap where it
is used). -/
def copyMem (m : Mem) (dst src n : Nat) : Mem := fun x =>
  if dst ≤ x ∧ x < dst + n then m (src + (x - dst)) else m x

/-- `mem::clear`, lib/std/core/mem.c3. -/
def clearMem (m : Mem) (a n : Nat) : Mem := fun x => if a ≤ x ∧ x < a + n then 0 else m x

/-- Storing a byte. -/
def setByte (m : Mem) (a : Nat) (v : UInt8) : Mem := fun x => if x = a then v else m x

/-- Wrapping of `usz`. -/
def wrap (n : Nat) : Nat := n % 2 ^ 64

/-- `a - b` on `usz`. -/
def sub64 (a b : Nat) : Nat := (a + 2 ^ 64 - b) % 2 ^ 64

/-- `mem::aligned_offset`, lib/std/core/mem.c3 283–286, and
`mem::aligned_pointer`, 288–291. -/
def alignedOffset (offset alignment : Nat) : Nat :=
  wrap (alignment * (wrap (offset + alignment - 1) / alignment))

/-- `mem::ptr_is_aligned`, lib/std/core/mem.c3 296–299. -/
def ptrIsAligned (ptr alignment : Nat) : Bool := ptr &&& (alignment - 1) == 0

/-- `mem::DEFAULT_MEM_ALIGNMENT`, lib/std/core/mem.c3 9. -/
def defaultAlign : Nat := 16

/-- `mem::MAX_MEMORY_ALIGNMENT`, lib/std/core/mem.c3 8. -/
def maxAlign : Nat := 0x10000000

/-- `alignment_for_allocation`, lib/std/core/mem_allocator.c3 47–50. -/
def alignFor (alignment : Nat) : Nat := if alignment < defaultAlign then defaultAlign else alignment

/-- What a call of an allocator does: it returns a pointer, a fault
(`mem::OUT_OF_MEMORY` or `mem::INVALID_ALLOC_SIZE`), or the program stops (a
failed check of a safe build, or a loop without end). -/
inductive Res (S : Type)
  | ok (s : S) (ptr : Nat)
  | fault (s : S)
  | panic

/-- What follows a call that may fail (`!`). -/
def Res.next {S : Type} (r : Res S) (f : S → Nat → Res S) : Res S :=
  match r with
  | .ok s p => f s p
  | .fault s => .fault s
  | .panic => .panic

/-- The methods of the interface `Allocator`, lib/std/core/mem_allocator.c3
19–41, and the memory they share with the program. -/
structure Allocator (S : Type) where
  mem : S → Mem
  setMem : S → Mem → S
  acquire : S → (size : Nat) → (zero : Bool) → (alignment : Nat) → Res S
  release : S → (ptr : Nat) → (aligned : Bool) → Option S
  resize : S → (ptr : Nat) → (size : Nat) → (alignment : Nat) → Res S

end C3.StdMem
