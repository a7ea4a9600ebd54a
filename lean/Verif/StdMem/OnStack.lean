import Verif.StdMem.Mem

/-!
# OnStackAllocator

lib/std/core/allocators/on_stack_allocator.c3: a fixed memory, and another
allocator for what does not fit.  The records of blocks of the other allocator
(`OnStackAllocatorExtraChunk`) are a list of pointers and not in memory; that
they are allocated too is left out.
-/

set_option autoImplicit false

namespace C3.StdMem

/-- `OnStackAllocator`, on_stack_allocator.c3 3–9. -/
structure OnStack (S : Type) where
  back : S
  base : Nat
  len : Nat
  used : Nat
  chunks : List Nat

/-- `mem`, on_stack_allocator.c3 130–134. -/
def OnStack.place {S : Type} (s : OnStack S) (alignment : Nat) : Nat :=
  alignedOffset (wrap (s.base + s.used + 8)) (alignFor alignment)

/-- A block of the other allocator, on_stack_allocator.c3 138–144; `chunks` are
the other such blocks. -/
def OnStack.chunk {S : Type} (s : OnStack S) (chunks : List Nat) : Res S → Res (OnStack S)
  | .ok b p => .ok { s with back := b, chunks := p :: chunks } p
  | .fault b => .fault { s with back := b }
  | .panic => .panic

/-- `OnStackAllocator.acquire`, on_stack_allocator.c3 127–150. -/
def OnStack.acquire {S : Type} (A : Allocator S) (s : OnStack S) (size : Nat) (zero : Bool)
    (alignment : Nat) : Res (OnStack S) :=
  let mem := s.place alignment
  let stop := wrap (sub64 mem s.base + size)
  if s.len < stop then
    s.chunk s.chunks
      (A.acquire s.back size zero (if 0 < alignment then alignFor alignment else 0))
  else .ok { s with used := stop, back := A.setMem s.back (wr64 (A.mem s.back) (mem - 8) size) } mem

/-- `allocation_in_stack_mem`, on_stack_allocator.c3 68–71. -/
def OnStack.inStack {S : Type} (s : OnStack S) (ptr : Nat) : Bool :=
  decide (s.base ≤ ptr) && decide (ptr ≤ s.base + s.len - 1)

/-- `OnStackAllocator.release`, on_stack_allocator.c3 61–66, and
`on_stack_allocator_remove_chunk`, 73–89. -/
def OnStack.release {S : Type} (A : Allocator S) (s : OnStack S) (ptr : Nat) (aligned : Bool) :
    Option (OnStack S) :=
  if s.inStack ptr then some s
  else if ptr ∈ s.chunks then
    (A.release s.back ptr aligned).map fun b => { s with back := b, chunks := s.chunks.erase ptr }
  else none

/-- `OnStackAllocator.resize`, on_stack_allocator.c3 107–121. -/
def OnStack.resize {S : Type} (A : Allocator S) (s : OnStack S) (old size alignment : Nat) :
    Res (OnStack S) :=
  if s.inStack old then
    let oldSize := rd64 (A.mem s.back) (old - 8)
    (s.acquire A size false alignment).next fun s p =>
      .ok { s with back := A.setMem s.back (copyMem (A.mem s.back) p old oldSize) } p
  else if old ∈ s.chunks then
    s.chunk (s.chunks.erase old) (A.resize s.back old size alignment)
  else .panic

/-- The allocator on the stack as an allocator. -/
def onStack {S : Type} (A : Allocator S) : Allocator (OnStack S) where
  mem := fun s => A.mem s.back
  setMem := fun s m => { s with back := A.setMem s.back m }
  acquire := OnStack.acquire A
  release := OnStack.release A
  resize := OnStack.resize A

/-- `OnStackAllocator.init`, on_stack_allocator.c3 24–29. -/
def OnStack.init {S : Type} (back : S) (base len : Nat) : OnStack S := ⟨back, base, len, 0, []⟩

end C3.StdMem
