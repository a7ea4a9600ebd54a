import Verif.StdMem.Mem

/-!
# TempAllocator and BackedArenaAllocator

lib/std/core/allocators/temp_allocator.c3 and backed_arena_allocator.c3: an
arena that gets pages from another allocator when it is full.  The two have the
same `acquire` except for the size of the header of a page (32 and 40 bytes),
and that the second counts pages as used bytes (`++self.used`).

What is written into the header of a page is the part that is read again: the
mark of pages in the 8 bytes before the block.  The list of pages, and the
functions that give pages back, are not here.
-/

set_option autoImplicit false

namespace C3.StdMem

/-- `TempAllocator`, temp_allocator.c3 32–42, and `BackedArenaAllocator`,
backed_arena_allocator.c3 10–17.  `base` is the address of `data`, `back` the
state of the backing allocator, which has the memory too. -/
structure Pages (S : Type) where
  back : S
  base : Nat
  used : Nat
  capacity : Nat
  /-- `TempAllocatorPage.sizeof` or `ExtraPage.sizeof`. -/
  header : Nat
  /-- whether it is a `BackedArenaAllocator` -/
  counts : Bool

/-- `mem`, temp_allocator.c3 253–261, backed_arena_allocator.c3 143–151: where
the block would be in the arena.  `TempAllocatorChunk` has 8 bytes. -/
def Pages.place {S : Type} (s : Pages S) (alignment : Nat) : Nat :=
  let alignment := alignFor alignment
  let mem := wrap (alignedOffset (wrap (s.base + s.used)) 8 + 8)
  if 8 < alignment then alignedOffset mem alignment else mem

/-- `TempAllocator.acquire`, temp_allocator.c3 251–318, and
`BackedArenaAllocator.acquire`, backed_arena_allocator.c3 141–210.  The two
`assert`s on the alignment of a page hold if the backing allocator aligns to 16. -/
def Pages.acquire {S : Type} (A : Allocator S) (s : Pages S) (size : Nat) (zero : Bool)
    (alignment : Nat) : Res (Pages S) :=
  let mem := s.place alignment
  let newUsage := wrap (sub64 mem s.base + size)
  if newUsage ≤ s.capacity then
    let m := wr64 (A.mem s.back) (mem - 8) size
    let m := if zero then clearMem m mem size else m
    .ok { s with used := newUsage, back := A.setMem s.back m } mem
  else
    let alignment := alignFor alignment
    let total := if defaultAlign < alignment then alignedOffset (wrap (s.header + size)) alignment
      else wrap (alignedOffset s.header defaultAlign + size)
    let request := if defaultAlign < alignment then alignment else 0
    let offset := if defaultAlign < alignment then alignedOffset s.header alignment
      else alignedOffset s.header defaultAlign
    match A.acquire s.back total zero request with
    | .ok b start =>
      let data := wrap (start + offset)
      let b := A.setMem b (wr64 (A.mem b) (data - 8) (2 ^ 64 - 1))
      .ok { s with back := b, used := if s.counts then wrap (s.used + 1) else s.used } data
    | .fault b => .fault { s with back := b }
    | .panic => .panic

/-- `is_realloc_of_last`, temp_allocator.c3 211. -/
def Pages.isLast {S : Type} (A : Allocator S) (s : Pages S) (old : Nat) : Bool :=
  decide (wrap (rd64 (A.mem s.back) (old - 8) + old) = wrap (s.base + s.used))

/-- Whether the last block is resized where it is, temp_allocator.c3 212–216.
`diff` is an `isz`, and the comparison with it is the mathematical one. -/
def Pages.staysPut {S : Type} (s : Pages S) (diff : Nat) : Bool :=
  decide (2 ^ 63 ≤ diff) || decide (diff < sub64 s.capacity s.used)

/-- The last block is resized where it is, temp_allocator.c3 218–230. -/
def Pages.resizeLast {S : Type} (A : Allocator S) (s : Pages S) (old diff : Nat) : Pages S :=
  { s with
    used := wrap (s.used + diff)
    back := A.setMem s.back (wr64 (A.mem s.back) (old - 8) (wrap (rd64 (A.mem s.back) (old - 8) + diff))) }

/-- A block is moved, temp_allocator.c3 233–243. -/
def Pages.resizeMove {S : Type} (A : Allocator S) (s : Pages S) (old size alignment : Nat)
    (last : Bool) : Res (Pages S) :=
  (s.acquire A size false alignment).next fun s data =>
    let oldSize := rd64 (A.mem s.back) (old - 8)
    let m := copyMem (A.mem s.back) data old (if size < oldSize then size else oldSize)
    .ok { s with back := A.setMem s.back m, used := if last then sub64 (old - 8) s.base else s.used }
      data

/-- The branch of `TempAllocator.resize` for blocks in the arena,
temp_allocator.c3 211–243. -/
def Pages.tempResize {S : Type} (A : Allocator S) (s : Pages S) (old size alignment : Nat) :
    Res (Pages S) :=
  let diff := sub64 size (rd64 (A.mem s.back) (old - 8))
  if s.isLast A old && decide (diff = 0) then .ok s old
  else if s.isLast A old && s.staysPut diff then .ok (s.resizeLast A old diff) old
  else s.resizeMove A old size alignment (s.isLast A old)

/-- The contents of a block are copied, backed_arena_allocator.c3 131. -/
def Pages.copied {S : Type} (A : Allocator S) (s : Pages S) (data old : Nat) : Pages S :=
  let m := copyMem (A.mem s.back) data old (rd64 (A.mem s.back) (old - 8))
  { s with back := A.setMem s.back m }

/-- The branch of `BackedArenaAllocator.resize` for blocks in the arena,
backed_arena_allocator.c3 130–133. -/
def Pages.backedResize {S : Type} (A : Allocator S) (s : Pages S) (old size alignment : Nat) :
    Res (Pages S) :=
  (s.acquire A size false alignment).next fun s data => .ok (s.copied A data old) data

end C3.StdMem
