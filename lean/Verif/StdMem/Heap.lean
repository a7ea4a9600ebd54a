import Verif.StdMem.Mem

/-!
# SimpleHeapAllocator

lib/std/core/allocators/heap_allocator.c3.  A free block at the address `h` has
a header of 16 bytes, the pointer to the next free block at `h` and the number
of bytes after the header at `h + 8`.  The null pointer is 0.  The function
`alloc_fn` that provides memory is arbitrary; what it returns may depend on all
that it has returned before (`given`).
-/

set_option autoImplicit false

namespace C3.StdMem

/-- `SimpleHeapAllocator`, heap_allocator.c3 8–12, with the memory it shares. -/
structure Heap where
  mem : Mem
  freeList : Nat
  fn : List (Nat × Nat) → Nat → Option (Nat × Nat)
  given : List (Nat × Nat)

/-- `SimpleHeapAllocator.init`, heap_allocator.c3 18–22. -/
def Heap.init (mem : Mem) (fn : List (Nat × Nat) → Nat → Option (Nat × Nat)) : Heap :=
  ⟨mem, 0, fn, []⟩

/-- `Header.sizeof`, heap_allocator.c3 201–209. -/
def headerSize : Nat := 16

/-- `block.next` -/
def nextOf (m : Mem) (h : Nat) : Nat := rd64 m h

/-- `block.size` -/
def sizeOf' (m : Mem) (h : Nat) : Nat := rd64 m (h + 8)

/-- `block.next = v` -/
def setNext (m : Mem) (h v : Nat) : Mem := wr64 m h v

/-- `block.size = v` -/
def setSize (m : Mem) (h v : Nat) : Mem := wr64 m (h + 8) v

/-- The loop of `_free` that finds the place of a block, heap_allocator.c3
149–163: `current` and `prev` at its end.  `none` if it has no end. -/
def freeLoop (m : Mem) (block current prev : Nat) : Option (Nat × Nat) := do
  if current = 0 then some (current, prev)
  else if block < current ∧ (prev < block ∨ current = prev) then some (current, prev)
  else freeLoop m block (nextOf m current) current
partial_fixpoint

/-- `_free` after its loop, heap_allocator.c3 164–198. -/
def Heap.link (s : Heap) (block current prev : Nat) : Heap :=
  let m := s.mem
  let m :=
    if current ≠ 0 then
      if current = wrap (block + headerSize + sizeOf' m block) then
        let m := setSize m block (wrap (sizeOf' m block + (sizeOf' m current + headerSize)))
        setNext m block (nextOf m current)
      else setNext m block current
    else m
  if prev = current then { s with mem := m, freeList := block }
  else if block = wrap (prev + headerSize + sizeOf' m prev) then
    let m := setSize m prev (wrap (sizeOf' m prev + (sizeOf' m block + headerSize)))
    { s with mem := setNext m prev (nextOf m block) }
  else { s with mem := setNext m prev block }

/-- `SimpleHeapAllocator._free`, heap_allocator.c3 134–199. -/
def Heap.free (s : Heap) (ptr : Nat) : Option Heap := do
  if ptr = 0 then some s
  else
    let block := ptr - headerSize
    if s.freeList = 0 then some { s with freeList := block }
    else
      let (current, prev) ← freeLoop s.mem block s.freeList s.freeList
      some (s.link block current prev)

/-- `SimpleHeapAllocator.add_block`, heap_allocator.c3 123–131; the `Bool` says
whether it succeeded. -/
def Heap.addBlock (s : Heap) (alignedBytes : Nat) : Option (Bool × Heap) := do
  if alignedOffset alignedBytes defaultAlign ≠ alignedBytes then none
  else
    match s.fn s.given (wrap (alignedBytes + headerSize)) with
    | none => some (false, s)
    | some (ptr, len) =>
      let m := setSize s.mem ptr (sub64 len headerSize)
      let m := setNext m ptr 0
      let s ← Heap.free { s with mem := m, given := (ptr, len) :: s.given } (ptr + headerSize)
      some (true, s)

/-- The first case of the switch of `_alloc`, heap_allocator.c3 88. -/
def snug (size alignedBytes : Nat) : Bool :=
  decide (alignedBytes ≤ size) && decide (size ≤ wrap (alignedBytes + headerSize + 64))

/-- The loop of `_alloc` up to the block that is taken, heap_allocator.c3 82–118:
`current` and `previous`, `current` is 0 if there is no such block. -/
def findLoop (m : Mem) (alignedBytes current previous : Nat) : Option (Nat × Nat) := do
  if current = 0 then some (0, previous)
  else if snug (sizeOf' m current) alignedBytes = true ∨ alignedBytes < sizeOf' m current then
    some (current, previous)
  else findLoop m alignedBytes (nextOf m current) current
partial_fixpoint

/-- Taking a block from the free list, heap_allocator.c3 88–113. -/
def Heap.take (s : Heap) (alignedBytes current previous : Nat) : Heap :=
  let m := s.mem
  let size := sizeOf' m current
  if snug size alignedBytes = true then
    if current = previous then
      { s with freeList := nextOf m current, mem := setNext m current 0 }
    else
      let m := setNext m previous (nextOf m current)
      { s with mem := setNext m current 0 }
  else
    let unallocated := wrap (current + alignedBytes + headerSize)
    let m := setSize m unallocated (sub64 (sub64 size alignedBytes) headerSize)
    let m := setNext m unallocated (nextOf m current)
    if current = s.freeList then
      let m := setSize m current alignedBytes
      { s with freeList := unallocated, mem := setNext m current 0 }
    else
      let m := setNext m previous unallocated
      let m := setSize m current alignedBytes
      { s with mem := setNext m current 0 }

/-- `SimpleHeapAllocator._alloc`, heap_allocator.c3 74–121. -/
def Heap.alloc (s : Heap) (bytes : Nat) : Option (Res Heap) := do
  let alignedBytes := alignedOffset bytes defaultAlign
  let (ok, s) ← if s.freeList = 0 then s.addBlock alignedBytes else some (true, s)
  if ok = false then some (.fault s)
  else
    let (current, previous) ← findLoop s.mem alignedBytes s.freeList s.freeList
    if current ≠ 0 then some (.ok (s.take alignedBytes current previous) (current + headerSize))
    else
      let (ok, s) ← s.addBlock alignedBytes
      if ok = false then some (.fault s) else Heap.alloc s alignedBytes
partial_fixpoint

/-- A call that does not come to an end, as a result. -/
def outcome {S : Type} : Option (Res S) → Res S
  | none => .panic
  | some r => r

/-- `_alloc`, or `_calloc`, heap_allocator.c3 67–72. -/
def Heap.zalloc (s : Heap) (bytes : Nat) (zero : Bool) : Res Heap :=
  match outcome (s.alloc bytes) with
  | .ok s p => if zero then .ok { s with mem := clearMem s.mem p bytes } p else .ok s p
  | .fault s => .fault s
  | .panic => .panic

/-- `@aligned_alloc`, lib/std/core/mem_allocator.c3 305–320, on `_alloc` or
`_calloc`.  Its contract `bytes <= isz.max`, which programs built with checks
verify, is not here. -/
def Heap.alignedAlloc (s : Heap) (bytes alignment : Nat) (zero : Bool) : Res Heap :=
  let alignment := if alignment < 8 then 8 else alignment
  let header := 16 + alignment
  match s.zalloc (wrap (bytes + header)) zero with
  | .ok s data =>
    let mem := alignedOffset (wrap (data + 16)) alignment
    if mem ≤ data then .panic
    else .ok { s with mem := wr64 (wr64 s.mem (mem - 16) bytes) (mem - 8) data } mem
  | .fault s => .fault s
  | .panic => .panic

/-- `SimpleHeapAllocator.acquire`, heap_allocator.c3 24–31. -/
def Heap.acquire (s : Heap) (size : Nat) (zero : Bool) (alignment : Nat) : Res Heap :=
  if 0 < alignment then s.alignedAlloc size alignment zero else s.zalloc size zero

/-- `_realloc`, heap_allocator.c3 55–65. -/
def Heap.realloc (s : Heap) (old bytes : Nat) : Res Heap :=
  let block := old - headerSize
  if bytes ≤ sizeOf' s.mem block then .ok s old
  else
    match outcome (s.alloc bytes) with
    | .ok s new =>
      let s := { s with mem := copyMem s.mem new old (min (sizeOf' s.mem block) bytes) }
      match s.free old with
      | some s => .ok s new
      | none => .panic
    | .fault s => .fault s
    | .panic => .panic

/-- `@aligned_realloc`, lib/std/core/mem_allocator.c3 342–354, on `_calloc` and
`_free`. -/
def Heap.alignedRealloc (s : Heap) (old bytes alignment : Nat) : Res Heap :=
  let start := rd64 s.mem (old - 8)
  match s.alignedAlloc bytes alignment true with
  | .ok s new =>
    let len := rd64 s.mem (old - 16)
    let s := { s with mem := copyMem s.mem new old (if len < bytes then len else bytes) }
    match s.free start with
    | some s => .ok s new
    | none => .panic
  | .fault s => .fault s
  | .panic => .panic

/-- `SimpleHeapAllocator.resize`, heap_allocator.c3 33–38. -/
def Heap.resize (s : Heap) (old size alignment : Nat) : Res Heap :=
  if 0 < alignment then s.alignedRealloc old size alignment else s.realloc old size

/-- `SimpleHeapAllocator.release`, heap_allocator.c3 40–50, and `@aligned_free`,
lib/std/core/mem_allocator.c3 328–336. -/
def Heap.release (s : Heap) (old : Nat) (aligned : Bool) : Option Heap :=
  if aligned then s.free (rd64 s.mem (old - 8)) else s.free old

/-- The heap as an allocator. -/
def heap : Allocator Heap where
  mem := Heap.mem
  setMem := fun s m => { s with mem := m }
  acquire := Heap.acquire
  release := Heap.release
  resize := Heap.resize

end C3.StdMem
