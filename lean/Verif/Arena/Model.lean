/-!
# Model of the arenas, `src/utils/malloc.c` and `src/utils/vmem.c`

The POSIX version; addresses and sizes are 64 bits.  `none` means that the program ends with an error
message or a failed assertion.
-/

set_option autoImplicit false

namespace C3.Arena

abbrev Word := BitVec 64

/-- `Vmem`, vmem.h. -/
structure Vmem where
  ptr : Word
  size : Word
  allocated : Word
deriving Repr, DecidableEq

/-- `mmap_allocate`, vmem.c 57–80 (without the Windows part). -/
def vmemAlloc (v : Vmem) (toAllocate : Word) : Option (Vmem × Word) :=
  let allocatedAfter := toAllocate + v.allocated
  if v.size < allocatedAfter then none
  else some ({ v with allocated := allocatedAfter }, v.ptr + v.allocated)

/-- `calloc_arena`, malloc.c 43–50. -/
def callocArena (v : Vmem) (mem : Word) : Option (Vmem × Word) :=
  if mem = 0#64 then none else vmemAlloc v ((mem + 15#64) &&& ~~~ 15#64)

/-- `calloc_string`, malloc.c 34–39. -/
def callocString (v : Vmem) (len : Word) : Option (Vmem × Word) :=
  if len = 0#64 then none else vmemAlloc v len

/-- `memory_init`, malloc.c 17–25, for the arena of the syntax tree; `mmap` gave `size` bytes at `ptr`. -/
def memoryInit (ptr size : Word) : Option Vmem := (vmemAlloc ⟨ptr, size, 0#64⟩ 16#64).map (·.1)

/-- A history of requests: the addresses handed out. -/
def run (alloc : Vmem → Word → Option (Vmem × Word)) : Vmem → List Word → Option (Vmem × List Word)
  | v, [] => some (v, [])
  | v, req :: reqs => do
    let (v1, p) ← alloc v req
    let (v2, ps) ← run alloc v1 reqs
    some (v2, p :: ps)

/-- `ptrid`, lib.h 106, stored in a 32-bit `DeclId`, `ExprId`, `AstId` or `TypeInfoId`. -/
def ptrid (arenaZero ptr : Word) : BitVec 32 := ((ptr - arenaZero) / 16#64).setWidth 32

/-- `idptr`, lib.h 107. -/
def idptr (arenaZero : Word) (id : BitVec 32) : Word := id.setWidth 64 * 16#64 + arenaZero

end C3.Arena
