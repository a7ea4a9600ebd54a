import Verif.StdMem.Mem

/-!
# ArenaAllocator

lib/std/core/allocators/arena_allocator.c3.  The memory of the arena is `data`,
of `len` bytes at the address `base`.  `safe` says whether the program was built
with the run time checks of safe mode; a slice subscript `&self.data[i]` with
`i >= len` stops such a program (src/compiler/llvm_codegen_expr.c 618–640).
-/

set_option autoImplicit false

namespace C3.StdMem

/-- `ArenaAllocator`, arena_allocator.c3 11–15, with the memory it shares. -/
structure Arena where
  mem : Mem
  base : Nat
  len : Nat
  used : Nat
  safe : Bool

/-- `ArenaAllocator.init`, arena_allocator.c3 22–27. -/
def Arena.init (mem : Mem) (base len : Nat) (safe : Bool) : Arena := ⟨mem, base, len, 0, safe⟩

/-- `ArenaAllocatorHeader.sizeof`, arena_allocator.c3 147–151. -/
def arenaHeader : Nat := 8

/-- The check of `&self.data[self.used]` in safe mode. -/
def Arena.stops (s : Arena) : Bool := s.safe && decide (s.len ≤ s.used)

/-- `ArenaAllocator.acquire`, arena_allocator.c3 89–104. -/
def Arena.acquire (s : Arena) (size : Nat) (zero : Bool) (alignment : Nat) : Res Arena :=
  let alignment := alignFor alignment
  if s.len < size then .fault s
  else
    let mem := alignedOffset (wrap (s.base + s.used + arenaHeader)) alignment
    let «end» := wrap (sub64 mem s.base + size)
    if s.len < «end» then .fault s
    else
      let m := wr64 s.mem (mem - arenaHeader) size
      let m := if zero then clearMem m mem size else m
      .ok { s with used := «end», mem := m } mem

/-- `ArenaAllocator.release`, arena_allocator.c3 69–78. -/
def Arena.release (s : Arena) (ptr : Nat) (_aligned : Bool) : Option Arena :=
  if s.safe && decide (ptr < s.base) then none
  else if s.stops then none
  else
    let size := rd64 s.mem (ptr - arenaHeader)
    if wrap (ptr + size) = wrap (s.base + s.used) then
      some { s with used := sub64 s.used (size + arenaHeader) }
    else some s

/-- `ArenaAllocator.resize`, arena_allocator.c3 115–143. -/
def Arena.resize (s : Arena) (old : Nat) (size alignment : Nat) : Res Arena :=
  let alignment := alignFor alignment
  if s.safe && decide (old < s.base) then .panic
  else if s.len < size then .fault s
  else
    let oldSize := rd64 s.mem (old - arenaHeader)
    if s.stops then .panic
    else if wrap (s.base + s.used) = wrap (old + oldSize) ∧ ptrIsAligned old alignment = true then
      if size ≤ oldSize then
        .ok { s with used := sub64 s.used (oldSize - size), mem := wr64 s.mem (old - arenaHeader) size }
          old
      else
        let newUsed := sub64 (wrap (s.used + size)) oldSize
        if s.len < newUsed then .fault s
        else .ok { s with used := newUsed, mem := wr64 s.mem (old - arenaHeader) size } old
    else
      match s.acquire size false alignment with
      | .ok s p => .ok { s with mem := copyMem s.mem p old oldSize } p
      | .fault s => .fault s
      | .panic => .panic

/-- `ArenaAllocator.mark`, arena_allocator.c3 54. -/
def Arena.mark (s : Arena) : Nat := s.used

/-- `ArenaAllocator.reset`, arena_allocator.c3 62. -/
def Arena.reset (s : Arena) (mark : Nat) : Arena := { s with used := mark }

/-- The arena as an allocator. -/
def arena : Allocator Arena where
  mem := Arena.mem
  setMem := fun s m => { s with mem := m }
  acquire := Arena.acquire
  release := Arena.release
  resize := Arena.resize

end C3.StdMem
