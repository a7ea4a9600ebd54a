import Verif.StdMem.Mem

/-!
# DynamicArenaAllocator

lib/std/core/allocators/dynamic_arena.c3.  The pages are a list, the current
one first; their records (`DynamicArenaPage`) are not in the byte memory.  The
pages themselves come from a function `fn`, as for the heap; freeing is not
here.
-/

set_option autoImplicit false

namespace C3.StdMem

/-- `DynamicArenaPage`, dynamic_arena.c3 49–56; `current` is
`current_stack_ptr`. -/
structure DPage where
  memory : Nat
  total : Nat
  used : Nat
  current : Nat
deriving DecidableEq, Repr

/-- `DynamicArenaAllocator`, dynamic_arena.c3 7–13. -/
structure Dyn where
  mem : Mem
  pages : List DPage
  unused : List DPage
  pageSize : Nat
  fn : List (Nat × Nat) → Nat → Option (Nat × Nat)
  given : List (Nat × Nat)

/-- `DynamicArenaAllocator.init`, dynamic_arena.c3 19–25. -/
def Dyn.init (mem : Mem) (pageSize : Nat) (fn : List (Nat × Nat) → Nat → Option (Nat × Nat)) : Dyn :=
  ⟨mem, [], [], pageSize, fn, []⟩

/-- `_alloc_new`, dynamic_arena.c3 134–158, without its second allocation (of
the record of the page) and with its `assert`s; `alignment` is not 0. -/
def Dyn.allocNew (s : Dyn) (size alignment : Nat) : Res Dyn :=
  let pageSize := max s.pageSize (alignedOffset (wrap (size + 8 + alignment)) alignment)
  if pageSize ≤ wrap (size + 8) then .panic
  else
    match s.fn s.given pageSize with
    | none => .fault s
    | some (memory, len) =>
      let start := alignedOffset (wrap (memory + 8)) alignment
      if wrap (memory + pageSize) ≤ wrap (start + size) then .panic
      else
        .ok { s with
          mem := wr64 s.mem (start - 8) size
          pages := ⟨memory, pageSize, sub64 (wrap (start + size)) memory, start⟩ :: s.pages
          given := (memory, len) :: s.given } start

/-- The end of the block in `acquire`, dynamic_arena.c3 203–207, when it is on
the page `page`. -/
def Dyn.place (s : Dyn) (page : DPage) (rest : List DPage) (start size newUsed : Nat) : Dyn :=
  { s with mem := wr64 s.mem (start - 8) size, pages := { page with used := newUsed } :: rest }

/-- `start`, dynamic_arena.c3 184. -/
def DPage.start (page : DPage) (alignment : Nat) : Nat :=
  alignedOffset (wrap (page.memory + page.used + 8)) alignment

/-- The block does not fit on the current page, dynamic_arena.c3 186–201. -/
def Dyn.allocOther (s : Dyn) (size alignment : Nat) : Res Dyn :=
  match s.unused with
  | [] => s.allocNew size alignment
  | other :: others =>
    let start := other.start alignment
    let newUsed := sub64 (wrap (start + size)) other.memory
    if newUsed ≤ other.total then
      .ok ({ s with unused := others }.place other s.pages start size newUsed) start
    else s.allocNew size alignment

/-- The block is allocated on a page, dynamic_arena.c3 179–207. -/
def Dyn.allocPage (s : Dyn) (size alignment : Nat) : Res Dyn :=
  match s.pages with
  | [] => s.allocNew size alignment
  | page :: rest =>
    let start := page.start alignment
    let newUsed := wrap (sub64 start page.memory + size)
    if page.total < newUsed then s.allocOther size alignment
    else .ok (s.place page rest start size newUsed) start

/-- An unused page becomes the current one, dynamic_arena.c3 173–178. -/
def Dyn.reuse (s : Dyn) : Dyn :=
  match s.pages, s.unused with
  | [], page :: rest => { s with pages := [page], unused := rest }
  | _, _ => s

/-- The block is cleared, dynamic_arena.c3 209. -/
def Dyn.cleared (s : Dyn) (p size : Nat) (zero : Bool) : Dyn :=
  if zero then { s with mem := clearMem s.mem p size } else s

/-- `DynamicArenaAllocator.acquire`, dynamic_arena.c3 165–211. -/
def Dyn.acquire (s : Dyn) (size : Nat) (zero : Bool) (alignment : Nat) : Res Dyn :=
  (s.reuse.allocPage size (alignFor alignment)).next fun s p => .ok (s.cleared p size zero) p

/-- `DynamicArenaAllocator.release`, dynamic_arena.c3 67–75; its contract is that
there is a page. -/
def Dyn.release (s : Dyn) (ptr : Nat) (_aligned : Bool) : Option Dyn :=
  match s.pages with
  | [] => none
  | page :: rest =>
    let page := if ptr = page.current then { page with used := sub64 (ptr - 8) page.memory } else page
    some { s with pages := { page with current := 0 } :: rest }

/-- The block is made smaller where it is, dynamic_arena.c3 92–96. -/
def Dyn.shrink (s : Dyn) (page : DPage) (rest : List DPage) (old size : Nat) : Dyn :=
  let page := if page.current = old then { page with used := sub64 (old - 8) page.memory } else page
  { s with mem := wr64 s.mem (old - 8) size, pages := page :: rest }

/-- The block is made larger where it is, dynamic_arena.c3 104–105. -/
def Dyn.grow (s : Dyn) (page : DPage) (rest : List DPage) (old size add : Nat) : Dyn :=
  let page := { page with used := wrap (page.used + add) }
  { s with mem := wr64 s.mem (old - 8) size, pages := page :: rest }

/-- `DynamicArenaAllocator.resize`, dynamic_arena.c3 83–111. -/
def Dyn.resize (s : Dyn) (old size alignment : Nat) : Res Dyn :=
  match s.pages with
  | [] => .panic
  | page :: rest =>
    let alignment := alignFor alignment
    let oldSize := rd64 s.mem (old - 8)
    if size ≤ oldSize ∧ ptrIsAligned old alignment = true then .ok (s.shrink page rest old size) old
    else if page.current = old ∧ ptrIsAligned old alignment = true ∧
        wrap (size - oldSize + page.used) ≤ page.total then
      .ok (s.grow page rest old size (size - oldSize)) old
    else
      (s.acquire size false alignment).next fun s new =>
        .ok { s with mem := copyMem s.mem new old oldSize } new

/-- `DynamicArenaAllocator.reset`, dynamic_arena.c3 113–127. -/
def Dyn.reset (s : Dyn) : Dyn :=
  { s with pages := [], unused := s.pages.foldl (fun u p => { p with used := 0 } :: u) s.unused }

/-- The dynamic arena as an allocator. -/
def dynamic : Allocator Dyn where
  mem := Dyn.mem
  setMem := fun s m => { s with mem := m }
  acquire := Dyn.acquire
  release := Dyn.release
  resize := Dyn.resize

end C3.StdMem
