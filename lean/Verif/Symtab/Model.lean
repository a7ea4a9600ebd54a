/-!
# Model of `src/compiler/symtab.c`: the identifier table

The bucket array is the list of its chains, each chain the list of its nodes from the first one on.
Texts copied by `str_copy` live in `heap`; a symbol pointer is the position of its text in `heap`
(`str_copy` only ever appends to the string arena, `stringutils.c` 313–319, `malloc.c` 32–37).
A read outside an allocation is `none`.
-/

set_option autoImplicit false

namespace C3.Symtab

abbrev Byte := BitVec 8

/-- `struct SymtabEntry_`, symtab.c 7–16, without the unused fields; `type` is the number of the
token kind, which the code keeps in 16 bits (there are fewer than 2^16 token kinds). -/
structure Entry where
  symbol : Nat
  keyLen : BitVec 16
  type : Nat
  index : BitVec 32
deriving Repr, DecidableEq

/-- `SymTab`, symtab.c 18–23, and the string arena.  `bucket_max` is the length of `bucket`. -/
structure SymTab where
  bucket : List (List Entry)
  mask : BitVec 64
  heap : List (List Byte)
deriving Repr

/-- `next_highest_power_of_2`, lib.h 457–467. -/
def nextHighestPowerOf2 (v : BitVec 32) : BitVec 32 :=
  let v := v - 1#32
  let v := v ||| v >>> 1
  let v := v ||| v >>> 2
  let v := v ||| v >>> 4
  let v := v ||| v >>> 8
  let v := v ||| v >>> 16
  v + 1#32

/-- `symtab_init`, symtab.c 80–90; `none` is the error exit for sizes below 0x100.  The keywords the
rest of the function registers are calls of `add` and so part of the histories considered. -/
def init (capacity : BitVec 32) : Option SymTab :=
  if capacity < 0x100#32 then none
  else
    let capacity := nextHighestPowerOf2 capacity
    some ⟨List.replicate capacity.toNat [], (capacity - 1#32).setWidth 64, []⟩

/-- `memcmp(a, b, n) == 0` for `a` a text of `n` bytes and `b` a stored text with its terminating
zero. -/
def memcmpEq (a b : List Byte) : Option Bool :=
  if a.length ≤ b.length + 1 then some (a == (b ++ [0]).take a.length) else none

/-- The search along a chain in `symtab_find` (381–389) and `symtab_add` (417–425). -/
def search (heap : List (List Byte)) (data : List Byte) (hash : BitVec 32) : List Entry → Option (Option Entry)
  | [] => some none
  | e :: rest =>
    if e.index = hash ∧ data.length = e.keyLen.toNat then do
      let s ← heap[e.symbol]?
      let eq ← memcmpEq data s
      if eq then some (some e) else search heap data hash rest
    else search heap data hash rest

/-- `symtab_find`, symtab.c 377–391: the symbol and its token kind, or `NULL`. -/
def find (t : SymTab) (symbol : List Byte) (fnv1hash : BitVec 32) : Option (Option (Nat × Nat)) := do
  let pos := fnv1hash.setWidth 64 &&& t.mask
  let chain ← t.bucket[pos.toNat]?
  let r ← search t.heap symbol fnv1hash chain
  some (r.map fun e => (e.symbol, e.type))

/-- `symtab_add`, symtab.c 402–433: the new table, the symbol, and the token kind stored through
`type`.  The code's separate treatment of an empty chain does the same as the general case. -/
def add (t : SymTab) (data : List Byte) (fnv1hash : BitVec 32) (type : Nat) : Option (SymTab × Nat × Nat) := do
  let pos := fnv1hash.setWidth 64 &&& t.mask
  let chain ← t.bucket[pos.toNat]?
  let r ← search t.heap data fnv1hash chain
  match r with
  | some e => some (t, e.symbol, e.type)
  | none =>
    let node : Entry := ⟨t.heap.length, BitVec.ofNat 16 data.length, type, fnv1hash⟩
    some (⟨t.bucket.set pos.toNat (node :: chain), t.mask, t.heap ++ [data]⟩, t.heap.length, type)

/-- One step of `fnv1a`: `(unsigned)(c) ^ seed) * FNV1_PRIME`, lib.h 242; `c` is a `char`, taken as
signed as on the usual targets. -/
def fnv1aStep (hash : BitVec 32) (c : Byte) : BitVec 32 := (c.signExtend 32 ^^^ hash) * 0x01000193#32

/-- `fnv1a`, lib.h 244–252. -/
def fnv1a (key : List Byte) : BitVec 32 := key.foldl fnv1aStep 0x811C9DC5#32

/-- A registration with a token kind or a mere look-up. -/
inductive Op where
  | add (text : List Byte) (type : Nat)
  | find (text : List Byte)
deriving Repr

/-- One call; the result is the symbol and its token kind. -/
def step (hash : List Byte → BitVec 32) (t : SymTab) : Op → Option (SymTab × Option (Nat × Nat))
  | .add text type => (add t text (hash text) type).map fun r => (r.1, some r.2)
  | .find text => (find t text (hash text)).map fun r => (t, r)

/-- A history of calls. -/
def run (hash : List Byte → BitVec 32) : SymTab → List Op → Option (SymTab × List (Option (Nat × Nat)))
  | t, [] => some (t, [])
  | t, op :: ops => do
    let (t1, r) ← step hash t op
    let (t2, rs) ← run hash t1 ops
    some (t2, r :: rs)

end C3.Symtab
