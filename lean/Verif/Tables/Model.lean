import Verif.Symtab.Model

/-!
# Model of the pointer-keyed tables: `STable` and `HTable` (`symtab.c`), `DeclTable` (`decltable.c`)

Pointers are 64-bit numbers, 0 is `NULL`.  An allocated array is the list of its cells; an access
outside, a failed `ASSERT`, or a probe that never ends is `none`.
-/

set_option autoImplicit false

namespace C3.Tables
open C3.Symtab (nextHighestPowerOf2)

abbrev Ptr := BitVec 64

/-! ## `STable` -/

/-- `SEntry`, compiler_internal.h 199–203. -/
structure SEntry where
  key : Ptr
  value : Ptr
deriving Repr, DecidableEq

/-- `STable`, compiler_internal.h 205–211; `entries` is `none` while it is `NULL`. -/
structure STable where
  count : BitVec 32
  capacity : BitVec 32
  maxLoad : BitVec 32
  entries : Option (List SEntry)
deriving Repr

/-- `CALLOC(n * sizeof(SEntry))`. -/
def emptyEntries (n : BitVec 32) : List SEntry := List.replicate n.toNat ⟨0, 0⟩

/-- `(uint32_t)(capacity * TABLE_MAX_LOAD)` with `TABLE_MAX_LOAD` 0.5 (compiler_internal.h 72), which is
exact in double precision. -/
def loadLimit (capacity : BitVec 32) : BitVec 32 := capacity >>> 1

/-- `stable_init`, symtab.c 436–446; the size must be a power of two (asserted). -/
def stableInit (initialSize : BitVec 32) : Option STable :=
  if initialSize ≠ 0#32 ∧ initialSize &&& (initialSize - 1#32) = 0#32 then
    some ⟨0, initialSize, loadLimit initialSize, some (emptyEntries initialSize)⟩
  else none

/-- The first probe of `sentry_find`, symtab.c 456–459, and `declentry_find`, decltable.c 5–8. -/
def firstIndex (key : Ptr) (mask : BitVec 32) : BitVec 32 := (key ^^^ key >>> 16).setWidth 32 &&& mask

/-- The loop of `sentry_find`, symtab.c 460–465; the result is the position of the entry. -/
def sentryProbe (entries : List SEntry) (mask : BitVec 32) (key : Ptr) (index : BitVec 32) : Option Nat :=
  match entries[index.toNat]? with
  | none => none
  | some entry =>
    if entry.key = key ∨ entry.key = 0#64 then some index.toNat
    else sentryProbe entries mask key ((index + 1#32) &&& mask)
partial_fixpoint

/-- `sentry_find`, symtab.c 454–466. -/
def sentryFind (entries : List SEntry) (capacity : BitVec 32) (key : Ptr) : Option Nat :=
  sentryProbe entries (capacity - 1#32) key (firstIndex key (capacity - 1#32))

/-- The loop of `stable_resize`, symtab.c 476–485: the new count and array. -/
def resizeLoop (newCapacity : BitVec 32) : List SEntry → BitVec 32 → List SEntry → Option (BitVec 32 × List SEntry)
  | [], count, newData => some (count, newData)
  | entry :: rest, count, newData =>
    if entry.key = 0#64 then resizeLoop newCapacity rest count newData
    else do
      let dest ← sentryFind newData newCapacity entry.key
      resizeLoop newCapacity rest (count + 1#32) (newData.set dest entry)

/-- `stable_resize`, symtab.c 468–489; `MAX_HASH_SIZE` is 2^29 (compiler_internal.h 39). -/
def stableResize (t : STable) : Option STable :=
  if t.capacity < 0x20000000#32 then do
    let newCapacity := if t.capacity ≠ 0#32 then t.capacity <<< 2 else 16#32
    let (count, newData) ← resizeLoop newCapacity (t.entries.getD []) 0 (emptyEntries newCapacity)
    some ⟨count, newCapacity, loadLimit newCapacity, some newData⟩
  else none

/-- `stable_set`, symtab.c 491–508: the new table and the old value. -/
def stableSet (t : STable) (key value : Ptr) : Option (STable × Ptr) :=
  if value = 0#64 then none
  else do
    let entries ← t.entries
    let pos ← sentryFind entries t.capacity key
    let entry ← entries[pos]?
    if entry.value = value then some (t, entry.value)
    else
      let t1 : STable := { t with entries := some (entries.set pos ⟨key, value⟩) }
      if entry.value = 0#64 then
        let t2 : STable := { t1 with count := t1.count + 1#32 }
        if t2.count ≥ t2.maxLoad then do
          let t3 ← stableResize t2
          some (t3, entry.value)
        else some (t2, entry.value)
      else some (t1, entry.value)

/-- `stable_get`, symtab.c 511–516. -/
def stableGet (t : STable) (key : Ptr) : Option Ptr :=
  match t.entries with
  | none => some 0#64
  | some entries => do
    let pos ← sentryFind entries t.capacity key
    let entry ← entries[pos]?
    some (if entry.key = 0#64 then 0#64 else entry.value)

/-! ## `HTable` -/

/-- `HTable`, compiler_internal.h 220–224: the chains, each from its first entry on. -/
structure HTable where
  mask : BitVec 32
  entries : List (List SEntry)
deriving Repr

/-- `htable_init`, symtab.c 520–529: `initial_size * sizeof(HTEntry)` bytes of zero, that is
`3 * initial_size` pointer cells of 8 bytes. -/
def htableInit (initialSize : BitVec 32) : Option HTable :=
  if initialSize = 0#32 then none
  else some ⟨nextHighestPowerOf2 initialSize - 1#32, List.replicate (3 * initialSize.toNat) []⟩

/-- The bucket number, symtab.c 534 and 563; `>>` binds tighter than `^`. -/
def bucketIndex (key : Ptr) (mask : BitVec 32) : BitVec 32 := ((key ^^^ key >>> 8) &&& mask.setWidth 64).setWidth 32

/-- The walk along a chain. -/
def chainFind (key : Ptr) : List SEntry → Option SEntry
  | [] => none
  | e :: rest => if e.key = key then some e else chainFind key rest

/-- `htable_set`, symtab.c 531–558: the new table and the value found, or `NULL`. -/
def htableSet (t : HTable) (key value : Ptr) : Option (HTable × Ptr) :=
  if value = 0#64 then none
  else do
    let idx := bucketIndex key t.mask
    let chain ← t.entries[idx.toNat]?
    match chainFind key chain with
    | some e => some (t, e.value)
    | none => some ({ t with entries := t.entries.set idx.toNat (⟨key, value⟩ :: chain) }, 0#64)

/-- `htable_get`, symtab.c 561–572. -/
def htableGet (t : HTable) (key : Ptr) : Option Ptr := do
  let chain ← t.entries[(bucketIndex key t.mask).toNat]?
  match chainFind key chain with
  | some e => some e.value
  | none => some 0#64

/-! ## `DeclTable` -/

/-- The parts of a `Decl` the table uses: `name`, whether `decl_kind` is `DECL_DECLARRAY`, and
`decl_list` (a vector; sequence semantics justified by C20). -/
structure Decl where
  name : Ptr
  isArray : Bool
  declList : List Nat
deriving Repr, DecidableEq

/-- Declarations by number.  A `DeclId` is the position in this list; number 0 is never a declaration
(`memory_init` reserves the first 16 bytes of the arena).  That ids fit 32 bits is part of C23. -/
abbrev Heap := List Decl

/-- `DeclTable`, with `entries` `none` while it is `NULL`. -/
structure DeclTable where
  count : BitVec 32
  capacity : BitVec 32
  maxLoad : BitVec 32
  entries : Option (List Nat)
deriving Repr

/-- `decltable_init`, decltable.c 82–92. -/
def decltableInit (initialSize : BitVec 32) : Option DeclTable :=
  if initialSize ≠ 0#32 ∧ initialSize &&& (initialSize - 1#32) = 0#32 then
    some ⟨0, initialSize, loadLimit initialSize, some (List.replicate initialSize.toNat 0)⟩
  else none

/-- The loop of `declentry_find`, decltable.c 9–17. -/
def declentryProbe (heap : Heap) (entries : List Nat) (mask : BitVec 32) (name : Ptr) (index : BitVec 32) : Option Nat :=
  match entries[index.toNat]? with
  | none => none
  | some id =>
    if id = 0 then some index.toNat
    else match heap[id]? with
      | none => none
      | some decl =>
        if decl.name = name then some index.toNat
        else declentryProbe heap entries mask name ((index + 1#32) &&& mask)
partial_fixpoint

/-- `declentry_find`, decltable.c 3–18. -/
def declentryFind (heap : Heap) (entries : List Nat) (capacity : BitVec 32) (name : Ptr) : Option Nat :=
  declentryProbe heap entries (capacity - 1#32) name (firstIndex name (capacity - 1#32))

/-- The loop of `decltable_resize`, decltable.c 27–36. -/
def declResizeLoop (heap : Heap) (newCapacity : BitVec 32) :
    List Nat → BitVec 32 → List Nat → Option (BitVec 32 × List Nat)
  | [], count, newData => some (count, newData)
  | id :: rest, count, newData =>
    if id = 0 then declResizeLoop heap newCapacity rest count newData
    else do
      let decl ← heap[id]?
      let dest ← declentryFind heap newData newCapacity decl.name
      declResizeLoop heap newCapacity rest (count + 1#32) (newData.set dest id)

/-- `decltable_resize`, decltable.c 20–40. -/
def decltableResize (heap : Heap) (t : DeclTable) : Option DeclTable :=
  if t.capacity < 0x20000000#32 then do
    let newCapacity := if t.capacity ≠ 0#32 then t.capacity <<< 2 else 16#32
    let (count, newData) ← declResizeLoop heap newCapacity (t.entries.getD []) 0 (List.replicate newCapacity.toNat 0)
    some ⟨count, newCapacity, loadLimit newCapacity, some newData⟩
  else none

/-- `decltable_set`, decltable.c 42–72. -/
def decltableSet (heap : Heap) (t : DeclTable) (declId : Nat) : Option (Heap × DeclTable) := do
  let decl ← heap[declId]?
  let entries ← t.entries
  let pos ← declentryFind heap entries t.capacity decl.name
  let oldId ← entries[pos]?
  if oldId = declId then none
  else if oldId = 0 then
    let t1 : DeclTable := { t with entries := some (entries.set pos declId), count := t.count + 1#32 }
    if t1.count ≥ t1.maxLoad then do
      let t2 ← decltableResize heap t1
      some (heap, t2)
    else some (heap, t1)
  else do
    let old ← heap[oldId]?
    if old.isArray then some (heap.set oldId { old with declList := old.declList ++ [declId] }, t)
    else
      let list : Decl := ⟨decl.name, true, [oldId, declId]⟩
      some (heap ++ [list], { t with entries := some (entries.set pos heap.length) })

/-- `decltable_get`, decltable.c 75–80. -/
def decltableGet (heap : Heap) (t : DeclTable) (name : Ptr) : Option Nat :=
  match t.entries with
  | none => some 0
  | some entries => do
    let pos ← declentryFind heap entries t.capacity name
    entries[pos]?

/-! ## Histories -/

inductive Op where
  | set (key value : Ptr)
  | get (key : Ptr)
deriving Repr

def sStep (t : STable) : Op → Option (STable × Ptr)
  | .set k v => stableSet t k v
  | .get k => (stableGet t k).map fun v => (t, v)

def sRun : STable → List Op → Option (STable × List Ptr)
  | t, [] => some (t, [])
  | t, op :: ops => do
    let (t1, r) ← sStep t op
    let (t2, rs) ← sRun t1 ops
    some (t2, r :: rs)

def hStep (t : HTable) : Op → Option (HTable × Ptr)
  | .set k v => htableSet t k v
  | .get k => (htableGet t k).map fun v => (t, v)

def hRun : HTable → List Op → Option (HTable × List Ptr)
  | t, [] => some (t, [])
  | t, op :: ops => do
    let (t1, r) ← hStep t op
    let (t2, rs) ← hRun t1 ops
    some (t2, r :: rs)

/-- A program creates a declaration, enters one it has created into the table, or looks a name up.
Declarations are named by the order in which they were created. -/
inductive DOp where
  | create (name : Ptr)
  | set (n : Nat)
  | get (name : Ptr)
deriving Repr

/-- The heap, the table, and the ids of the declarations created so far. -/
structure Prog where
  heap : Heap
  table : DeclTable
  created : List Nat
deriving Repr

/-- What a caller finds behind the id it got: the declarations of that name. -/
def resolve (heap : Heap) (id : Nat) : Option (List Nat) :=
  if id = 0 then some []
  else do
    let d ← heap[id]?
    some (if d.isArray then d.declList else [id])

/-- The number of a declaration, from its id. -/
def numberOf (created : List Nat) (id : Nat) : Option Nat := created.findIdx? (· == id)

/-- One step; a look-up yields the declarations found. -/
def dStep (s : Prog) : DOp → Option (Prog × List Nat)
  | .create name => some (⟨s.heap ++ [⟨name, false, []⟩], s.table, s.created ++ [s.heap.length]⟩, [])
  | .set n => do
    let id ← s.created[n]?
    let r ← decltableSet s.heap s.table id
    some (⟨r.1, r.2, s.created⟩, [])
  | .get name => do
    let id ← decltableGet s.heap s.table name
    let l ← resolve s.heap id
    let ns ← l.mapM (numberOf s.created)
    some (s, ns)

def dRun : Prog → List DOp → Option (Prog × List (List Nat))
  | s, [] => some (s, [])
  | s, op :: ops => do
    let (s1, r) ← dStep s op
    let (s2, rs) ← dRun s1 ops
    some (s2, r :: rs)

end C3.Tables
