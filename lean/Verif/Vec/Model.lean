import Verif.Codec.Model

/-!
# Model of the compiler's growable vector, `src/utils/lib.h`

A vector is a pointer to its elements; the `VHeader_` lies just before them.  The model covers vectors
of pointer-sized elements (8 bytes): the erase functions move pointers whatever the element type.  A
failed `ASSERT`, an access outside the block the arena gave, and signed overflow of a loop counter are
`none`.  A vector that has grown is a new block; the model follows the newest one only, which is what the
macros store back into the variable.
-/

set_option autoImplicit false

namespace C3.Vec
open C3.Codec (store)

abbrev Elem := BitVec 64

/-- `VHeader_`, lib.h 254–259, with the block of elements that follows it. -/
structure Block where
  size : BitVec 32
  capacity : BitVec 32
  data : List Elem
deriving Repr

/-- A vector variable: `NULL` or a block. -/
abbrev Vec := Option Block

/-- How many elements fit into a block for `capacity` of them: `calloc_arena` (malloc.c 43–50) rounds
`8 * capacity + sizeof(VHeader_)` bytes up to a multiple of 16. -/
def room (capacity : Nat) : Nat := ((8 * capacity + 8 + 15) / 16 * 16 - 8) / 8

/-- `vec_new_`, lib.h 261–268; also `VECNEW`, 360. -/
def vecNew (capacity : Nat) : Option Block :=
  if capacity < 0xFFFFFFFF then some ⟨0#32, BitVec.ofNat 32 capacity, List.replicate (room capacity) 0#64⟩
  else none

/-- `vec_size`, lib.h 429–434. -/
def vecSize (v : Vec) : BitVec 32 :=
  match v with
  | none => 0#32
  | some b => b.size

/-- `expand_`, lib.h 316–345. -/
def expand (v : Vec) : Option Block := do
  let header ← match v with
    | none => vecNew 8
    | some b => some b
  if header.size = header.capacity then do
    let new ← vecNew (header.capacity <<< 1).toNat
    -- memcpy of the header and `capacity` elements
    if header.capacity.toNat ≤ header.data.length ∧ header.capacity.toNat ≤ new.data.length then
      some ⟨header.size + 1#32, header.capacity <<< 1,
        header.data.take header.capacity.toNat ++ new.data.drop header.capacity.toNat⟩
    else none
  else some { header with size := header.size + 1#32 }

/-- `vec_add`, lib.h 361–365. -/
def vecAdd (v : Vec) (value : Elem) : Option Block := do
  let b ← expand v
  let data ← store b.data (b.size - 1#32).toNat value
  some { b with data := data }

/-- The loop `for (x = start; x > at; x--) vec[x] = vec[x - 1]`, lib.h 371 and 379. -/
def shiftUp (data : List Elem) (at_ : Nat) : Nat → Option (List Elem)
  | 0 => some data
  | x + 1 =>
    if at_ < x + 1 then do
      let e ← data[x]?
      let data ← store data (x + 1) e
      shiftUp data at_ x
    else some data

/-- `vec_insert_at`, lib.h 375–381. -/
def vecInsertAt (v : Vec) (at_ : BitVec 32) (value : Elem) : Option Block := do
  let b ← expand v
  let data ← shiftUp b.data at_.toNat (b.size - 1#32).toNat
  let data ← store data at_.toNat value
  some { b with data := data }

/-- `vec_insert_first`, lib.h 367–373. -/
def vecInsertFirst (v : Vec) (value : Elem) : Option Block := do
  let b ← expand v
  let data ← shiftUp b.data 0 (b.size - 1#32).toNat
  let data ← store data 0 value
  some { b with data := data }

/-- `vec_resize`, lib.h 271–276. -/
def vecResize (v : Vec) (newSize : BitVec 32) : Vec :=
  match v with
  | none => none
  | some b => some { b with size := newSize }

/-- `vec_pop`, lib.h 279–285. -/
def vecPop (v : Vec) : Option Block := do
  let b ← v
  if b.size = 0#32 then none else some { b with size := b.size - 1#32 }

/-- The loop `for (i = from; i < size; i++) vec[i - back] = vec[i]`, lib.h 294–297 and 308–311; `n` is
`size - i`. -/
def shiftDown (data : List Elem) (back : Nat) (i : Nat) : Nat → Option (List Elem)
  | 0 => some data
  | n + 1 => do
    let e ← data[i]?
    let data ← store data (i - back) e
    shiftDown data back (i + 1) n

/-- `vec_erase_front`, lib.h 287–300; the counter is an `int`. -/
def vecEraseFront (v : Vec) (toErase : BitVec 32) : Option Vec :=
  if toErase = 0#32 then some v
  else do
    let b ← v
    if toErase ≤ b.size ∧ b.size.toNat < 2 ^ 31 then do
      let data ← shiftDown b.data toErase.toNat toErase.toNat (b.size.toNat - toErase.toNat)
      some (some { b with data := data, size := b.size - toErase })
    else none

/-- `vec_erase_at`, lib.h 302–314; the counter is an `int`. -/
def vecEraseAt (v : Vec) (i : BitVec 32) : Option Block := do
  let b ← v
  if i < b.size ∧ b.size.toNat < 2 ^ 31 then do
    let data ← shiftDown b.data 1 (i.toNat + 1) (b.size.toNat - (i.toNat + 1))
    some { b with data := data, size := b.size - 1#32 }
  else none

/-- Reading `vec[i]`. -/
def vecGet (v : Vec) (i : Nat) : Option Elem := do
  let b ← v
  b.data[i]?

/-- Writing `vec[i]`. -/
def vecSet (v : Vec) (i : Nat) (value : Elem) : Option Block := do
  let b ← v
  let data ← store b.data i value
  some { b with data := data }

/-- `VECLAST`, lib.h 383–387. -/
def vecLast (v : Vec) : Option Elem :=
  if vecSize v = 0#32 then some 0#64 else vecGet v (vecSize v - 1#32).toNat

/-- `FOREACH_IDX`, lib.h 355–358, with a body that records the element. -/
def foreachIdx (v : Vec) (i : Nat) : Nat → Option (List Elem)
  | 0 => some []
  | n + 1 => do
    let e ← vecGet v i
    let es ← foreachIdx v (i + 1) n
    some (e :: es)

/-! ## Histories -/

inductive Op where
  | add (value : Elem)
  | insertFirst (value : Elem)
  | insertAt (i : BitVec 32) (value : Elem)
  | pop
  | eraseFront (n : BitVec 32)
  | eraseAt (i : BitVec 32)
  | resize (n : BitVec 32)
  | set (i : BitVec 32) (value : Elem)
  | get (i : BitVec 32)
  | last
  | size
  | foreach
deriving Repr

def step (v : Vec) : Op → Option (Vec × List Elem)
  | .add x => (vecAdd v x).map fun b => (some b, [])
  | .insertFirst x => (vecInsertFirst v x).map fun b => (some b, [])
  | .insertAt i x => (vecInsertAt v i x).map fun b => (some b, [])
  | .pop => (vecPop v).map fun b => (some b, [])
  | .eraseFront n => (vecEraseFront v n).map fun w => (w, [])
  | .eraseAt i => (vecEraseAt v i).map fun b => (some b, [])
  | .resize n => some (vecResize v n, [])
  | .set i x => (vecSet v i.toNat x).map fun b => (some b, [])
  | .get i => (vecGet v i.toNat).map fun e => (v, [e])
  | .last => (vecLast v).map fun e => (v, [e])
  | .size => some (v, [(vecSize v).setWidth 64])
  | .foreach => (foreachIdx v 0 (vecSize v).toNat).map fun l => (v, l)

def run : Vec → List Op → Option (Vec × List (List Elem))
  | v, [] => some (v, [])
  | v, op :: ops => do
    let (v1, r) ← step v op
    let (v2, rs) ← run v1 ops
    some (v2, r :: rs)

end C3.Vec
