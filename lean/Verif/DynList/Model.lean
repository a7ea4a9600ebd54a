import Verif.Codec.Model

/-!
# Model of `lib/std/collections/list.c3` and `list_common.c3`

A list is its `size` and `capacity` fields and the cells `entries` points at.  A cell is `none`
while it is uninitialised.  An operation is `none` when it reads an uninitialised cell, accesses a
cell outside the allocation, fails an `assert` or `@require`, or does not terminate.

Simplifications: allocation always succeeds; the allocator field and the address-sanitizer
annotations are left out; filters and `equals` are functions of the element value (the code passes
filters a pointer to it).
-/

set_option autoImplicit false

namespace C3.DynList
open C3.Codec (store)

variable {α : Type}

/-- `struct List`, list.c3 18–24, without the allocator. -/
structure DList (α : Type) where
  size : Nat
  capacity : Nat
  entries : List (Option α)
deriving Repr

/-- A zero-initialised list. -/
def DList.zero : DList α := ⟨0, 0, []⟩

/-- Reading `entries[i]`. -/
def load (e : List (Option α)) (i : Nat) : Option α := (e[i]?).join

/-- `entries[dst:n] = entries[src:n]`, a `memmove` (llvm_codegen_expr.c 2794–2828). -/
def moveCells (e : List (Option α)) (dst src n : Nat) : Option (List (Option α)) :=
  if dst + n ≤ e.length ∧ src + n ≤ e.length then
    some (e.take dst ++ (e.drop src).take n ++ e.drop (dst + n))
  else none

/-- `entries[dst:n] = values`. -/
def copyIn (e : List (Option α)) (dst : Nat) (values : List α) : Option (List (Option α)) :=
  if dst + values.length ≤ e.length then
    some (e.take dst ++ values.map some ++ e.drop (dst + values.length))
  else none

/-- `while (y < x) y += y` in `usz`, math.c3 969–974. -/
def nextPow2Loop (x y : Nat) : Option Nat :=
  if y < x then nextPow2Loop x ((y + y) % 2 ^ 64) else some y
partial_fixpoint

/-- `allocator::realloc(self.allocator, self.entries, bytes)` seen as cells of `sz` bytes: the common
prefix is kept, new cells are uninitialised. -/
def realloc (e : List (Option α)) (cells : Nat) : List (Option α) :=
  e.take cells ++ List.replicate (cells - e.length) none

/-- `List.ensure_capacity`, list.c3 346–373; `sz` is `Type.sizeof`. -/
def ensureCapacity (sz : Nat) (l : DList α) (minCapacity : Nat) : Option (DList α) :=
  if minCapacity = 0 then some l
  else if l.capacity ≥ minCapacity then some l
  else do
    let m ← nextPow2Loop minCapacity 1
    some { l with capacity := m, entries := realloc l.entries (sz * m % 2 ^ 64 / sz) }

/-- `while (new_capacity < new_size) new_capacity *= 2U`, list.c3 406. -/
def growLoop (newSize newCapacity : Nat) : Option Nat :=
  if newCapacity < newSize then growLoop newSize (newCapacity * 2 % 2 ^ 64) else some newCapacity
partial_fixpoint

/-- `List.reserve`, list.c3 399–408. -/
def reserve (sz : Nat) (l : DList α) (added : Nat) : Option (DList α) :=
  let newSize := (l.size + added) % 2 ^ 64
  if l.capacity ≥ newSize then some l
  else if ¬ newSize < (2 ^ 64 - 1) / 2 then none
  else do
    let c ← growLoop newSize (if l.capacity ≠ 0 then 2 * l.capacity % 2 ^ 64 else 16)
    ensureCapacity sz l c

/-- `List.set_size`, list.c3 421–430, with its `@require`; the old size it returns is `l.size`. -/
def setSize (l : DList α) (newSize : Nat) : Option (DList α) :=
  if newSize = 0 ∨ l.capacity ≠ 0 then some { l with size := newSize } else none

/-- `List.init`, list.c3 30–38. -/
def init (sz initialCapacity : Nat) : Option (DList α) := reserve sz .zero initialCapacity

/-- `List.push`, list.c3 110–114. -/
def push (sz : Nat) (l : DList α) (x : α) : Option (DList α) := do
  let l1 ← reserve sz l 1
  let l2 ← setSize l1 (l1.size + 1)
  let e ← store l2.entries l1.size (some x)
  some { l2 with entries := e }

/-- `List.pop`, list.c3 116–121. -/
def pop (l : DList α) : Option (DList α × Option α) :=
  if l.size = 0 then some (l, none)
  else do
    let v ← load l.entries (l.size - 1)
    let l' ← setSize l (l.size - 1)
    some (l', some v)

/-- `List.clear`, list.c3 123–126. -/
def clear (l : DList α) : Option (DList α) := setSize l 0

/-- `List.remove_at`, list.c3 135–143, with its `@require`. -/
def removeAt (l : DList α) (index : Nat) : Option (DList α) :=
  if ¬ index < l.size then none
  else do
    let l1 ← setSize l (l.size - 1)
    if l1.size = 0 ∨ index = l1.size then some l1
    else do
      let e ← moveCells l1.entries index (index + 1) (l1.size - index)
      some { l1 with entries := e }

/-- `List.pop_first`, list.c3 128–133. -/
def popFirst (l : DList α) : Option (DList α × Option α) :=
  if l.size = 0 then some (l, none)
  else do
    let v ← load l.entries 0
    let l' ← removeAt l 0
    some (l', some v)

/-- The `foreach` of `List.add_all`, list.c3 150–153; the length was read before the loop.  `src` is
the memory of the other list. -/
def addAllLoop (src : List (Option α)) (len i : Nat) (e : List (Option α)) (index : Nat) :
    Option (List (Option α)) :=
  if i < len then do
    let v ← load src i
    let e' ← store e index (some v)
    addAllLoop src len (i + 1) e' (index + 1)
  else some e
termination_by len - i

/-- `List.add_all`, list.c3 145–154, for another list. -/
def addAll (sz : Nat) (l other : DList α) : Option (DList α) :=
  if other.size = 0 then some l
  else do
    let l1 ← reserve sz l other.size
    let l2 ← setSize l1 (l1.size + other.size)
    let e ← addAllLoop other.entries other.size 0 l2.entries l1.size
    some { l2 with entries := e }

/-- The same `foreach` when the list is added to itself: it reads the memory it writes. -/
def addSelfLoop (len i : Nat) (e : List (Option α)) (index : Nat) : Option (List (Option α)) :=
  if i < len then do
    let v ← load e i
    let e' ← store e index (some v)
    addSelfLoop len (i + 1) e' (index + 1)
  else some e
termination_by len - i

/-- `List.add_all`, list.c3 145–154, called with `other_list == self`: `other_list.size` is read for
the loop after `set_size`. -/
def addAllSelf (sz : Nat) (l : DList α) : Option (DList α) :=
  if l.size = 0 then some l
  else do
    let l1 ← reserve sz l l.size
    let l2 ← setSize l1 (l1.size + l1.size)
    let e ← addSelfLoop l2.size 0 l2.entries l1.size
    some { l2 with entries := e }

/-- `list_to_array`, list_common.c3 14–20 (and `list_to_aligned_array`). -/
def toArray (l : DList α) : Option (List α) := (l.entries.take l.size).mapM id

/-- `List.array_view`, list.c3 190–193: the cells the slice covers. -/
def arrayView (l : DList α) : List (Option α) := l.entries.take l.size

/-- The loop of `list_reverse`, list_common.c3 27–30. -/
def reverseLoop (half last i : Nat) (e : List (Option α)) : Option (List (Option α)) :=
  if i < half then do
    let a ← load e i
    let b ← load e (last - i)
    let e1 ← store e i (some b)
    let e2 ← store e1 (last - i) (some a)
    reverseLoop half last (i + 1) e2
  else some e
termination_by half - i

/-- `List.reverse`, list.c3 185–188, and `list_reverse`, list_common.c3 22–31. -/
def reverse (l : DList α) : Option (DList α) :=
  if l.size < 2 then some l
  else do
    let e ← reverseLoop (l.size / 2) (l.size - 1) 0 l.entries
    some { l with entries := e }

/-- `List.add_array`, list.c3 201–207. -/
def addArray (sz : Nat) (l : DList α) (array : List α) : Option (DList α) :=
  if array.length = 0 then some l
  else do
    let l1 ← reserve sz l array.length
    let l2 ← setSize l1 (l1.size + array.length)
    let e ← copyIn l2.entries l1.size array
    some { l2 with entries := e }

/-- `for (isz i = …; i > index; i--) entries[i] = entries[i - 1]`, list.c3 221–224. -/
def insertLoop (index : Nat) : Nat → List (Option α) → Option (List (Option α))
  | 0, e => some e
  | i + 1, e =>
    if i + 1 > index then do
      let v ← load e i
      let e' ← store e (i + 1) (some v)
      insertLoop index i e'
    else some e

/-- `List.insert_at`, list.c3 214–226. -/
def insertAt (sz : Nat) (l : DList α) (index : Nat) (x : α) : Option (DList α) :=
  if ¬ index ≤ l.size then none
  else do
    let l1 ← reserve sz l 1
    let l2 ← setSize l1 (l1.size + 1)
    let e ← insertLoop index (l2.size - 1) l2.entries
    let e' ← store e index (some x)
    some { l2 with entries := e' }

/-- `List.push_front`, list.c3 209–212. -/
def pushFront (sz : Nat) (l : DList α) (x : α) : Option (DList α) := insertAt sz l 0 x

/-- `List.set_at` and `List.set`, list.c3 228–234 and 391–397. -/
def setAt (l : DList α) (index : Nat) (x : α) : Option (DList α) :=
  if ¬ index < l.size then none
  else do
    let e ← store l.entries index (some x)
    some { l with entries := e }

/-- `List.remove_last`, list.c3 236–240; the Boolean is whether it succeeded. -/
def removeLast (l : DList α) : Option (DList α × Bool) :=
  if l.size = 0 then some (l, false)
  else do
    let l' ← setSize l (l.size - 1)
    some (l', true)

/-- `List.remove_first`, list.c3 242–246. -/
def removeFirst (l : DList α) : Option (DList α × Bool) :=
  if l.size = 0 then some (l, false)
  else do
    let l' ← removeAt l 0
    some (l', true)

/-- `List.first`, list.c3 248–252. -/
def first (l : DList α) : Option (Option α) :=
  if l.size = 0 then some none
  else do
    let v ← load l.entries 0
    some (some v)

/-- `List.last`, list.c3 254–258. -/
def last (l : DList α) : Option (Option α) :=
  if l.size = 0 then some none
  else do
    let v ← load l.entries (l.size - 1)
    some (some v)

/-- `List.get` and `List.@item_at`, list.c3 275–281 and 375–381. -/
def get (l : DList α) (index : Nat) : Option α :=
  if ¬ index < l.size then none else load l.entries index

/-- `List.swap`, list.c3 299–305. -/
def swap (l : DList α) (i j : Nat) : Option (DList α) :=
  if ¬ (i < l.size ∧ j < l.size) then none
  else do
    let a ← load l.entries i
    let b ← load l.entries j
    let e1 ← store l.entries i (some b)
    let e2 ← store e1 j (some a)
    some { l with entries := e2 }

/-- `while (i > 0 && p(&self.entries[i - 1])) i--`, list_common.c3 93–97 and 103–107. -/
def scanDown (p : α → Bool) (e : List (Option α)) : Nat → Option Nat
  | 0 => some 0
  | i + 1 => do
    let v ← load e i
    if p v then scanDown p e i else some (i + 1)

/-- The outer loop of `list_remove_if`, list_common.c3 89–108; `del` says whether an element is to be
deleted (`filter`, or its negation when `$invert`). -/
def removeLoop (del : α → Bool) (l : DList α) (i k : Nat) : Option (DList α) :=
  if k > 0 then do
    let i1 ← scanDown del l.entries i
    let n := l.size - k
    let e ← moveCells l.entries i1 k n
    let l' : DList α := { l with entries := e, size := l.size - (k - i1) }
    let i2 ← scanDown (fun x => !del x) e i1
    removeLoop del l' i2 i2
  else some l
partial_fixpoint

/-- `list_remove_if`, list_common.c3 86–110, and the identical `list_remove_using_test`, 33–57;
`List.remove_if`, `List.retain_if`, `List.remove_using_test`, `List.retain_using_test`, list.c3
307–344. -/
def removeIf (l : DList α) (filter : α → Bool) (invert : Bool) : Option (DList α × Nat) := do
  let l' ← removeLoop (fun x => if invert then !filter x else filter x) l l.size l.size
  some (l', l.size - l'.size)

/-- `for (usz j = …; j < size; j++) entries[j - 1] = entries[j]`, list_common.c3 65–68 and 79–82. -/
def shiftLoop (size j : Nat) (e : List (Option α)) : Option (List (Option α)) :=
  if j < size then do
    let v ← load e j
    let e' ← store e (j - 1) (some v)
    shiftLoop size (j + 1) e'
  else some e
termination_by size - j

/-- The loop of `list_remove_item`, list_common.c3 76–84. -/
def removeItemLoop (eq : α → α → Bool) (value : α) : Nat → DList α → Option (DList α)
  | 0, l => some l
  | i + 1, l => do
    let v ← load l.entries i
    if !eq v value then removeItemLoop eq value i l
    else do
      let e ← shiftLoop l.size (i + 1) l.entries
      removeItemLoop eq value i { l with entries := e, size := l.size - 1 }

/-- `List.remove_item`, list.c3 517–524, and `list_remove_item`, list_common.c3 73–86. -/
def removeItem (eq : α → α → Bool) (l : DList α) (value : α) : Option (DList α × Nat) := do
  let l' ← removeItemLoop eq value l.size l
  some (l', l.size - l'.size)

/-- The loop of `list_compact`, list_common.c3 62–70: `size` is the size at the start. -/
def compactLoop (isNull : α → Bool) (size : Nat) : Nat → DList α → Option (DList α)
  | 0, l => some l
  | i + 1, l => do
    let v ← load l.entries i
    if !isNull v then compactLoop isNull size i l
    else do
      let e ← shiftLoop size (i + 1) l.entries
      compactLoop isNull size i { l with entries := e, size := l.size - 1 }

/-- `List.compact`, list.c3 549–556, and `list_compact`, list_common.c3 59–71. -/
def compact (isNull : α → Bool) (l : DList α) : Option (DList α × Nat) := do
  let l' ← compactLoop isNull l.size l.size l
  some (l', l.size - l'.size)

/-- `List.index_of`, list.c3 449–456 (the `foreach` from index `i`). -/
def indexOfLoop (eq : α → α → Bool) (value : α) (l : DList α) (i : Nat) : Option (Option Nat) :=
  if i < l.size then do
    let v ← get l i
    if eq v value then some (some i) else indexOfLoop eq value l (i + 1)
  else some none
termination_by l.size - i

/-- `List.rindex_of`, list.c3 458–465 (the `foreach_r` below index `i`). -/
def rindexOfLoop (eq : α → α → Bool) (value : α) (l : DList α) : Nat → Option (Option Nat)
  | 0 => some none
  | i + 1 => do
    let v ← get l i
    if eq v value then some (some i) else rindexOfLoop eq value l i

/-- `List.index_of`, list.c3 449–456. -/
def indexOf (eq : α → α → Bool) (l : DList α) (value : α) : Option (Option Nat) :=
  indexOfLoop eq value l 0

/-- `List.rindex_of`, list.c3 458–465. -/
def rindexOf (eq : α → α → Bool) (l : DList α) (value : α) : Option (Option Nat) :=
  rindexOfLoop eq value l l.size

/-- `List.contains`, list.c3 484–491, which is the loop of `index_of`. -/
def contains (eq : α → α → Bool) (l : DList α) (value : α) : Option Bool := do
  let r ← indexOfLoop eq value l 0
  some r.isSome

/-- `List.remove_first_item`, list.c3 508–511. -/
def removeFirstItem (eq : α → α → Bool) (l : DList α) (value : α) : Option (DList α × Bool) := do
  match ← indexOf eq l value with
  | none => some (l, false)
  | some i => do
    let l' ← removeAt l i
    some (l', true)

/-- `List.remove_last_item`, list.c3 498–501. -/
def removeLastItem (eq : α → α → Bool) (l : DList α) (value : α) : Option (DList α × Bool) := do
  match ← rindexOf eq l value with
  | none => some (l, false)
  | some i => do
    let l' ← removeAt l i
    some (l', true)

/-- The operations a caller can perform. -/
inductive Op (α : Type) where
  | push (x : α)
  | pop
  | popFirst
  | clear
  | removeAt (i : Nat)
  /-- `add_all` of another list holding these elements, itself made with `init_with_array`. -/
  | addAll (other : DList α)
  | addArray (xs : List α)
  | reverse
  | pushFront (x : α)
  | insertAt (i : Nat) (x : α)
  | setAt (i : Nat) (x : α)
  | removeLast
  | removeFirst
  | first
  | last
  | len
  | get (i : Nat)
  | swap (i j : Nat)
  | removeIf (filter : α → Bool)
  | retainIf (filter : α → Bool)
  | removeItem (x : α)
  | removeFirstItem (x : α)
  | removeLastItem (x : α)
  | indexOf (x : α)
  | rindexOf (x : α)
  | contains (x : α)
  | compact (isNull : α → Bool)
  | toArray

/-- What an operation returns to the caller. -/
inductive Res (α : Type) where
  | unit
  /-- A value, or the fault `NO_MORE_ELEMENT`. -/
  | value (v : Option α)
  | nat (n : Nat)
  /-- An index, or the fault `NOT_FOUND`. -/
  | index (i : Option Nat)
  | bool (b : Bool)
  | array (xs : List α)

/-- One call; `sz` is the element size, `eq` the element equality. -/
def step (sz : Nat) (eq : α → α → Bool) (l : DList α) : Op α → Option (DList α × Res α)
  | .push x => (push sz l x).map (·, .unit)
  | .pop => (pop l).map fun (l', v) => (l', .value v)
  | .popFirst => (popFirst l).map fun (l', v) => (l', .value v)
  | .clear => (clear l).map (·, .unit)
  | .removeAt i => (removeAt l i).map (·, .unit)
  | .addAll other => (addAll sz l other).map (·, .unit)
  | .addArray xs => (addArray sz l xs).map (·, .unit)
  | .reverse => (reverse l).map (·, .unit)
  | .pushFront x => (pushFront sz l x).map (·, .unit)
  | .insertAt i x => (insertAt sz l i x).map (·, .unit)
  | .setAt i x => (setAt l i x).map (·, .unit)
  | .removeLast => (removeLast l).map fun (l', b) => (l', .bool b)
  | .removeFirst => (removeFirst l).map fun (l', b) => (l', .bool b)
  | .first => (first l).map fun v => (l, .value v)
  | .last => (last l).map fun v => (l, .value v)
  | .len => some (l, .nat l.size)
  | .get i => (get l i).map fun v => (l, .value (some v))
  | .swap i j => (swap l i j).map (·, .unit)
  | .removeIf f => (removeIf l f false).map fun (l', n) => (l', .nat n)
  | .retainIf f => (removeIf l f true).map fun (l', n) => (l', .nat n)
  | .removeItem x => (removeItem eq l x).map fun (l', n) => (l', .nat n)
  | .removeFirstItem x => (removeFirstItem eq l x).map fun (l', b) => (l', .bool b)
  | .removeLastItem x => (removeLastItem eq l x).map fun (l', b) => (l', .bool b)
  | .indexOf x => (indexOf eq l x).map fun i => (l, .index i)
  | .rindexOf x => (rindexOf eq l x).map fun i => (l, .index i)
  | .contains x => (contains eq l x).map fun b => (l, .bool b)
  | .compact isNull => (compact isNull l).map fun (l', n) => (l', .nat n)
  | .toArray => (toArray l).map fun xs => (l, .array xs)

/-- A history of calls, with the results in order. -/
def run (sz : Nat) (eq : α → α → Bool) : DList α → List (Op α) → Option (DList α × List (Res α))
  | l, [] => some (l, [])
  | l, op :: ops => do
    let (l1, r) ← step sz eq l op
    let (l2, rs) ← run sz eq l1 ops
    some (l2, r :: rs)

end C3.DynList
