/-!
# Model of `lib/std/collections/hashmap.c3`

The entries live in a heap: an address is a natural number, 0 is the null pointer, and what stands at an address is `none` if
it is not allocated.  Reading, writing and freeing what is not allocated, and an index outside of a table, are faults
(`none`), and so is a loop that does not end.

The heap is the one of a single map: other blocks of its allocator, the memory of the tables, and copies of keys
(`COPY_KEYS`) are left out.  The address of a new entry is an argument of the operations that allocate one.
`(uint)(capacity * load_factor)` is a parameter `limit` of all operations, any function of the capacity.
-/

set_option autoImplicit false

namespace C3.HashMap

variable {K V : Type}

/-- `Entry`, hashmap.c3 21–27. -/
structure Entry (K V : Type) where
  hash : BitVec 32
  key : K
  value : V
  next : Nat

def Heap (K V : Type) : Type := Nat → Option (Entry K V)

/-- `*p = e`. -/
def Heap.put (h : Heap K V) (p : Nat) (e : Option (Entry K V)) : Heap K V := fun a => if a = p then e else h a

/-- `allocator::free` of an entry. -/
def Heap.free (h : Heap K V) (p : Nat) : Option (Heap K V) := if (h p).isSome then some (h.put p none) else none

/-- `HashMap`, hashmap.c3 29–36, without the allocator; `alive`: the map is initialized (137–141). -/
structure Map where
  table : List Nat
  count : Nat
  threshold : Nat
  alive : Bool

/-- What the operations need to know about the key type: `Key.hash`, `equals`, and the limit of a capacity. -/
structure Env (K : Type) where
  keyHash : K → BitVec 32
  equals : K → K → Bool
  limit : Nat → Nat

/-- `rehash`, hashmap.c3 581–585. -/
def rehash (hash : BitVec 32) : BitVec 32 :=
  let hash := hash ^^^ ((hash >>> 20) ^^^ (hash >>> 12))
  hash ^^^ ((hash >>> 7) ^^^ (hash >>> 4))

/-- `index_for`, hashmap.c3 587–590. -/
def index_for (hash : BitVec 32) (capacity : Nat) : Nat := (hash &&& (BitVec.ofNat 32 capacity - 1#32)).toNat

/-- The loop of `math::next_power_of_2`, math.c3 969–974, from `y` on.  `y += y` is one of `uint`, and wraps. -/
def nextPower (x y : Nat) : Option Nat := if y < x then nextPower x ((y + y) % 2 ^ 32) else some y
partial_fixpoint

/-- `HashMap.init`, hashmap.c3 46–54. -/
def init (E : Env K) (capacity : Nat) : Option Map := do
  let capacity ← nextPower capacity 1
  some ⟨List.replicate capacity 0, 0, E.limit capacity, true⟩

/-- The loop over a chain of `get_ref`, `set`, `put_for_create` and `@get_or_set`, hashmap.c3 178–181 and 243–250: the entry
of the key, or null. -/
def find (E : Env K) (h : Heap K V) (hash : BitVec 32) (key : K) (e : Nat) : Option Nat :=
  if e = 0 then some 0
  else
    match h e with
    | none => none
    | some x => if x.hash = hash && E.equals key x.key then some e else find E h hash key x.next
partial_fixpoint

/-- `HashMap.get_entry` and `get_ref`, hashmap.c3 174–194; `some 0` for `NOT_FOUND`. -/
def get_entry (E : Env K) (h : Heap K V) (m : Map) (key : K) : Option Nat :=
  if m.count = 0 then some 0
  else
    let hash := rehash (E.keyHash key)
    match m.table[index_for hash m.table.length]? with
    | none => none
    | some e => find E h hash key e

/-- `HashMap.get`, hashmap.c3 219–222; `some none` for `NOT_FOUND`. -/
def get (E : Env K) (h : Heap K V) (m : Map) (key : K) : Option (Option V) :=
  match get_entry E h m key with
  | none => none
  | some e => if e = 0 then some none else (h e).map fun x => some x.value

/-- `HashMap.has_key`, hashmap.c3 224–227. -/
def has_key (E : Env K) (h : Heap K V) (m : Map) (key : K) : Option Bool := (get_entry E h m key).map (· != 0)

/-- The inner loop of `transfer`, hashmap.c3 435–443. -/
def transferChain (h : Heap K V) (new_table : List Nat) (e : Nat) : Option (Heap K V × List Nat) :=
  match h e with
  | none => none
  | some x =>
    let next := x.next
    let i := index_for x.hash new_table.length
    match new_table[i]? with
    | none => none
    | some p =>
      let h := h.put e (some { x with next := p })
      let new_table := new_table.set i e
      if next ≠ 0 then transferChain h new_table next else some (h, new_table)
partial_fixpoint

/-- `HashMap.transfer`, hashmap.c3 428–445. -/
def transfer (h : Heap K V) (new_table : List Nat) : List Nat → Option (Heap K V × List Nat)
  | [] => some (h, new_table)
  | e :: src =>
    if e = 0 then transfer h new_table src
    else
      match transferChain h new_table e with
      | none => none
      | some (h, new_table) => transfer h new_table src

/-- `MAXIMUM_CAPACITY`, hashmap.c3 12. -/
def MAXIMUM_CAPACITY : Nat := 2 ^ 31

/-- `HashMap.resize`, hashmap.c3 400–414. -/
def resize (E : Env K) (h : Heap K V) (m : Map) (new_capacity : Nat) : Option (Heap K V × Map) :=
  if m.table.length = MAXIMUM_CAPACITY then some (h, { m with threshold := 2 ^ 32 - 1 })
  else
    match transfer h (List.replicate new_capacity 0) m.table with
    | none => none
    | some (h, new_table) => some (h, { m with table := new_table, threshold := E.limit new_capacity })

/-- `HashMap.add_entry`, hashmap.c3 387–398. -/
def add_entry (E : Env K) (h : Heap K V) (m : Map) (hash : BitVec 32) (key : K) (value : V) (bucket_index : Nat) (new : Nat) :
    Option (Heap K V × Map) :=
  match m.table[bucket_index]? with
  | none => none
  | some p =>
    let h := h.put new (some ⟨hash, key, value, p⟩)
    let m' := { m with table := m.table.set bucket_index new, count := (m.count + 1) % 2 ^ 32 }
    if m.count ≥ m.threshold then resize E h m' (m'.table.length * 2 % 2 ^ 32) else some (h, m')

/-- `HashMap.create_entry`, hashmap.c3 510–519: like `add_entry` without growth. -/
def create_entry (h : Heap K V) (m : Map) (hash : BitVec 32) (key : K) (value : V) (bucket_index : Nat) (new : Nat) :
    Option (Heap K V × Map) :=
  match m.table[bucket_index]? with
  | none => none
  | some p =>
    some (h.put new (some ⟨hash, key, value, p⟩),
      { m with table := m.table.set bucket_index new, count := (m.count + 1) % 2 ^ 32 })

/-- `e.value = value`. -/
def setValue (h : Heap K V) (e : Nat) (value : V) : Option (Heap K V) := (h e).map fun x => h.put e (some { x with value := value })

/-- `DEFAULT_INITIAL_CAPACITY`, hashmap.c3 11. -/
def DEFAULT_INITIAL_CAPACITY : Nat := 16

/-- `HashMap.set`, hashmap.c3 229–253: whether the key was there.  A map that is not initialized is. -/
def set (E : Env K) (h : Heap K V) (m : Map) (key : K) (value : V) (new : Nat) : Option (Heap K V × Map × Bool) := do
  let m ← if m.alive then some m else init E DEFAULT_INITIAL_CAPACITY
  let hash := rehash (E.keyHash key)
  let index := index_for hash m.table.length
  let p ← m.table[index]?
  let e ← find E h hash key p
  if e ≠ 0 then
    let h ← setValue h e value
    some (h, m, true)
  else
    let (h, m) ← add_entry E h m hash key value index new
    some (h, m, false)

/-- `HashMap.@get_or_set`, hashmap.c3 200–217, with the value of `#expr`. -/
def get_or_set (E : Env K) (h : Heap K V) (m : Map) (key : K) (expr : V) (new : Nat) : Option (Heap K V × Map × V) := do
  if m.count = 0 then
    let (h, m, _) ← set E h m key expr new
    some (h, m, expr)
  else
    let hash := rehash (E.keyHash key)
    let index := index_for hash m.table.length
    let p ← m.table[index]?
    let e ← find E h hash key p
    if e ≠ 0 then
      let x ← h e
      some (h, m, x.value)
    else
      let (h, m) ← add_entry E h m hash key expr index new
      some (h, m, expr)

/-- The loop of `remove_entry_for_key`, hashmap.c3 487–507; `i` is the bucket. -/
def removeLoop (E : Env K) (h : Heap K V) (m : Map) (hash : BitVec 32) (key : K) (i prev e : Nat) : Option (Heap K V × Map × Bool) :=
  if e = 0 then some (h, m, false)
  else
    match h e with
    | none => none
    | some x =>
      let next := x.next
      if x.hash = hash && E.equals key x.key then do
        let m := { m with count := (m.count + 2 ^ 32 - 1) % 2 ^ 32 }
        if prev = e then do
          let m := { m with table := m.table.set i next }
          let h ← h.free e
          some (h, m, true)
        else do
          let y ← h prev
          let h := h.put prev (some { y with next := next })
          let h ← h.free e
          some (h, m, true)
      else removeLoop E h m hash key i e next
partial_fixpoint

/-- `HashMap.remove_entry_for_key`, hashmap.c3 480–508; `HashMap.remove` returns `NOT_FOUND` where this is false. -/
def remove (E : Env K) (h : Heap K V) (m : Map) (key : K) : Option (Heap K V × Map × Bool) :=
  if m.count = 0 then some (h, m, false)
  else
    let hash := rehash (E.keyHash key)
    let i := index_for hash m.table.length
    match m.table[i]? with
    | none => none
    | some prev => removeLoop E h m hash key i prev prev

/-- The loop over a chain of `clear`, hashmap.c3 268–273. -/
def clearChain (h : Heap K V) (next : Nat) : Option (Heap K V) :=
  if next = 0 then some h
  else
    match h next with
    | none => none
    | some x =>
      match h.free next with
      | none => none
      | some h => clearChain h x.next
partial_fixpoint

/-- The loop over the table of `clear`, hashmap.c3 263–276. -/
def clearTable (h : Heap K V) : List Nat → Option (Heap K V × List Nat)
  | [] => some (h, [])
  | entry :: table =>
    if entry = 0 then do
      let (h, t) ← clearTable h table
      some (h, entry :: t)
    else do
      let x ← h entry
      let h ← clearChain h x.next
      let h ← h.free entry
      let (h, t) ← clearTable h table
      some (h, 0 :: t)

/-- `HashMap.clear`, hashmap.c3 260–278. -/
def clear (h : Heap K V) (m : Map) : Option (Heap K V × Map) :=
  if m.count = 0 then some (h, m)
  else do
    let (h, t) ← clearTable h m.table
    some (h, { m with table := t, count := 0 })

/-- `HashMap.free`, hashmap.c3 280–286: the allocator stays. -/
def free (h : Heap K V) (m : Map) : Option (Heap K V × Map) :=
  if m.alive then do
    let (h, m) ← clear h m
    some (h, { m with table := [] })
  else some (h, m)

/-- The loop over a chain of `keys`, `values`, `@each_entry` and `put_all_for_create`: the entries met. -/
def walk (h : Heap K V) (entry : Nat) : Option (List (Entry K V)) :=
  if entry = 0 then some []
  else
    match h entry with
    | none => none
    | some x => do
      let rest ← walk h x.next
      some (x :: rest)
partial_fixpoint

/-- The loop over the table of the same, hashmap.c3 325–332. -/
def walkTable (h : Heap K V) : List Nat → Option (List (Entry K V))
  | [] => some []
  | entry :: table => do
    let a ← walk h entry
    let b ← walkTable h table
    some (a ++ b)

/-- `HashMap.@each_entry`, hashmap.c3 322–333: the entries the body is given. -/
def each_entry (h : Heap K V) (m : Map) : Option (List (Entry K V)) := if m.count = 0 then some [] else walkTable h m.table

/-- The stores `list[index++]` of `keys` and `values` into an array of `count` elements: all stores are inside, and all
elements are stored. -/
def store (count : Nat) {α : Type} (l : List α) : Option (List α) := if l.length = count then some l else none

/-- `HashMap.keys`, hashmap.c3 293–312. -/
def keys (h : Heap K V) (m : Map) : Option (List K) :=
  if m.count = 0 then some [] else (walkTable h m.table).bind fun l => store m.count (l.map (·.key))

/-- `HashMap.values`, hashmap.c3 340–354. -/
def values (h : Heap K V) (m : Map) : Option (List V) :=
  if m.count = 0 then some [] else (walkTable h m.table).bind fun l => store m.count (l.map (·.value))

/-- `HashMap.put_for_create`, hashmap.c3 460–473. -/
def put_for_create (E : Env K) (h : Heap K V) (m : Map) (key : K) (value : V) (new : Nat) : Option (Heap K V × Map) := do
  let hash := rehash (E.keyHash key)
  let i := index_for hash m.table.length
  let p ← m.table[i]?
  let e ← find E h hash key p
  if e ≠ 0 then
    let h ← setValue h e value
    some (h, m)
  else create_entry h m hash key value i new

/-- The loops of `put_all_for_create`, hashmap.c3 447–458, over the entries of the other map, whose heap is a separate one;
`new` is the address of the entry made for each of them. -/
def putAll (E : Env K) (h : Heap K V) (m : Map) : List (Entry K V) → List Nat → Option (Heap K V × Map)
  | [], _ => some (h, m)
  | _ :: _, [] => none
  | e :: es, new :: news => do
    let (h, m) ← put_for_create E h m e.key e.value new
    putAll E h m es news

/-- `HashMap.init_from_map`, hashmap.c3 148–153.  `limit` belongs to the load factor of the other map. -/
def init_from_map (E : Env K) (other_h : Heap K V) (other : Map) (news : List Nat) : Option (Heap K V × Map) := do
  let m ← init E other.table.length
  let es ← each_entry other_h other
  putAll E (fun _ => none) m es news

/-- `HashMapIterator`, hashmap.c3 530–536. -/
structure Iter where
  top_index : Nat
  index : Int
  current : Nat

/-- `HashMap.iter`, hashmap.c3 370–373. -/
def iter : Iter := ⟨0, -1, 0⟩

/-- The loop of `HashMapIterator.get`, hashmap.c3 553–563. -/
def iterLoop (h : Heap K V) (table : List Nat) (idx : Nat) (it : Iter) : Option Iter :=
  if it.index ≠ idx then
    if it.current ≠ 0 then
      match h it.current with
      | none => none
      | some x =>
        if x.next ≠ 0 then iterLoop h table idx ⟨it.top_index, it.index + 1, x.next⟩
        else iterLoop h table idx ⟨it.top_index, it.index, x.next⟩
    else
      match table[it.top_index]? with
      | none => none
      | some e =>
        if e ≠ 0 then iterLoop h table idx ⟨it.top_index + 1, it.index + 1, e⟩
        else iterLoop h table idx ⟨it.top_index + 1, it.index, e⟩
  else some it
partial_fixpoint

/-- `HashMapIterator.get`, hashmap.c3 545–565. -/
def iterGet (h : Heap K V) (m : Map) (it : Iter) (idx : Nat) : Option (Iter × Entry K V) := do
  let it := if (idx : Int) < it.index then iter else it
  let it ← iterLoop h m.table idx it
  let x ← h it.current
  some (it, x)

end C3.HashMap
