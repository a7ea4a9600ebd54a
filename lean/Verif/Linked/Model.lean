set_option autoImplicit false

/-! Model of the linked list of the standard library, lib/std/collections/linkedlist.c3.

The nodes live on a heap that maps addresses to live nodes. An address that is not mapped is free memory: to read or write a node
through such an address (or through null) is the outcome `none`, and so is to free it. So a use after free, a double free and
a null dereference are all `none`. A violated `@require` is `none` too (the panic of the safe build).

The allocator is not modelled: each function that allocates takes the address it returns as an argument; the theorems hold for every
address that is not null and not in use. Running out of memory (a panic) is left out. -/

namespace C3.Linked

variable {α : Type}

/-- `Node` (linkedlist.c3 8-13); null is the address 0. -/
structure Node (α : Type) where
  next : Nat
  prev : Nat
  value : α
deriving DecidableEq, Repr

/-- The live nodes by address. -/
abbrev Heap (α : Type) := Nat → Option (Node α)

/-- `LinkedList` (15-21). Of the allocator only whether it is set is kept. The size counts live nodes of at least sixteen
bytes each, so it is a natural number here: `usz` can not overflow. -/
structure LinkedList where
  allocator : Bool
  size : Nat
  first : Nat
  last : Nat
deriving DecidableEq, Repr

/-- The memory and the list: the state of a program that uses one list. -/
structure State (α : Type) where
  heap : Heap α
  list : LinkedList

/-- What a function that may return `NO_MORE_ELEMENT?` returns. -/
inductive Res (β : Type) where
  | ok (b : β)
  | noMoreElement
deriving DecidableEq, Repr

/-- `*p = v` for a live node (also used for the fresh node, which `Heap.new` has made live). -/
def Heap.write (h : Heap α) (p : Nat) (v : Node α) : Option (Heap α) :=
  match h p with
  | none => none
  | some _ => some fun q => if q = p then some v else h q

/-- `p.next = n`. -/
def Heap.setNext (h : Heap α) (p n : Nat) : Option (Heap α) :=
  match h p with
  | none => none
  | some x => h.write p { x with next := n }

/-- `p.prev = n`. -/
def Heap.setPrev (h : Heap α) (p n : Nat) : Option (Heap α) :=
  match h p with
  | none => none
  | some x => h.write p { x with prev := n }

/-- The node the allocator returns, with the initial value the function gives it (57-58, 74-75, 181-182). -/
def Heap.new (h : Heap α) (p : Nat) (v : Node α) : Heap α := fun q => if q = p then some v else h q

/-- `free_node` (43-46) with its contract `self.is_initialized()` (38-42); the node must be live. -/
def freeNode (allocator : Bool) (h : Heap α) (p : Nat) : Option (Heap α) :=
  if allocator = false then none
  else match h p with
    | none => none
    | some _ => some fun q => if q = p then none else h q

/-- `LinkedList.init` (27-31) and `tinit` (33-36); a list that is not initialised is all zero. -/
def init : LinkedList := ⟨true, 0, 0, 0⟩

/-- The zero value: `LinkedList{int} x;` without `init`. -/
def zero : LinkedList := ⟨false, 0, 0, 0⟩

/-- `LinkedList.push_front` (54-69); `alloc_node` (48-52) sets the allocator if there is none; `p` is what it returns. -/
def pushFront (s : State α) (p : Nat) (v : α) : Option (State α) :=
  let h := s.heap.new p ⟨s.list.first, 0, v⟩
  if s.list.first = 0 then some ⟨h, ⟨true, s.list.size + 1, p, p⟩⟩
  else match h.setPrev s.list.first p with
    | none => none
    | some h => some ⟨h, ⟨true, s.list.size + 1, p, s.list.last⟩⟩

/-- `LinkedList.push` (71-86). -/
def push (s : State α) (p : Nat) (v : α) : Option (State α) :=
  let h := s.heap.new p ⟨0, s.list.last, v⟩
  if s.list.last = 0 then some ⟨h, ⟨true, s.list.size + 1, p, p⟩⟩
  else match h.setNext s.list.last p with
    | none => none
    | some h => some ⟨h, ⟨true, s.list.size + 1, s.list.first, p⟩⟩

/-- `LinkedList.first` (91-95) and `peek` (88). -/
def first (s : State α) : Option (Res α) :=
  if s.list.first = 0 then some .noMoreElement
  else match s.heap s.list.first with
    | none => none
    | some n => some (.ok n.value)

/-- `LinkedList.last` (97-101) and `peek_last` (89). -/
def last (s : State α) : Option (Res α) :=
  if s.list.last = 0 then some .noMoreElement
  else match s.heap s.list.last with
    | none => none
    | some n => some (.ok n.value)

/-- The loop of `clear` (107-112); `fuel` bounds the number of rounds, running out of it is `none`. -/
def clearLoop (allocator : Bool) : Nat → Heap α → Nat → Option (Heap α)
  | fuel, h, node =>
    if node = 0 then some h
    else match fuel with
      | 0 => none
      | fuel + 1 =>
        match h node with
        | none => none
        | some n =>
          match freeNode allocator h node with
          | none => none
          | some h => clearLoop allocator fuel h n.next

/-- `LinkedList.clear` (105-116) and `free` (103). The fuel is the size the list claims to have. -/
def clear (s : State α) : Option (State α) :=
  match clearLoop s.list.allocator s.list.size s.heap s.list.first with
  | none => none
  | some h => some ⟨h, ⟨s.list.allocator, 0, 0, 0⟩⟩

/-- `LinkedList.len` (118). -/
def len (s : State α) : Nat := s.list.size

/-- `while (index--) node = node.prev;` (129). -/
def walkPrev (h : Heap α) : Nat → Nat → Option Nat
  | 0, node => some node
  | i + 1, node =>
    match h node with
    | none => none
    | some n => walkPrev h i n.prev

/-- `while (index--) node = node.next;` (133). -/
def walkNext (h : Heap α) : Nat → Nat → Option Nat
  | 0, node => some node
  | i + 1, node =>
    match h node with
    | none => none
    | some n => walkNext h i n.next

/-- `node_at_index` (123-135) with its contract (120-122); `index * 2` is `usz` arithmetic and wraps. -/
def nodeAtIndex (s : State α) (index : Nat) : Option Nat :=
  if s.list.size ≤ index then none
  else if index * 2 % 2 ^ 64 ≥ s.list.size then walkPrev s.heap (s.list.size - index - 1) s.list.last
  else walkNext s.heap index s.list.first

/-- `LinkedList.get` (139-142) with its contract (136-138). -/
def get (s : State α) (index : Nat) : Option α :=
  match nodeAtIndex s index with
  | none => none
  | some p =>
    match s.heap p with
    | none => none
    | some n => some n.value

/-- `LinkedList.set` (147-150) with its contract (144-146). -/
def set (s : State α) (index : Nat) (v : α) : Option (State α) :=
  match nodeAtIndex s index with
  | none => none
  | some p =>
    match s.heap p with
    | none => none
    | some n =>
      match s.heap.write p { n with value := v } with
      | none => none
      | some h => some ⟨h, s.list⟩

/-- `LinkedList.unlink` (314-336) with its contract (311-313). -/
def unlink (s : State α) (x : Nat) : Option (State α) :=
  match s.heap x with
  | none => none
  | some n =>
    match (if n.prev = 0 then some s.heap else s.heap.setNext n.prev n.next) with
    | none => none
    | some h1 =>
      match (if n.next = 0 then some h1 else h1.setPrev n.next n.prev) with
      | none => none
      | some h2 =>
        match freeNode s.list.allocator h2 x with
        | none => none
        | some h3 =>
          some ⟨h3, ⟨s.list.allocator, s.list.size - 1, if n.prev = 0 then n.next else s.list.first,
            if n.next = 0 then n.prev else s.list.last⟩⟩

/-- `LinkedList.remove_at` (155-158) with its contract (152-154). -/
def removeAt (s : State α) (index : Nat) : Option (State α) :=
  match nodeAtIndex s index with
  | none => none
  | some p => unlink s p

/-- `link_before` (178-193) with its contract `succ != null` (175-177). -/
def linkBefore (s : State α) (p succ : Nat) (v : α) : Option (State α) :=
  match s.heap succ with
  | none => none
  | some n =>
    match (s.heap.new p ⟨succ, n.prev, v⟩).setPrev succ p with
    | none => none
    | some h =>
      if n.prev = 0 then some ⟨h, ⟨true, s.list.size + 1, p, s.list.last⟩⟩
      else match h.setNext n.prev p with
        | none => none
        | some h => some ⟨h, ⟨true, s.list.size + 1, s.list.first, s.list.last⟩⟩

/-- `LinkedList.insert_at` (163-174) with its contract (160-162); the cases of a C3 `switch` do not fall through. -/
def insertAt (s : State α) (p index : Nat) (v : α) : Option (State α) :=
  if s.list.size < index then none
  else if index = 0 then pushFront s p v
  else if index = s.list.size then push s p v
  else match nodeAtIndex s index with
    | none => none
    | some succ => linkBefore s p succ v

/-- `unlink_first` (198-213) with its contract (195-197). -/
def unlinkFirst (s : State α) : Option (State α) :=
  match s.heap s.list.first with
  | none => none
  | some n =>
    match freeNode s.list.allocator s.heap s.list.first with
    | none => none
    | some h =>
      if n.next = 0 then some ⟨h, ⟨s.list.allocator, s.list.size - 1, n.next, 0⟩⟩
      else match h.setPrev n.next 0 with
        | none => none
        | some h => some ⟨h, ⟨s.list.allocator, s.list.size - 1, n.next, s.list.last⟩⟩

/-- `unlink_last` (294-309) with its contract (291-293). -/
def unlinkLast (s : State α) : Option (State α) :=
  match s.heap s.list.last with
  | none => none
  | some n =>
    match freeNode s.list.allocator s.heap s.list.last with
    | none => none
    | some h =>
      if n.prev = 0 then some ⟨h, ⟨s.list.allocator, s.list.size - 1, 0, n.prev⟩⟩
      else match h.setNext n.prev 0 with
        | none => none
        | some h => some ⟨h, ⟨s.list.allocator, s.list.size - 1, s.list.first, n.prev⟩⟩

/-- The loop of `remove` (219-230); `eq` is `equals(node.value, t)`. -/
def removeLoop (eq : α → Bool) : Nat → State α → Nat → Option (State α)
  | fuel, s, node =>
    if node = 0 then some s
    else match fuel with
      | 0 => none
      | fuel + 1 =>
        match s.heap node with
        | none => none
        | some n =>
          if eq n.value then
            match unlink s node with
            | none => none
            | some s => removeLoop eq fuel s n.next
          else removeLoop eq fuel s n.next

/-- `LinkedList.remove` (215-232): the list and the number of elements removed. -/
def remove (s : State α) (eq : α → Bool) : Option (State α × Nat) :=
  match removeLoop eq s.list.size s s.list.first with
  | none => none
  | some s' => some (s', s.list.size - s'.list.size)

/-- `LinkedList.pop` (234-239): the value is read before the deferred `unlink_last` runs. -/
def pop (s : State α) : Option (State α × Res α) :=
  if s.list.last = 0 then some (s, .noMoreElement)
  else match s.heap s.list.last with
    | none => none
    | some n =>
      match unlinkLast s with
      | none => none
      | some s => some (s, .ok n.value)

/-- `LinkedList.is_empty` (241-244). -/
def isEmpty (s : State α) : Bool := s.list.first = 0

/-- `LinkedList.pop_front` (246-251). -/
def popFront (s : State α) : Option (State α × Res α) :=
  if s.list.first = 0 then some (s, .noMoreElement)
  else match s.heap s.list.first with
    | none => none
    | some n =>
      match unlinkFirst s with
      | none => none
      | some s => some (s, .ok n.value)

/-- `LinkedList.remove_last` (253-257). -/
def removeLast (s : State α) : Option (State α × Res Unit) :=
  if s.list.first = 0 then some (s, .noMoreElement)
  else match unlinkLast s with
    | none => none
    | some s => some (s, .ok ())

/-- `LinkedList.remove_first` (259-263). -/
def removeFirst (s : State α) : Option (State α × Res Unit) :=
  if s.list.first = 0 then some (s, .noMoreElement)
  else match unlinkFirst s with
    | none => none
    | some s => some (s, .ok ())

/-- The loop of `remove_first_match` (268-275). -/
def firstMatchLoop (eq : α → Bool) : Nat → State α → Nat → Option (State α × Bool)
  | fuel, s, node =>
    if node = 0 then some (s, false)
    else match fuel with
      | 0 => none
      | fuel + 1 =>
        match s.heap node with
        | none => none
        | some n =>
          if eq n.value then
            match unlink s node with
            | none => none
            | some s => some (s, true)
          else firstMatchLoop eq fuel s n.next

/-- `LinkedList.remove_first_match` (266-277); `eq` is `node.value == t`. -/
def removeFirstMatch (s : State α) (eq : α → Bool) : Option (State α × Bool) :=
  firstMatchLoop eq s.list.size s s.list.first

/-- The loop of `remove_last_match` (281-288). -/
def lastMatchLoop (eq : α → Bool) : Nat → State α → Nat → Option (State α × Bool)
  | fuel, s, node =>
    if node = 0 then some (s, false)
    else match fuel with
      | 0 => none
      | fuel + 1 =>
        match s.heap node with
        | none => none
        | some n =>
          if eq n.value then
            match unlink s node with
            | none => none
            | some s => some (s, true)
          else lastMatchLoop eq fuel s n.prev

/-- `LinkedList.remove_last_match` (279-290). -/
def removeLastMatch (s : State α) (eq : α → Bool) : Option (State α × Bool) :=
  lastMatchLoop eq s.list.size s s.list.last

end C3.Linked
