import Mathlib.Init

/-!
# Model of `lib/std/collections/priorityqueue.c3`

The `heap` field, a `List{Type}`, is modelled by the sequence it holds (`C35_history` shows that the
`List` operations used here act on it as on a sequence).  `lt` is the `less` macro of the element
type and `max` the generic parameter `MAX`.  An index outside the list is `none`.
-/

set_option autoImplicit false

namespace C3.PQueue

variable {α : Type}

/-- The `greater` macro of std::core::builtin. -/
def greater (lt : α → α → Bool) (a b : α) : Bool := lt b a

/-- `List.swap` on the sequence. -/
def swap (h : List α) (i j : Nat) : Option (List α) := do
  let a ← h[i]?
  let b ← h[j]?
  some ((h.set i b).set j a)

/-- The loop of `push`, priorityqueue.c3 56–69. -/
def siftUp (max : Bool) (lt : α → α → Bool) (h : List α) (i : Nat) : Option (List α) :=
  if i > 0 then do
    let parent := (i - 1) / 2
    let item ← h[i]?
    let parentItem ← h[parent]?
    let ok := if max then greater lt item parentItem else lt item parentItem
    if !ok then some h
    else do
      let h' ← swap h i parent
      siftUp max lt h' parent
  else some h
partial_fixpoint

/-- `PrivatePriorityQueue.push`, priorityqueue.c3 52–70. -/
def push (max : Bool) (lt : α → α → Bool) (h : List α) (x : α) : Option (List α) :=
  siftUp max lt (h ++ [x]) ((h ++ [x]).length - 1)

/-- The `switch` of `pop`, priorityqueue.c3 99–120: the child to swap with, or `none` for
`break OUTER`. -/
def pick (max : Bool) (lt : α → α → Bool) (h : List α) (newCount i : Nat) : Option (Option Nat) := do
  let j := 2 * i + 1
  let left ← h[j]?
  let item ← h[i]?
  let dflt : Option Nat :=
    if max then (if !greater lt left item then none else some j)
    else (if !greater lt item left then none else some j)
  if j + 1 < newCount then do
    let right ← h[j + 1]?
    if max then
      if !greater lt right left then some dflt
      else if !greater lt right item then some none
      else some (some (j + 1))
    else
      if !greater lt left right then some dflt
      else if !greater lt item right then some none
      else some (some (j + 1))
  else some dflt

/-- The loop `OUTER` of `pop`, priorityqueue.c3 94–123. -/
def siftDown (max : Bool) (lt : α → α → Bool) (h : List α) (newCount i : Nat) : Option (List α) :=
  if 2 * i + 1 < newCount then do
    match ← pick max lt h newCount i with
    | none => some h
    | some j => do
      let h' ← swap h i j
      siftDown max lt h' newCount j
  else some h
partial_fixpoint

/-- `PrivatePriorityQueue.pop`, priorityqueue.c3 87–126. -/
def pop (max : Bool) (lt : α → α → Bool) (h : List α) : Option (List α × Option α) :=
  if h.length = 0 then some (h, none)
  else do
    let newCount := h.length - 1
    let h1 ← swap h 0 newCount
    let h2 ← siftDown max lt h1 newCount 0
    some (h2.dropLast, h2.getLast?)

/-- `PrivatePriorityQueue.remove_at`, priorityqueue.c3 75–83, with its `@require`. -/
def removeAt (max : Bool) (lt : α → α → Bool) (h : List α) (index : Nat) : Option (List α) :=
  if ¬ index < h.length then none
  else if index = 0 then do
    let (h', _) ← pop max lt h
    some h'
  else some (h.eraseIdx index)

/-- The calls a user can make. -/
inductive Op (α : Type) where
  | push (x : α)
  | pop
  | first
  | removeAt (i : Nat)
  | len

/-- Their results. -/
inductive Res (α : Type) where
  | unit
  | value (v : Option α)
  | nat (n : Nat)
deriving DecidableEq

/-- One call; `first` is priorityqueue.c3 128–131 and `len` 138–141. -/
def step (max : Bool) (lt : α → α → Bool) (h : List α) : Op α → Option (List α × Res α)
  | .push x => (push max lt h x).map (·, .unit)
  | .pop => (pop max lt h).map fun (h', v) => (h', .value v)
  | .first => some (h, .value h.head?)
  | .removeAt i => (removeAt max lt h i).map (·, .unit)
  | .len => some (h, .nat h.length)

/-- A history of calls, with the results in order. -/
def run (max : Bool) (lt : α → α → Bool) : List α → List (Op α) → Option (List α × List (Res α))
  | h, [] => some (h, [])
  | h, op :: ops => do
    let (h1, r) ← step max lt h op
    let (h2, rs) ← run max lt h1 ops
    some (h2, r :: rs)

end C3.PQueue
