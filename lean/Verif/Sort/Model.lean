import Verif.Codec.Model

/-!
# Model of `lib/std/sort`

A list of the C3 program is a Lean list of its elements; reads and writes are checked against its
length (`none` is an access outside).  `cmp` is the comparison: for the variants with a function
argument its result (by value, by reference, with or without context alike, since the function only
sees the two elements and a fixed context), for the variant without one an integer that is negative,
zero or positive as `less`, equality, `greater` hold (`less_eq(a, b)` is `cmp a b ≤ 0`,
`greater_eq(a, b)` is `cmp a b ≥ 0`).

Loops are `partial_fixpoint`s in `Option`: a loop that does not terminate also is `none`.
`isz`/`usz` values are natural numbers below the length of the list (a list has at most `isz.max`
elements), except for the arguments of `qsort` and `qselect`, which may be -1.
-/

set_option autoImplicit false

namespace C3.Sort
open C3.Codec (store)

variable {α : Type}

/-- `while (cmp(list[h], pivot) >= 0 && l < h) h--;`, `quicksort.c3:129` and its variants. -/
def scanDown (cmp : α → α → Int) (list : List α) (pivot : α) (l h : Nat) : Option Nat := do
  let x ← list[h]?
  if cmp x pivot ≥ 0 ∧ l < h then scanDown cmp list pivot l (h - 1) else some h
partial_fixpoint

/-- `while (cmp(list[l], pivot) <= 0 && l < h) l++;`, `quicksort.c3:131` and its variants. -/
def scanUp (cmp : α → α → Int) (list : List α) (pivot : α) (l h : Nat) : Option Nat := do
  let x ← list[l]?
  if cmp x pivot ≤ 0 ∧ l < h then scanUp cmp list pivot (l + 1) h else some l
partial_fixpoint

/-- The loop of `@partition`, `quicksort.c3:121-146`; gives the list and `l`. -/
def partLoop (cmp : α → α → Int) (pivot : α) (list : List α) (l h : Nat) : Option (List α × Nat) :=
  if l < h then do
    let h ← scanDown cmp list pivot l h
    let (list, l) ← if l < h then do some (← store list l (← list[h]?), l + 1) else some (list, l)
    let l ← scanUp cmp list pivot l h
    if l < h then do
      let list ← store list h (← list[l]?)
      partLoop cmp pivot list l (h - 1)
    else partLoop cmp pivot list l h
  else some (list, l)
partial_fixpoint

/-- `@partition`, `quicksort.c3:114-150`. -/
def partition (cmp : α → α → Int) (list : List α) (l h : Nat) : Option (List α × Nat) := do
  let pivot ← list[l]?
  let (list, l) ← partLoop cmp pivot list l h
  let list ← store list l pivot
  some (list, l)

/-- `StackElementItem`, `quicksort.c3:40-44`.  `low` may be one above `high`. -/
structure Range where
  low : Nat
  high : Nat

/-- The loop of `qsort`, `quicksort.c3:60-82`.  The list `stack` holds the entries `stack[i]`,
`stack[i-1]`, ..., `stack[0]`; the array has 64 entries. -/
def qsortLoop (cmp : α → α → Int) (list : List α) (stack : List Range) : Option (List α) :=
  match stack with
  | [] => some list
  | r :: rest =>
    if r.low < r.high then do
      let (list, l) ← partition cmp list r.low r.high
      if rest.length + 2 > 64 then none
      else
        let upper : Range := ⟨l + 1, r.high⟩
        let lower : Range := ⟨r.low, l⟩
        if (upper.high : Int) - upper.low > (lower.high : Int) - lower.low then
          qsortLoop cmp list (lower :: upper :: rest)
        else qsortLoop cmp list (upper :: lower :: rest)
    else qsortLoop cmp list rest
partial_fixpoint

/-- `qsort`, `quicksort.c3:50-84`. -/
def qsort (cmp : α → α → Int) (list : List α) (low high : Int) : Option (List α) :=
  if low ≥ 0 ∧ high ≥ 0 ∧ low < high then qsortLoop cmp list [⟨low.toNat, high.toNat⟩]
  else some list

/-- `quicksort`, `quicksort.c3:10-19`. -/
def quicksort (cmp : α → α → Int) (list : List α) : Option (List α) :=
  qsort cmp list 0 ((list.length : Int) - 1)

/-- The loop of `qselect`, `quicksort.c3:97-109`: the list and the element, or `NOT_FOUND`.
`h = pivot - 1` may be -1. -/
def qselectLoop (cmp : α → α → Int) (k : Nat) : Nat → List α → Int → Int → Option (List α × Option α)
  | 0, list, _, _ => some (list, none)
  | retries + 1, list, l, h =>
    if l ≤ h then do
      let (list, pivot) ← partition cmp list l.toNat h.toNat
      if k = pivot then some (list, some (← list[k]?))
      else if k < pivot then qselectLoop cmp k retries list l ((pivot : Int) - 1)
      else qselectLoop cmp k retries list (pivot + 1) h
    else some (list, none)

/-- `qselect`, `quicksort.c3:84-112`, with its preconditions. -/
def qselect (cmp : α → α → Int) (list : List α) (low high : Int) (k : Nat) : Option (List α × Option α) :=
  if ¬ (low ≤ k ∧ (k : Int) ≤ high) then none
  else if low ≥ 0 ∧ high ≥ 0 ∧ low < high then qselectLoop cmp k 64 list low high
  else some (list, none)

/-- `quickselect`, `quicksort.c3:30-34`. -/
def quickselect (cmp : α → α → Int) (list : List α) (k : Nat) : Option (List α × Option α) :=
  qselect cmp list 0 ((list.length : Int) - 1) k

/-- The inner loop of `isort`, `insertionsort.c3:33-68`. -/
def isortInner (cmp : α → α → Int) (list : List α) (low j : Nat) : Option (List α) :=
  if j > low then do
    let rhs ← list[j]?
    let lhs ← list[j - 1]?
    if cmp rhs lhs ≥ 0 then some list
    else do
      let list ← store list j lhs
      let list ← store list (j - 1) rhs
      isortInner cmp list low (j - 1)
  else some list
partial_fixpoint

/-- The outer loop of `isort`, `insertionsort.c3:30-69`. -/
def isortLoop (cmp : α → α → Int) (list : List α) (low high i : Nat) : Option (List α) :=
  if i < high then do
    let list ← isortInner cmp list low i
    isortLoop cmp list low high (i + 1)
  else some list
partial_fixpoint

/-- `isort`, `insertionsort.c3:24-70`. -/
def isort (cmp : α → α → Int) (list : List α) (low high : Nat) : Option (List α) :=
  isortLoop cmp list low high low

/-- `insertionsort`, `insertionsort.c3:9-18`. -/
def insertionsort (cmp : α → α → Int) (list : List α) : Option (List α) :=
  isort cmp list 0 list.length

/-- The loop of `binarysearch`, `binarysearch.c3:16-48`. -/
def bsLoop (cmp : α → α → Int) (list : List α) (x : α) (i j : Nat) : Option Nat :=
  if i < j then do
    let half := i + (j - i) / 2
    let res := cmp (← list[half]?) x
    if res > 0 then bsLoop cmp list x i half
    else if res < 0 then bsLoop cmp list x (half + 1) j
    else some half
  else some i
partial_fixpoint

/-- `binarysearch`, `binarysearch.c3:10-50`. -/
def binarysearch (cmp : α → α → Int) (list : List α) (x : α) : Option Nat :=
  bsLoop cmp list x 0 list.length

/-- `a * b` of two C3 `int`s, which wraps. -/
def mul32 (a b : Int) : Int := (BitVec.ofInt 32 (a * b)).toInt

/-- The first loop of `check_sort`, `sorted.c3:20-23`: the order and `i`. -/
def orderLoop (cmp : α → α → Int) (list : List α) (end_ i : Nat) (sort_order : Int) : Option (Int × Nat) :=
  if i < end_ ∧ sort_order = 0 then do
    let sort_order := cmp (← list[i]?) (← list[i + 1]?)
    orderLoop cmp list end_ (i + 1) sort_order
  else some (sort_order, i)
partial_fixpoint

/-- The second loop of `check_sort`, `sorted.c3:29-32`. -/
def checkLoop (cmp : α → α → Int) (list : List α) (end_ i : Nat) (sort_order : Int) : Option Bool :=
  if i < end_ then do
    if mul32 sort_order (cmp (← list[i]?) (← list[i + 1]?)) < 0 then some false
    else checkLoop cmp list end_ (i + 1) sort_order
  else some true
partial_fixpoint

/-- `is_sorted`, `sorted.c3:9-36`. -/
def is_sorted (cmp : α → α → Int) (list : List α) : Option Bool :=
  if list.length ≤ 1 then some true
  else do
    let (sort_order, i) ← orderLoop cmp list (list.length - 1) 0 0
    if sort_order = 0 then some true
    else checkLoop cmp list (list.length - 1) i sort_order

end C3.Sort
