/-! # ElasticArray, lib/std/collections/elastic_array.c3

`none`: a contract or the check of an index fails. Sizes do not wrap: they are at most `MAX_SIZE`. -/

set_option autoImplicit false

namespace C3.Elastic

/-- `ElasticArray`, lines 16–20; `MAX_SIZE` is the length of `entries`. The entries from `size` on have some value too. -/
structure EA (α : Type) where
  size : Nat
  entries : List α
  deriving DecidableEq, Repr

variable {α : Type}

/-- An assignment to `entries[i]`. -/
def store (e : List α) (i : Nat) (v : α) : Option (List α) := if i < e.length then some (e.set i v) else none

/-- `push_try`, lines 47–51: was there room? -/
def pushTry (a : EA α) (x : α) : Option (EA α × Bool) :=
  if a.size = a.entries.length then some (a, false)
  else match store a.entries a.size x with
    | some e => some (⟨a.size + 1, e⟩, true)
    | none => none

/-- `pop`, lines 61–65. -/
def pop (a : EA α) : Option (EA α × Option α) :=
  if a.size = 0 then some (a, none)
  else match a.entries[a.size - 1]? with
    | some v => some (⟨a.size - 1, a.entries⟩, some v)
    | none => none

/-- `remove_at`, lines 85–89, with its contract. The assignment of the slice moves `size - index` elements. -/
def removeAt (a : EA α) (index : Nat) : Option (EA α) :=
  if index < a.size then
    let size := a.size - 1
    if size = 0 ∨ index = size then some ⟨size, a.entries⟩
    else if size < a.entries.length then
      some ⟨size, a.entries.take index ++ (a.entries.drop (index + 1)).take (size - index) ++ a.entries.drop size⟩
    else none
  else none

/-- `remove_first`, lines 244–248: was there an element? -/
def removeFirst (a : EA α) : Option (EA α × Bool) :=
  if a.size = 0 then some (a, false)
  else match removeAt a 0 with
    | some a => some (a, true)
    | none => none

/-- `pop_first`, lines 75–80, without its contract, which excludes what line 77 is for. -/
def popFirst (a : EA α) : Option (EA α × Option α) :=
  if a.size = 0 then some (a, none)
  else match a.entries[0]?, removeAt a 0 with
    | some v, some a => some (a, some v)
    | _, _ => none

/-- The loop of lines 222–225 for `i` down to `index + 1`. -/
def insertLoop (index : Nat) : Nat → List α → Option (List α)
  | 0, e => some e
  | i + 1, e =>
    if i + 1 > index then
      match e[i]? with
      | some v =>
        match store e (i + 1) v with
        | some e => insertLoop index i e
        | none => none
      | none => none
    else some e

/-- `insert_at`, lines 220–228, with its contracts. -/
def insertAt (a : EA α) (index : Nat) (x : α) : Option (EA α) :=
  if a.size < a.entries.length ∧ index ≤ a.size then
    match insertLoop index a.size a.entries with
    | some e =>
      match store e index x with
      | some e => some ⟨a.size + 1, e⟩
      | none => none
    | none => none
  else none

/-- `insert_at_try`, lines 210–214, with its contract. -/
def insertAtTry (a : EA α) (index : Nat) (x : α) : Option (EA α × Bool) :=
  if index ≤ a.size then
    if a.size = a.entries.length then some (a, false)
    else match insertAt a index x with
      | some a => some (a, true)
      | none => none
  else none

/-- `add_array_to_limit`, lines 124–133, and `add_all_to_limit`, 107–116, with another array, of the entries of which `array` are
those below its size. What is left of the array when there is no room is what remains of it. -/
def addToLimit : EA α → List α → Option (EA α × Nat)
  | a, [] => some (a, 0)
  | a, v :: l =>
    if a.size = a.entries.length then some (a, l.length + 1)
    else match store a.entries a.size v with
      | some e => addToLimit ⟨a.size + 1, e⟩ l
      | none => none

/-- `add_all_to_limit`, lines 107–116, with the array itself. `n`: the iterations that are left, `len() - i`; the length of
`foreach` is computed once (src/compiler/sema_stmts.c 1610–1648), but line 112 uses the current one. -/
def addSelfLoop : Nat → Nat → EA α → Option (EA α × Nat)
  | 0, _, a => some (a, 0)
  | n + 1, i, a =>
    if a.size = a.entries.length then some (a, a.size - i)
    else match a.entries[i]? with
      | some v =>
        match store a.entries a.size v with
        | some e => addSelfLoop n (i + 1) ⟨a.size + 1, e⟩
        | none => none
      | none => none

def addSelfToLimit (a : EA α) : Option (EA α × Nat) := addSelfLoop a.size 0 a

/-- `get`, lines 277–280, and `@item_at`, 316–319: the index is checked against `MAX_SIZE`. -/
def get (a : EA α) (i : Nat) : Option α := a.entries[i]?

/-- `set`, lines 326–329, likewise. -/
def set (a : EA α) (i : Nat) (x : α) : Option (EA α) :=
  match store a.entries i x with
  | some e => some ⟨a.size, e⟩
  | none => none

/-- The loop of lines 79–82 of lib/std/collections/list_common.c3, which moves `n` elements. -/
def shiftLoop : Nat → Nat → List α → Option (List α)
  | 0, _, e => some e
  | n + 1, j, e =>
    match e[j]? with
    | some v =>
      match store e (j - 1) v with
      | some e => shiftLoop n (j + 1) e
      | none => none
    | none => none

/-- The loop of `list_remove_item`, lines 76–84 of lib/std/collections/list_common.c3. -/
def removeItemLoop (eq : α → α → Bool) (value : α) : Nat → EA α → Option (EA α)
  | 0, a => some a
  | i + 1, a =>
    match a.entries[i]? with
    | some v =>
      if eq v value then
        match shiftLoop (a.size - (i + 1)) (i + 1) a.entries with
        | some e => removeItemLoop eq value i ⟨a.size - 1, e⟩
        | none => none
      else removeItemLoop eq value i a
    | none => none

/-- `remove_item`, lines 402–405, and `list_remove_item`, list_common.c3 73–86. -/
def removeItem (eq : α → α → Bool) (a : EA α) (value : α) : Option (EA α × Nat) :=
  match removeItemLoop eq value a.size a with
  | some b => some (b, a.size - b.size)
  | none => none

/-- `remove_all_from`, lines 409–413, with another array that has the elements `l`. -/
def removeAllFrom (eq : α → α → Bool) : EA α → List α → Option (EA α)
  | a, [] => some a
  | a, v :: l =>
    match removeItem eq a v with
    | some (a, _) => removeAllFrom eq a l
    | none => none

/-- `remove_all_from` with the array itself, as in `addSelfLoop`. -/
def removeSelfLoop (eq : α → α → Bool) : Nat → Nat → EA α → Option (EA α)
  | 0, _, a => some a
  | n + 1, i, a =>
    match a.entries[i]? with
    | some v =>
      match removeItem eq a v with
      | some (a, _) => removeSelfLoop eq n (i + 1) a
      | none => none
    | none => none

def removeAllFromSelf (eq : α → α → Bool) (a : EA α) : Option (EA α) := removeSelfLoop eq a.size 0 a

/-- The operations of a program. `addToLimit`: with an array, or with another `ElasticArray`. -/
inductive Op (α : Type) where
  | pushTry (x : α) | pop | popFirst | removeAt (i : Nat) | removeFirst | insertAtTry (i : Nat) (x : α)
  | addToLimit (l : List α) | removeItem (x : α) | clear
  deriving DecidableEq, Repr

inductive Res (α : Type) where
  | unit | ok (b : Bool) | item (x : Option α) | count (n : Nat)
  deriving DecidableEq, Repr

/-- One operation; `clear` is lines 67–70. -/
def step (eq : α → α → Bool) (a : EA α) : Op α → Option (EA α × Res α)
  | .pushTry x => (pushTry a x).map fun r => (r.1, .ok r.2)
  | .pop => (pop a).map fun r => (r.1, .item r.2)
  | .popFirst => (popFirst a).map fun r => (r.1, .item r.2)
  | .removeAt i => (removeAt a i).map fun r => (r, .unit)
  | .removeFirst => (removeFirst a).map fun r => (r.1, .ok r.2)
  | .insertAtTry i x => (insertAtTry a i x).map fun r => (r.1, .ok r.2)
  | .addToLimit l => (addToLimit a l).map fun r => (r.1, .count r.2)
  | .removeItem x => (removeItem eq a x).map fun r => (r.1, .count r.2)
  | .clear => some (⟨0, a.entries⟩, .unit)

def run (eq : α → α → Bool) : EA α → List (Op α) → Option (EA α × List (Res α))
  | a, [] => some (a, [])
  | a, o :: l =>
    match step eq a o with
    | some (a, r) => (run eq a l).map fun x => (x.1, r :: x.2)
    | none => none

end C3.Elastic
