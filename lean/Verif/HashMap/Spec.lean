import Verif.HashMap.Model

/-!
# A dictionary as a list of pairs

The reference against which the hash map is measured: operations and what they return, on a list of pairs of key and value.  It
shares with the model only the equality of keys.
-/

set_option autoImplicit false

namespace C3.HashMap

variable {K V : Type}

/-- `equals` is an equivalence, and equal keys have equal hashes. -/
structure Lawful (E : Env K) : Prop where
  refl : ∀ a, E.equals a a = true
  symm : ∀ a b, E.equals a b = true → E.equals b a = true
  trans : ∀ a b c, E.equals a b = true → E.equals b c = true → E.equals a c = true
  hash : ∀ a b, E.equals a b = true → E.keyHash a = E.keyHash b

/-- An operation. -/
inductive Op (K V : Type) where
  | set (k : K) (v : V)
  | get (k : K)
  | has_key (k : K)
  | get_or_set (k : K) (v : V)
  | remove (k : K)
  | clear
  | len

/-- What it returns. -/
inductive Out (V : Type) where
  | unit
  | bool (b : Bool)
  | value (v : Option V)
  | num (n : Nat)

namespace Spec

/-- The value of the key. -/
def lookup (eq : K → K → Bool) (l : List (K × V)) (k : K) : Option V := (l.find? fun p => eq k p.1).map (·.2)

/-- The pairs after a value was set. -/
def insert (eq : K → K → Bool) (l : List (K × V)) (k : K) (v : V) : List (K × V) :=
  if (lookup eq l k).isSome then l.map fun p => if eq k p.1 then (p.1, v) else p else (k, v) :: l

/-- One operation. -/
def step (eq : K → K → Bool) (l : List (K × V)) : Op K V → List (K × V) × Out V
  | .set k v => (insert eq l k v, .bool (lookup eq l k).isSome)
  | .get k => (l, .value (lookup eq l k))
  | .has_key k => (l, .bool (lookup eq l k).isSome)
  | .get_or_set k v =>
    match lookup eq l k with
    | some w => (l, .value (some w))
    | none => ((k, v) :: l, .value (some v))
  | .remove k => (l.filter fun p => !eq k p.1, .bool (lookup eq l k).isSome)
  | .clear => ([], .unit)
  | .len => (l, .num l.length)

/-- A sequence of operations: the pairs at the end, and what was returned. -/
def run (eq : K → K → Bool) (l : List (K × V)) : List (Op K V) → List (K × V) × List (Out V)
  | [] => (l, [])
  | op :: ops =>
    let (l, o) := step eq l op
    let (l, os) := run eq l ops
    (l, o :: os)

end Spec

/-! ## The same operations on the hash map -/

/-- One operation on the heap and the map; a new entry is put at `new`. -/
def step (E : Env K) (h : Heap K V) (m : Map) (new : Nat) : Op K V → Option (Heap K V × Map × Out V)
  | .set k v => (set E h m k v new).map fun r => (r.1, r.2.1, .bool r.2.2)
  | .get k => (get E h m k).map fun r => (h, m, .value r)
  | .has_key k => (has_key E h m k).map fun r => (h, m, .bool r)
  | .get_or_set k v => (get_or_set E h m k v new).map fun r => (r.1, r.2.1, .value (some r.2.2))
  | .remove k => (remove E h m k).map fun r => (r.1, r.2.1, .bool r.2.2)
  | .clear => (clear h m).map fun r => (r.1, r.2, .unit)
  | .len => some (h, m, .num m.count)

/-- A sequence of operations, with an allocator that may answer differently each time. -/
def run (E : Env K) (alloc : Nat → Heap K V → Nat) (n : Nat) (h : Heap K V) (m : Map) : List (Op K V) → Option (Heap K V × Map × List (Out V))
  | [] => some (h, m, [])
  | op :: ops =>
    match step E h m (alloc n h) op with
    | none => none
    | some (h, m, o) =>
      match run E alloc (n + 1) h m ops with
      | none => none
      | some (h, m, os) => some (h, m, o :: os)

/-- The allocator returns memory that is not in use, as long as there is an end of what is in use. -/
def Fresh (alloc : Nat → Heap K V → Nat) : Prop :=
  ∀ n h, (∃ top, ∀ a, top ≤ a → h a = none) → alloc n h ≠ 0 ∧ h (alloc n h) = none

/-- The empty heap. -/
def noHeap : Heap K V := fun _ => none

end C3.HashMap
