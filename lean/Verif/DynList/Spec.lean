import Verif.DynList.Model

/-! # Specification vocabulary for `List`: the same calls on a mathematical sequence -/

set_option autoImplicit false

namespace C3.DynList

variable {α : Type}

/-- The list object holds exactly the sequence `s`, in an allocation of `capacity` cells. -/
def Holds (l : DList α) (s : List α) : Prop :=
  l.size = s.length ∧ l.capacity = l.entries.length ∧ l.entries.take l.size = s.map some ∧ l.size ≤ l.capacity

/-- The index of the last element satisfying `p`. -/
def lastIdx? (p : α → Bool) (s : List α) : Option Nat :=
  (s.reverse.findIdx? p).map fun i => s.length - 1 - i

/-- The effect of a call on a sequence, and its result; `none` when the call's precondition is
violated.  For `addAll` the elements of the other list are those of its first `size` cells. -/
def specStep (eq : α → α → Bool) (s : List α) : Op α → Option (List α × Res α)
  | .push x => some (s ++ [x], .unit)
  | .pop => some (s.dropLast, .value s.getLast?)
  | .popFirst => some (s.tail, .value s.head?)
  | .clear => some ([], .unit)
  | .removeAt i => if i < s.length then some (s.eraseIdx i, .unit) else none
  | .addAll other => (toArray other).map fun xs => (s ++ xs, .unit)
  | .addArray xs => some (s ++ xs, .unit)
  | .reverse => some (s.reverse, .unit)
  | .pushFront x => some (x :: s, .unit)
  | .insertAt i x => if i ≤ s.length then some (s.take i ++ x :: s.drop i, .unit) else none
  | .setAt i x => if i < s.length then some (s.set i x, .unit) else none
  | .removeLast => some (s.dropLast, .bool !s.isEmpty)
  | .removeFirst => some (s.tail, .bool !s.isEmpty)
  | .first => some (s, .value s.head?)
  | .last => some (s, .value s.getLast?)
  | .len => some (s, .nat s.length)
  | .get i => (s[i]?).map fun v => (s, .value (some v))
  | .swap i j => do
      let a ← s[i]?
      let b ← s[j]?
      some ((s.set i b).set j a, .unit)
  | .removeIf f => some (s.filter (fun x => !f x), .nat (s.countP f))
  | .retainIf f => some (s.filter f, .nat (s.countP (fun x => !f x)))
  | .removeItem x => some (s.filter (fun y => !eq y x), .nat (s.countP (eq · x)))
  | .removeFirstItem x => some (s.eraseP (eq · x), .bool (s.any (eq · x)))
  | .removeLastItem x => some ((s.reverse.eraseP (eq · x)).reverse, .bool (s.any (eq · x)))
  | .indexOf x => some (s, .index (s.findIdx? (eq · x)))
  | .rindexOf x => some (s, .index (lastIdx? (eq · x) s))
  | .contains x => some (s, .bool (s.any (eq · x)))
  | .compact isNull => some (s.filter (fun x => !isNull x), .nat (s.countP isNull))
  | .toArray => some (s, .array s)

/-- A history of calls on a sequence. -/
def specRun (eq : α → α → Bool) : List α → List (Op α) → Option (List α × List (Res α))
  | s, [] => some (s, [])
  | s, op :: ops => do
    let (s1, r) ← specStep eq s op
    let (s2, rs) ← specRun eq s1 ops
    some (s2, r :: rs)

/-- How many elements a call adds at most. -/
def Op.adds : Op α → Nat
  | .push _ | .pushFront _ | .insertAt _ _ => 1
  | .addAll other => other.size
  | .addArray xs => xs.length
  | _ => 0

/-- How many elements a history adds at most. -/
def adds (ops : List (Op α)) : Nat := (ops.map Op.adds).sum

/-- The other list of an `add_all` is itself a proper list. -/
def Op.WellFormed : Op α → Prop
  | .addAll other => ∃ t, Holds other t
  | _ => True

end C3.DynList
