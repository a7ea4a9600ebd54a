import Verif.Elastic.Model

set_option autoImplicit false

namespace C3.Elastic

variable {α : Type}

/-- The array has room for `m` elements and holds `s`. -/
def Holds (m : Nat) (a : EA α) (s : List α) : Prop :=
  a.entries.length = m ∧ a.size = s.length ∧ s.length ≤ m ∧ a.entries.take s.length = s

/-- The operations on a list of at most `m` elements; `none`: the contract does not hold. -/
def specStep (m : Nat) (eq : α → α → Bool) (s : List α) : Op α → Option (List α × Res α)
  | .pushTry x => some (if s.length < m then (s ++ [x], .ok true) else (s, .ok false))
  | .pop => some (s.dropLast, .item s.getLast?)
  | .popFirst => some (s.tail, .item s.head?)
  | .removeAt i => if i < s.length then some (s.eraseIdx i, .unit) else none
  | .removeFirst => some (s.tail, .ok (!s.isEmpty))
  | .insertAtTry i x =>
    if i ≤ s.length then some (if s.length < m then (s.insertIdx i x, .ok true) else (s, .ok false)) else none
  | .addToLimit l => some (s ++ l.take (m - s.length), .count (l.length - (m - s.length)))
  | .removeItem x => some (s.filter fun v => !eq v x, .count (s.countP fun v => eq v x))
  | .clear => some ([], .unit)

def specRun (m : Nat) (eq : α → α → Bool) : List α → List (Op α) → Option (List α × List (Res α))
  | s, [] => some (s, [])
  | s, o :: l =>
    match specStep m eq s o with
    | some (s, r) => (specRun m eq s l).map fun x => (x.1, r :: x.2)
    | none => none

end C3.Elastic
