import Verif.PQueue.Model

/-! # Specification vocabulary for priority queues -/

set_option autoImplicit false

namespace C3.PQueue

variable {α : Type}

/-- `lt` is a strict weak order. -/
structure StrictWeak (lt : α → α → Bool) : Prop where
  asymm : ∀ a b, lt a b = true → lt b a = false
  negTrans : ∀ a b c, lt a b = false → lt b c = false → lt a c = false

/-- No element of the bag `c` comes before `m`: for a `PriorityQueue` none is less, for a
`PriorityQueueMax` none is greater. -/
def Extremal (max : Bool) (lt : α → α → Bool) (c : List α) (m : α) : Prop :=
  ∀ y ∈ c, (if max then lt m y else lt y m) = false

/-- A history with its results is what a bag ordered by `lt` does: `pop` and `first` deliver an
extremal element, `pop` removes exactly that one, `remove_at(0)` removes an extremal one.  (Bags are
lists up to reordering.) -/
def Bag (max : Bool) (lt : α → α → Bool) : List α → List (Op α) → List (Res α) → Prop
  | _, [], rs => rs = []
  | c, .push x :: ops, rs => ∃ rs', rs = .unit :: rs' ∧ Bag max lt (x :: c) ops rs'
  | c, .pop :: ops, rs =>
      (c = [] ∧ ∃ rs', rs = .value none :: rs' ∧ Bag max lt c ops rs') ∨
      (∃ m c' rs', rs = .value (some m) :: rs' ∧ c.Perm (m :: c') ∧ Extremal max lt c m ∧ Bag max lt c' ops rs')
  | c, .first :: ops, rs =>
      (c = [] ∧ ∃ rs', rs = .value none :: rs' ∧ Bag max lt c ops rs') ∨
      (∃ m rs', rs = .value (some m) :: rs' ∧ m ∈ c ∧ Extremal max lt c m ∧ Bag max lt c ops rs')
  | c, .removeAt _ :: ops, rs =>
      ∃ m c' rs', rs = .unit :: rs' ∧ c.Perm (m :: c') ∧ Extremal max lt c m ∧ Bag max lt c' ops rs'
  | c, .len :: ops, rs => ∃ rs', rs = .nat c.length :: rs' ∧ Bag max lt c ops rs'

end C3.PQueue
