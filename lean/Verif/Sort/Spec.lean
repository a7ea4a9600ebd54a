import Mathlib.Data.Int.Order.Basic

/-! # Specification vocabulary for sorting -/

set_option autoImplicit false

namespace C3.Sort

/-- `cmp` is the three-way comparison of a total preorder. -/
structure Preorder {α : Type} (cmp : α → α → Int) : Prop where
  sym : ∀ x y, cmp x y ≤ 0 ↔ 0 ≤ cmp y x
  trans : ∀ x y z, cmp x y ≤ 0 → cmp y z ≤ 0 → cmp x z ≤ 0

/-- The list is in ascending order. -/
def Sorted {α : Type} (cmp : α → α → Int) (l : List α) : Prop := l.Pairwise fun a b => cmp a b ≤ 0

end C3.Sort
