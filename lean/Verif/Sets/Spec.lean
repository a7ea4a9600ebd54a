import Mathlib.Data.Finset.SymmDiff
import Mathlib.Data.Finset.Card
import Mathlib.Data.Finset.Range
import Mathlib.Data.Finset.Max
import Mathlib.Data.Finset.Lattice.Fold
/-
What a history of operations on a set means, in terms of finite sets of numbers.
-/
set_option autoImplicit false

namespace C3.Sets.Std

/-- A way to build a set of numbers with the operations of the library. -/
inductive Prog where
  | empty
  | add (p : Prog) (i : Nat)
  | remove (p : Prog) (i : Nat)
  | put (p : Prog) (i : Nat) (value : Bool)
  | union (p q : Prog)
  | inter (p q : Prog)
  | diff (p q : Prog)
  | xor (p q : Prog)
deriving DecidableEq, Repr

/-- The set a history stands for. -/
def Prog.sem : Prog → Finset Nat
  | .empty => ∅
  | .add p i => insert i p.sem
  | .remove p i => p.sem.erase i
  | .put p i true => insert i p.sem
  | .put p i false => p.sem.erase i
  | .union p q => p.sem ∪ q.sem
  | .inter p q => p.sem ∩ q.sem
  | .diff p q => p.sem \ q.sem
  | .xor p q => symmDiff p.sem q.sem

/-- Every index of the history is below `n`. -/
def Prog.Below (n : Nat) : Prog → Prop
  | .empty => True
  | .add p i | .remove p i | .put p i _ => p.Below n ∧ i < n
  | .union p q | .inter p q | .diff p q | .xor p q => p.Below n ∧ q.Below n

/-- A history without an operation on two sets. -/
def Prog.Single : Prog → Prop
  | .empty => True
  | .add p _ | .remove p _ | .put p _ _ => p.Single
  | .union _ _ | .inter _ _ | .diff _ _ | .xor _ _ => False

/-- A history without a removal and without an operation on two sets. -/
def Prog.Growing : Prog → Prop
  | .empty => True
  | .add p _ => p.Growing
  | .put p _ value => p.Growing ∧ value = true
  | _ => False

/-- A history that a `BitSet` can express: it has no difference of two sets. -/
def Prog.NoDiff : Prog → Prop
  | .empty => True
  | .add p _ | .remove p _ | .put p _ _ => p.NoDiff
  | .union p q | .inter p q | .xor p q => p.NoDiff ∧ q.NoDiff
  | .diff _ _ => False

instance (n : Nat) : (p : Prog) → Decidable (p.Below n)
  | .empty => inferInstanceAs (Decidable True)
  | .add p i | .remove p i | .put p i _ =>
    have := instDecidableBelow n p
    inferInstanceAs (Decidable (p.Below n ∧ i < n))
  | .union p q | .inter p q | .diff p q | .xor p q =>
    have := instDecidableBelow n p
    have := instDecidableBelow n q
    inferInstanceAs (Decidable (p.Below n ∧ q.Below n))

/-- The names of the members of `S` in the order of their ordinals. -/
def membersFrom (S : Finset Nat) : List String → Nat → List String
  | [], _ => []
  | name :: rest, v => if v ∈ S then name :: membersFrom S rest (v + 1) else membersFrom S rest (v + 1)

end C3.Sets.Std
