import Verif.Sets.Model
import Verif.Sets.Spec
/-
Running a history of operations with the modelled functions.
-/
set_option autoImplicit false

namespace C3.Sets
open Std

/-- The history run on `BitSet{size}`. A `BitSet` has no difference of sets. -/
def BitSet.run (size : Nat) : Prog → Option BitSet.Data
  | .empty => some (BitSet.empty size)
  | .add p i => do BitSet.set size (← run size p) i
  | .remove p i => do BitSet.unset size (← run size p) i
  | .put p i v => do BitSet.setBool size (← run size p) i v
  | .union p q => do BitSet.or (← run size p) (← run size q)
  | .inter p q => do BitSet.and (← run size p) (← run size q)
  | .diff _ _ => none
  | .xor p q => do BitSet.xor (← run size p) (← run size q)

/-- The history run on a `GrowableBitSet`, which has no operation on two sets. -/
def Growable.run (w : Nat) : Prog → Option (Growable.Data w)
  | .empty => some []
  | .add p i => do Growable.set (← run w p) i
  | .remove p i => do Growable.unset (← run w p) i
  | .put p i v => do Growable.setBool (← run w p) i v
  | .union _ _ | .inter _ _ | .diff _ _ | .xor _ _ => none

/-- The history run on an `EnumSet` of at most 32 elements. `put` is the user's choice between
`add` and `remove`. -/
def Small.run : Prog → Option (BitVec 32)
  | .empty => some Small.clear
  | .add p i => do Small.add (← run p) i
  | .remove p i => do some (← Small.remove (← run p) i).1
  | .put p i v => do if v then Small.add (← run p) i else some (← Small.remove (← run p) i).1
  | .union p q => do some (Small.orOf (← run p) (← run q))
  | .inter p q => do some (Small.andOf (← run p) (← run q))
  | .diff p q => do some (Small.diffOf (← run p) (← run q))
  | .xor p q => do some (Small.xorOf (← run p) (← run q))

/-- The history run on an `EnumSet` of more than 128 elements. -/
def Big.run (n : Nat) : Prog → Option Big.Data
  | .empty => some (Big.empty n)
  | .add p i => do Big.add (← run n p) i
  | .remove p i => do some (← Big.remove (← run n p) i).1
  | .put p i v => do if v then Big.add (← run n p) i else some (← Big.remove (← run n p) i).1
  | .union p q => do Big.orOf (← run n p) (← run n q)
  | .inter p q => do Big.andOf (← run n p) (← run n q)
  | .diff p q => do Big.diffOf (← run n p) (← run n q)
  | .xor p q => do Big.xorOf (← run n p) (← run n q)

end C3.Sets
