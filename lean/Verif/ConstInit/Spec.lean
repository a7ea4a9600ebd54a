import Verif.ConstInit.Syntax

/-!
# What an initializer says

The content of a variable is given by the constants at its scalar parts, `none` for zero.  A part is named by the way to it: the numbers of
members and elements.
-/

set_option autoImplicit false

namespace C3.ConstInit

variable {α : Type}

abbrev Content (α : Type) := List Nat → Option α

def zeros : Content α := fun _ => none

/-- The ways `p` and `q` part at a union: they lead to different members of it. -/
def clash (t : Ty) : List Nat → List Nat → Bool
  | i :: p, j :: q => if i = j then (t.child i).any fun t => clash t p q else t.isUnion
  | _, _ => false

/-- The content after `w` was stored in the part `p`: there it is `w`, and other members of the unions on the way are lost.  All else stays. -/
def write (t : Ty) (m : Content α) (p : List Nat) (w : Content α) : Content α := fun q =>
  if p <+: q then w (q.drop p.length) else if clash t p q then none else m q

/-- The parts a designator stands for. -/
def expand : List Step → List (List Nat)
  | [] => [[]]
  | .field i :: p => (expand p).map (i :: ·)
  | .index i :: p => (expand p).map (i :: ·)
  | .range lo hi :: p => (List.range' lo (hi + 1 - lo)).flatMap fun i => (expand p).map (i :: ·)

/-- The type at the end of a path. -/
def typeAt (t : Ty) : List Step → Option Ty
  | [] => some t
  | .field i :: p => (t.child i).bind (typeAt · p)
  | .index i :: p => (t.child i).bind (typeAt · p)
  | .range lo _ :: p => (t.child lo).bind (typeAt · p)

mutual

/-- The content that an initializer gives to a variable of type `t`.  Designators are stores, one after the other, into zeros. -/
def denote (t : Ty) : Init α → Content α
  | .scalar x => fun q => if q = [] then some x else none
  | .empty => zeros
  | .list vs => denoteList t 0 vs
  | .desig ds => denoteDesigs t zeros ds

/-- The content given by the members or elements from number `k` on. -/
def denoteList (t : Ty) (k : Nat) : Inits α → Content α
  | .nil => zeros
  | .cons v vs => fun q =>
    match q with
    | [] => none
    | i :: q => if i = k then denote ((t.child k).getD .scalar) v q else denoteList t (k + 1) vs (i :: q)

def denoteDesigs (t : Ty) (m : Content α) : Desigs α → Content α
  | .nil => m
  | .cons path v ds =>
    denoteDesigs t ((expand path).foldl (fun m p => write t m p (denote ((typeAt t path).getD .scalar) v)) m) ds

end

end C3.ConstInit
