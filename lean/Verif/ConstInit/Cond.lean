import Verif.ConstInit.Spec

/-!
# The initializers that mean what they say

Three kinds of designators do not (see the theorems about them).  The conditions are on the text and the types alone.
-/

set_option autoImplicit false

namespace C3.ConstInit

variable {α : Type}

/-- The first index. -/
def Step.first : Step → Nat
  | .field i => i
  | .index i => i
  | .range lo _ => lo

/-- More than one element is meant. -/
def Step.wide : Step → Bool
  | .range lo hi => decide (lo < hi)
  | _ => false

/-- The last step is to a member of a struct. -/
def endsInStruct : Ty → List Step → Bool
  | _, [] => false
  | t, s :: p => (t.isStruct && p.isEmpty) || (t.child s.first).any (endsInStruct · p)

/-- Ranges end inside the array. -/
def inside : Ty → List Step → Bool
  | _, [] => true
  | .array len base, .range _ hi :: p => decide (hi < len) && inside base p
  | t, s :: p => (t.child s.first).all (inside · p)

mutual

/-- The initializer is `{}`, or a union whose last designator stores `{}` in a member. -/
def blank (t : Ty) : Init α → Bool
  | .scalar _ => false
  | .empty => !t.isScalar
  | .list _ => false
  | .desig ds => blankLast t ds

def blankLast (t : Ty) : Desigs α → Bool
  | .nil => false
  | .cons path v .nil => t.isUnion && path.length == 1 && blank ((typeAt t path).getD .scalar) v
  | .cons _ _ ds => blankLast t ds

end

mutual

/-- Only scalars are stored in more than one element, nothing blank in a member of a struct, and nothing behind the end of an array. -/
def plain (t : Ty) : Init α → Bool
  | .scalar _ => true
  | .empty => true
  | .list vs => plainList t 0 vs
  | .desig ds => plainDesigs t ds

def plainList (t : Ty) (k : Nat) : Inits α → Bool
  | .nil => true
  | .cons v vs => plain ((t.child k).getD .scalar) v && plainList t (k + 1) vs

def plainDesigs (t : Ty) : Desigs α → Bool
  | .nil => true
  | .cons path v ds =>
    let t' := (typeAt t path).getD .scalar
    (!path.any Step.wide || t'.isScalar) && (!endsInStruct t path || !blank t' v) && inside t path && plain t' v && plainDesigs t ds

end

/-! ## Initializers of the right form -/

/-- The steps lead to a part of the type. -/
def leads : Ty → List Step → Bool
  | _, [] => true
  | .struct ms, .field i :: p => (ms[i]?).any (leads · p)
  | .union ms, .field i :: p => (ms[i]?).any (leads · p)
  | .array len base, .index i :: p => decide (i < len) && leads base p
  | .array len base, .range lo hi :: p => decide (lo ≤ hi) && decide (hi < len) && leads base p
  | _, _ => false

mutual

/-- The initializer fits the type: one value for each member or element, one for a union, and designators that lead to parts. -/
def typed (t : Ty) : Init α → Bool
  | .scalar _ => t.isScalar
  | .empty => true
  | .list vs =>
    match t with
    | .scalar => false
    | .struct ms => !ms.isEmpty && typedList ms vs
    | .union ms => !ms.isEmpty && typedList (ms.take 1) vs
    | .array len base => decide (0 < len) && typedList (List.replicate len base) vs
  | .desig .nil => false
  | .desig ds => typedDesigs t ds

def typedList (ts : List Ty) : Inits α → Bool
  | .nil => ts.isEmpty
  | .cons v vs =>
    match ts with
    | [] => false
    | t :: ts => typed t v && typedList ts vs

def typedDesigs (t : Ty) : Desigs α → Bool
  | .nil => true
  | .cons path v ds => !path.isEmpty && leads t path && typed ((typeAt t path).getD .scalar) v && typedDesigs t ds

end

def Ty.isArray : Ty → Bool
  | .array _ _ => true
  | _ => false

mutual

/-- There is a list for an array in it. -/
def hasArrayList (t : Ty) : Init α → Bool
  | .scalar _ => false
  | .empty => false
  | .list vs => t.isArray || listsHave t 0 vs
  | .desig ds => desigsHave t ds

def listsHave (t : Ty) (k : Nat) : Inits α → Bool
  | .nil => false
  | .cons v vs => hasArrayList ((t.child k).getD .scalar) v || listsHave t (k + 1) vs

def desigsHave (t : Ty) : Desigs α → Bool
  | .nil => false
  | .cons path v ds => hasArrayList ((typeAt t path).getD .scalar) v || desigsHave t ds

end

def Step.isField : Step → Bool
  | .field _ => true
  | _ => false

/-- No index follows another step. -/
def shallow : Desigs α → Bool
  | .nil => true
  | .cons path _ ds => path.tail.all Step.isField && shallow ds

mutual

/-- No designator may lead into an array that was given by a list. -/
def settled (t : Ty) : Init α → Bool
  | .scalar _ => true
  | .empty => true
  | .list vs => settledList t 0 vs
  | .desig ds => (shallow ds || !desigsHave t ds) && settledDesigs t ds

def settledList (t : Ty) (k : Nat) : Inits α → Bool
  | .nil => true
  | .cons v vs => settled ((t.child k).getD .scalar) v && settledList t (k + 1) vs

def settledDesigs (t : Ty) : Desigs α → Bool
  | .nil => true
  | .cons path v ds => settled ((typeAt t path).getD .scalar) v && settledDesigs t ds

end

end C3.ConstInit
