import Verif.Tables.Model

/-! # Specification of the tables: finite maps -/

set_option autoImplicit false

namespace C3.Tables

/-- A map from keys to values; 0 where there is none. -/
abbrev Map := Ptr → Ptr

/-- Calls on a map: `set` replaces and gives back the former value.  `none` outside the precondition
(keys and values are not `NULL`). -/
def specStep (m : Map) : Op → Option (Map × Ptr)
  | .set k v => if k = 0#64 ∨ v = 0#64 then none else some (fun x => if x = k then v else m x, m k)
  | .get k => if k = 0#64 then none else some (m, m k)

/-- Calls on a map that keeps the first value given for a key. -/
def specStepFirst (m : Map) : Op → Option (Map × Ptr)
  | .set k v => if v = 0#64 then none else some (fun x => if x = k ∧ m k = 0#64 then v else m x, m k)
  | .get k => some (m, m k)

/-- A history. -/
def specRun (step : Map → Op → Option (Map × Ptr)) : Map → List Op → Option (List Ptr)
  | _, [] => some []
  | m, op :: ops => do
    let (m1, r) ← step m op
    let rs ← specRun step m1 ops
    some (r :: rs)

/-- The names of the declarations created, and the declarations entered, in order. -/
structure Names where
  names : List Ptr
  entered : List Nat
deriving Repr

/-- A look-up gives all declarations entered under the name, in order.  A declaration may be entered
once. -/
def specDStep (s : Names) : DOp → Option (Names × List Nat)
  | .create name => some (⟨s.names ++ [name], s.entered⟩, [])
  | .set n => if n < s.names.length ∧ n ∉ s.entered then some (⟨s.names, s.entered ++ [n]⟩, []) else none
  | .get name => some (s, s.entered.filter fun n => s.names[n]? = some name)

def specDRun : Names → List DOp → Option (List (List Nat))
  | _, [] => some []
  | s, op :: ops => do
    let (s1, r) ← specDStep s op
    let rs ← specDRun s1 ops
    some (r :: rs)

end C3.Tables
