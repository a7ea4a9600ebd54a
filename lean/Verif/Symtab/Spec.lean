import Verif.Symtab.Model

/-! # Specification of interning: the texts registered so far, in order of first registration -/

set_option autoImplicit false

namespace C3.Symtab

/-- The registered texts with the token kind each was first registered with. -/
abbrev Registry := List (List Byte × Nat)

/-- Position and kind of a text. -/
def Registry.get (reg : Registry) (text : List Byte) : Option (Nat × Nat) := do
  let i ← reg.findIdx? (·.1 == text)
  let e ← reg[i]?
  some (i, e.2)

/-- A registration keeps the first entry for a text; a look-up changes nothing. -/
def specStep (reg : Registry) : Op → Registry × Option (Nat × Nat)
  | .add text type =>
    match reg.get text with
    | some r => (reg, some r)
    | none => (reg ++ [(text, type)], some (reg.length, type))
  | .find text => (reg, reg.get text)

/-- A history. -/
def specRun : Registry → List Op → Registry × List (Option (Nat × Nat))
  | reg, [] => (reg, [])
  | reg, op :: ops =>
    let (reg1, r) := specStep reg op
    let (reg2, rs) := specRun reg1 ops
    (reg2, r :: rs)

/-- The text a call is about. -/
def Op.text : Op → List Byte
  | .add text _ => text
  | .find text => text

end C3.Symtab
