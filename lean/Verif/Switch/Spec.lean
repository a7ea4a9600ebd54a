import Verif.ConstCompare.Spec
import Verif.Switch.Model

/-! # What a switch means -/

set_option autoImplicit false

namespace C3.Switch
open C3.Bigint

/-- The number a run-time value of the type stands for. -/
def value (t : TypeKind) (v : Val t) : Int := if t.signed then v.toInt else v.toNat

/-- First and last value of a case. -/
def Label.lo : Label → Int
  | .int a _ => a.val
  | .enum a _ => a.toNat
def Label.hi : Label → Int
  | .int a b => (b.getD a).val
  | .enum a b => (b.getD a).toNat

/-- The values of a case. -/
def Label.Contains (l : Label) (x : Int) : Prop := l.lo ≤ x ∧ x ≤ l.hi

/-- A switch over `t` (with `enumCount = none`), or over an enum with that many values whose ordinals are
stored in `t`: each label is of that kind and its values are values of the type. -/
def Label.Typed (t : TypeKind) (enumCount : Option Nat) : Label → Prop
  | .int a b => enumCount = none ∧ a.type = t ∧ a.WF ∧ ∀ c ∈ b, c.type = t ∧ c.WF
  | .enum a b => ∃ n, enumCount = some n ∧ (n : Int) ≤ t.maxVal + 1 ∧ a.toNat < n ∧ ∀ c ∈ b, c.toNat < n

def Typed (t : TypeKind) (enumCount : Option Nat) (cases : List Case) : Prop :=
  ∀ c ∈ cases, ∀ l ∈ c.label, l.Typed t enumCount

/-- No value is in two cases. -/
def Disjoint (cases : List Case) : Prop :=
  ∀ (i j : Nat) (c d : Case) (l m : Label) (x : Int), i < j → cases[i]? = some c → cases[j]? = some d →
    c.label = some l → d.label = some m → l.Contains x → ¬ m.Contains x

/-- Every range goes upwards. -/
def Ordered (cases : List Case) : Prop := ∀ c ∈ cases, ∀ l ∈ c.label, l.lo ≤ l.hi

/-- At most one case is the default. -/
def OneDefault (cases : List Case) : Prop :=
  ∀ (i j : Nat) (c d : Case), cases[i]? = some c → cases[j]? = some d → c.label = none → d.label = none → i = j

/-- Where control goes when it reaches case `i`: to the first body from there on, or to the end. -/
def RunsAt (cases : List Case) (i : Nat) : Block → Prop
  | some j => i ≤ j ∧ (∃ c, cases[j]? = some c ∧ c.body = true) ∧
      ∀ (k : Nat) (c : Case), i ≤ k → k < j → cases[k]? = some c → c.body = false
  | none => ∀ (k : Nat) (c : Case), i ≤ k → cases[k]? = some c → c.body = false

/-- Where control goes for the value `x`: to the case containing it, else to the default, else to the end. -/
def Target (cases : List Case) (x : Int) (b : Block) : Prop :=
  (∃ (i : Nat) (c : Case) (l : Label), cases[i]? = some c ∧ c.label = some l ∧ l.Contains x ∧ RunsAt cases i b) ∨
  (∀ c ∈ cases, ∀ l ∈ c.label, ¬ l.Contains x) ∧
    ((∃ (i : Nat) (c : Case), cases[i]? = some c ∧ c.label = none ∧ RunsAt cases i b) ∨
      (∀ c ∈ cases, c.label ≠ none) ∧ b = none)

/-- A default without body does not fall through to a later body. -/
def DefaultEnds (cases : List Case) : Prop :=
  ∀ (i : Nat) (c : Case), cases[i]? = some c → c.label = none → c.body = false → RunsAt cases i none

/-- The first of the cases (numbered from `i`) containing `x`, `none` if there is none. -/
def FirstContaining (cases : List Case) (x : Int) (i : Nat) : Option Nat → Prop
  | some j => i ≤ j ∧ (∃ d l, cases[j - i]? = some d ∧ d.label = some l ∧ l.Contains x) ∧
      ∀ (k : Nat) (d : Case) (l : Label), k < j - i → cases[k]? = some d → d.label = some l → ¬ l.Contains x
  | none => ∀ d ∈ cases, ∀ l ∈ d.label, ¬ l.Contains x

/-- A constant of the kind the switch is over, with its value. -/
def Denotes (t : TypeKind) (n : Option Nat) : ConstCompare.Const → Int → Prop
  | .integer a, x => n = none ∧ a.type = t ∧ a.val = x
  | .enum ty a, x => n ≠ none ∧ ty = 0#64 ∧ (a.toNat : Int) = x
  | _, _ => False

end C3.Switch
