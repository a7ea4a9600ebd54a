import Verif.ConstInit.Model
import Verif.ConstInit.Spec

/-! # What an emitted constant holds -/

set_option autoImplicit false

namespace C3.ConstInit

variable {α : Type}

/-- The element number `i` of an array given in parts. -/
def partAt : List (Const α) → Nat → Option (Const α)
  | [], _ => none
  | .zeros n :: ps, i => if i < n then some .zero else partAt ps (i - n)
  | c :: _, 0 => some c
  | _ :: ps, i + 1 => partAt ps i

/-- What a constant holds at the end of a way. -/
def readAt : List Nat → Const α → Option α
  | [], .value x => x
  | i :: q, .struct l => (l[i]?).bind (readAt q)
  | i :: q, .union j c => if i = j then readAt q c else none
  | i :: q, .array ps => (partAt ps i).bind (readAt q)
  | _, _ => none

/-- The content of a constant. -/
def read (c : Const α) : Content α := fun q => readAt q c

/-- The number of elements in the parts of an array. -/
def width : List (Const α) → Nat
  | [] => 0
  | .zeros n :: ps => n + width ps
  | _ :: ps => 1 + width ps

/-- The constant is one of the type: structs have all members, unions one of theirs, arrays all elements and not one more. -/
inductive Fits : Ty → Const α → Prop
  | zero (t : Ty) : Fits t .zero
  | value (x : Option α) : Fits .scalar (.value x)
  | struct {ms : List Ty} {l : List (Const α)} (hl : l.length = ms.length)
      (hk : ∀ (i : Nat) t c, ms[i]? = some t → l[i]? = some c → Fits t c) : Fits (.struct ms) (.struct l)
  | union {ms : List Ty} {j : Nat} {t : Ty} {c : Const α} (ht : ms[j]? = some t) (hc : Fits t c) : Fits (.union ms) (.union j c)
  | array {len : Nat} {base : Ty} {ps : List (Const α)} (hw : width ps = len)
      (hk : ∀ p, p ∈ ps → (∀ n, p ≠ .zeros n) → Fits base p) : Fits (.array len base) (.array ps)

end C3.ConstInit
