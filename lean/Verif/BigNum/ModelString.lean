import Verif.BigNum.Model

/-! # `BigInt.to_string_with_radix` and `BigInt.init_string_radix` of
`lib/std/math/bigint.c3`

A string is the list of its bytes. -/

set_option autoImplicit false

namespace C3.BigNum

/-- `CHARS` of `to_string_with_radix`, line 529. -/
def chars : List Nat := (List.range 26).map (65 + ·)

/-- The byte appended for a digit, lines 548–555; `none` where the index is not
in `CHARS`. -/
def digitChar (d : Nat) : Option Nat := if d < 10 then some (d + 48) else chars[d - 10]?

/-- The loop of `to_string_with_radix`, lines 544–557: the bytes appended. -/
def digitsLoop (N : Nat) (radix a : Big) : Option (List Nat) := do
  if a.isZero then some []
  else
    let q ← singleDivide N a radix
    let c ← digitChar (q.2.word 0)
    let cs ← digitsLoop N radix q.1
    some (c :: cs)
partial_fixpoint

/-- `BigInt.to_string_with_radix`, lines 525–562.  The memory of the string is
not modelled. -/
def toString (N : Nat) (a : Big) (radix : Int) : Option (List Nat) := do
  if ¬ (radix > 1 ∧ radix ≤ 36) then none
  else if a.isZero then some [48]
  else
    let a' ← strip N a
    let r ← init N radix
    let str ← digitsLoop N r a'
    some ((if a.isNegative N then str ++ [45] else str).reverse)

/-- The faults of `init_string_radix`. -/
inductive Fault where
  | malformedInteger
  | integerOverflow
  deriving DecidableEq, Repr

/-- The digit of a byte, lines 95–107. -/
def digitOf (c : Nat) (radix : Int) : Option Int :=
  let v : Option Int :=
    if 48 ≤ c ∧ c ≤ 57 then some (c - 48)
    else if 65 ≤ c ∧ c ≤ 90 then some (c - 55)
    else if 97 ≤ c ∧ c ≤ 122 then some (c - 87)
    else none
  v.bind fun v => if v ≥ radix then none else some v

/-- Lines 110–113: the multiplier of the next digit, if there is one. -/
def nextMultiplier (N : Nat) (radix : Big) (cs : List Nat) (multiplier : Big) : Option Big :=
  if cs.isEmpty then some multiplier else mult N multiplier radix

/-- The loop of `init_string_radix`, lines 93–114, on the bytes behind the sign,
last first.  `none` is a stop of the program. -/
def parseLoop (N : Nat) (radix : Int) (radixBig : Big) (neg : Bool) :
    List Nat → Big → Big → Option (Except Fault Big)
  | [], self, _ => some (.ok self)
  | c :: cs, self, multiplier =>
    match digitOf c radix with
    | none => some (.error .malformedInteger)
    | some d => do
      let t ← init N (if neg then -d else d)
      let p ← mult N multiplier t
      let self ← add N self p
      let m ← nextMultiplier N radixBig cs multiplier
      parseLoop N radix radixBig neg cs self m

/-- Lines 115–121. -/
def checkSign (N : Nat) (neg : Bool) (r : Except Fault Big) : Except Fault Big :=
  match r with
  | .error e => .error e
  | .ok b =>
    if neg && !b.isNegative N then .error .integerOverflow
    else if !neg && b.isNegative N then .error .integerOverflow
    else .ok b

/-- `BigInt.init_string_radix`, lines 86–123.  The index `0` of an empty string
is out of bounds. -/
def initString (N : Nat) (value : List Nat) (radix : Int) : Option (Except Fault Big) :=
  match value with
  | [] => none
  | c :: cs => do
    let r ← init N radix
    let e ← parseLoop N radix r (c == 45) (if c == 45 then cs else c :: cs).reverse (zero N) (one N)
    some (checkSign N (c == 45) e)

end C3.BigNum
