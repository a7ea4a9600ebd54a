import Verif.Bigint.Spec
import Verif.ConstCompare.Model

/-! # What constants denote, and when two of them are equal or ordered -/

set_option autoImplicit false

namespace C3.ConstCompare
open C3.Bigint

/-- The number of a `double` (IEEE 754 binary64) times 2^1074, which is an integer for every finite one;
`none` for a NaN.  Infinities stand beyond all finite numbers. -/
def scaled (x : BitVec 64) : Option Int :=
  let sign : Int := if x.toNat / 2 ^ 63 = 0 then 1 else -1
  let exponent : Nat := x.toNat / 2 ^ 52 % 2 ^ 11
  let fraction : Nat := x.toNat % 2 ^ 52
  if exponent = 2047 then if fraction = 0 then some (sign * 2 ^ 2098) else none
  else if exponent = 0 then some (sign * fraction)
  else some (sign * ((2 ^ 52 + fraction) * 2 ^ (exponent - 1)))

/-- The bytes written in a string, bytes, or character array constant. -/
def Bytes.content (mem : Mem) : Bytes → List (BitVec 8)
  | .at p n => (List.range n).map fun i => mem (p + BitVec.ofNat 64 i)
  | .fresh d => d

/-- The bytes of a character array with this initializer: elements not given are zero, and of several given
for one index the last counts. -/
def Initializer.content (i : Initializer) : List (BitVec 8) :=
  match i.init with
  | .zero => List.replicate i.len 0#8
  | .array es => (List.range i.len).map fun k =>
      match es.reverse.find? (fun e => e.1 == k) with
      | some e => BitVec.ofInt 8 e.2.val
      | none => 0#8
  | .arrayFull es => es.map fun v => BitVec.ofInt 8 v.val

/-- The bytes a constant stands for, if it stands for bytes. -/
def Const.content (mem : Mem) : Const → Option (List (BitVec 8))
  | .bytes b => some (b.content mem)
  | .string b => some (b.content mem)
  | .slice none => some []
  | .slice (some i) => some i.content
  | .initializer i => some i.content
  | _ => none

/-- An initializer of an array of characters as analysis leaves it: not empty, indices inside, every element
given where all are. -/
def Initializer.Ok (i : Initializer) : Prop :=
  0 < i.len ∧
  match i.init with
  | .zero => True
  | .array es => ∀ e ∈ es, e.1 < i.len
  | .arrayFull es => es.length = i.len

/-- Constants that convert to one type and compare with `==`. -/
inductive Comparable : Const → Const → Prop
  | float (a b : BitVec 64) : Comparable (.float a) (.float b)
  | integer (a b : CInt) : Comparable (.integer a) (.integer b)
  | bool (a b : Bool) : Comparable (.bool a) (.bool b)
  | enum (t : Addr) (a b : BitVec 32) : Comparable (.enum t a) (.enum t b)
  | fault (a b : Decl) : Comparable (.fault a) (.fault b)
  | pointer (a b : Addr) : Comparable (.pointer a) (.pointer b)
  | null (d : Decl) : d.addr ≠ 0#64 → Comparable (.pointer 0#64) (.ref d)
  | typeid (a b : Addr) : Comparable (.typeid a) (.typeid b)
  | member (a b : Addr) : Comparable (.member a) (.member b)
  | bytes (a b : Bytes) : Comparable (.bytes a) (.bytes b)
  | bytesString (a b : Bytes) : Comparable (.bytes a) (.string b)
  | stringBytes (a b : Bytes) : Comparable (.string a) (.bytes b)
  | string (a b : Bytes) : Comparable (.string a) (.string b)
  | bytesSlice (a : Bytes) (i : Option Initializer) : (∀ j ∈ i, j.Ok) → Comparable (.bytes a) (.slice i)
  | bytesInit (a : Bytes) (i : Initializer) : i.Ok → Comparable (.bytes a) (.initializer i)
  | stringSlice (a : Bytes) (i : Option Initializer) : (∀ j ∈ i, j.Ok) → Comparable (.string a) (.slice i)
  | stringInit (a : Bytes) (i : Initializer) : i.Ok → Comparable (.string a) (.initializer i)
  | sliceBytes (i : Option Initializer) (b : Bytes) : (∀ j ∈ i, j.Ok) → Comparable (.slice i) (.bytes b)
  | initBytes (i : Initializer) (b : Bytes) : i.Ok → Comparable (.initializer i) (.bytes b)
  | sliceString (i : Option Initializer) (b : Bytes) : (∀ j ∈ i, j.Ok) → Comparable (.slice i) (.string b)
  | initString (i : Initializer) (b : Bytes) : i.Ok → Comparable (.initializer i) (.string b)

/-- The declaration a `Decl` stands for: what it is an alias of, or itself. -/
def Decl.names (d : Decl) : Addr := d.alias.getD d.addr

/-- The two constants denote the same value. -/
def Same (mem : Mem) : Const → Const → Prop
  | .float a, .float b => ∃ v, scaled a = some v ∧ scaled b = some v
  | .integer a, .integer b => a.val = b.val
  | .bool a, .bool b => a = b
  | .enum s a, .enum t b => s = t ∧ a = b
  | .fault a, .fault b => a.names = b.names
  | .pointer a, .pointer b => a = b
  | .typeid a, .typeid b => a = b
  | .member a, .member b => a = b
  | a, b => ∃ c, a.content mem = some c ∧ b.content mem = some c

/-- The number by which a constant of an ordered type is ordered. -/
def Const.rank : Const → Option Int
  | .float a => scaled a
  | .integer a => some a.val
  | .bool a => some (if a then 1 else 0)
  | .enum _ a => some a.toNat
  | .pointer a => some a.toNat
  | _ => none

/-- The constant is not a fault. -/
def NotFault : Const → Prop
  | .fault _ => False
  | _ => True

/-- Where a string is compared (a string on the left, or a string on the right of an array or slice), the left
side has no zero byte. -/
def NulFree (mem : Mem) (a b : Const) : Prop :=
  match a, b with
  | .string s, _ => 0#8 ∉ s.content mem
  | .slice i, .string _ => ∀ c, (Const.slice i).content mem = some c → 0#8 ∉ c
  | .initializer i, .string _ => 0#8 ∉ i.content
  | _, _ => True

end C3.ConstCompare
