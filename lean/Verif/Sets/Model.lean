/-
Model of the bit sets and enum sets of the standard library
(/repo/lib/std/collections/bitset.c3, /repo/lib/std/collections/enumset.c3).

An abort of a safe build (a failed `@require`, an index out of bounds, a shift by the width of the
type or more) is `none`.

Arithmetic follows the language: the literal `1` is an `int`, so `1 << r` is a 32 bit shift, and
the smaller unsigned types are promoted to `int` before `|`, `&` and `<<`
(/repo/src/compiler/sema_expr.c 7236-7283).
-/
set_option autoImplicit false

namespace C3.Sets

/-- `1 << r` on an `int`: a safe build traps when `r` is not below 32
(/repo/src/compiler/llvm_codegen_expr.c 4113-4117). -/
def shlOne (r : Nat) : Option (BitVec 32) :=
  if r < 32 then some (1#32 <<< r) else none

/-- `x.popcount()`, the `ctpop` of LLVM. -/
def popcount {w : Nat} (x : BitVec w) : Nat :=
  (List.range w).countP fun k => x.getLsbD k

/-- `x.clz()`, the `ctlz` of LLVM: the number of zero bits above the highest set bit, the whole
width for zero. -/
def clz {w : Nat} (x : BitVec w) : Nat :=
  (List.range w).reverse.findIdx fun k => x.getLsbD k

/-! ### `BitSet{SIZE}` (bitset.c3 7-164) -/

namespace BitSet

/-- `const BITS = uint.sizeof * 8` (bitset.c3 9). -/
def BITS : Nat := 32

/-- `const SZ = (SIZE + BITS - 1) / BITS` (bitset.c3 10). -/
def SZ (size : Nat) : Nat := (size + BITS - 1) / BITS

/-- The `data` member, `uint[SZ]` (bitset.c3 12-15). -/
abbrev Data := List (BitVec 32)

/-- A zero initialised `BitSet`. -/
def empty (size : Nat) : Data := List.replicate (SZ size) 0

/-- The sum of `popcount` that `cardinality` makes (bitset.c3 20-28). -/
def cardinality (d : Data) : Nat := d.foldl (fun n x => n + popcount x) 0

/-- `BitSet.set` (bitset.c3 37-42). -/
def set (size : Nat) (d : Data) (i : Nat) : Option Data := do
  if ¬ i < size then none
  let q := i / BITS
  let r := i % BITS
  let x ← d[q]?
  let m ← shlOne r
  some (d.set q (x ||| m))

/-- `BitSet.unset` (bitset.c3 126-131). -/
def unset (size : Nat) (d : Data) (i : Nat) : Option Data := do
  if ¬ i < size then none
  let q := i / BITS
  let r := i % BITS
  let x ← d[q]?
  let m ← shlOne r
  some (d.set q (x &&& ~~~ m))

/-- `BitSet.get` (bitset.c3 140-145). -/
def get (size : Nat) (d : Data) (i : Nat) : Option Bool := do
  if ¬ i < size then none
  let q := i / BITS
  let r := i % BITS
  let x ← d[q]?
  let m ← shlOne r
  some (x &&& m != 0)

/-- `BitSet.len` (bitset.c3 147-150). -/
def len (size : Nat) : Nat := SZ size * BITS

/-- `BitSet.set_bool` (bitset.c3 160-164). -/
def setBool (size : Nat) (d : Data) (i : Nat) (value : Bool) : Option Data := do
  if ¬ i < size then none
  if value then set size d i else unset size d i

/-- The loop `foreach (i, x : self.data) new_set.data[i] = x OP set.data[i]` from position `i`.
`other` is `set.data`; its index is bounds checked. -/
def zipLoop (op : BitVec 32 → BitVec 32 → BitVec 32) (other : Data) : Data → Nat → Option Data
  | [], _ => some []
  | x :: rest, i => do
    let y ← other[i]?
    let more ← zipLoop op other rest (i + 1)
    some (op x y :: more)

/-- `xor` and `xor_self` (bitset.c3 50-67). The in place variant writes the same words into
`self.data`, so the same function describes the resulting set. -/
def xor (a b : Data) : Option Data := zipLoop (· ^^^ ·) b a 0

/-- `or` and `or_self` (bitset.c3 75-92). -/
def or (a b : Data) : Option Data := zipLoop (· ||| ·) b a 0

/-- `and` and `and_self` (bitset.c3 100-117). -/
def and (a b : Data) : Option Data := zipLoop (· &&& ·) b a 0

/-- `foreach (b : set)`: the language calls `len` once and then `get` for every index below it
(/repo/src/compiler/sema_stmts.c, foreach over a type with overloads). -/
def foreachAll (size : Nat) (d : Data) : Option (List Bool) :=
  (List.range (len size)).mapM (get size d)

end BitSet

/-! ### `GrowableBitSet{Type}` (bitset.c3 166-251)

`Type` is an unsigned type of `w` bits. Only 8, 16 and 32 are covered: with a wider type the
expression `self.data[q] | (1 << r)` would have to widen a shift implicitly, which the compiler
rejects (/repo/src/compiler/sema_casts.c 1240-1256, /repo/src/compiler/expr.c 969-971). The list
is a plain list (its own behaviour is the subject of `Verif.DynList`); running out of memory is
not modelled. -/

namespace Growable

/-- The `data` member. -/
abbrev Data (w : Nat) := List (BitVec w)

/-- `GrowableBitSet.cardinality` (bitset.c3 201-209). -/
def cardinality {w : Nat} (d : Data w) : Nat := d.foldl (fun n x => n + popcount x) 0

/-- The loop `while (q >= current_len) { push(0); current_len++; }` (bitset.c3 216-220). `room` is
the number of iterations left; `set` gives it the `q + 1` that always suffice. -/
def growLoop {w : Nat} (q : Nat) : Nat → Data w → Nat → Data w
  | 0, d, _ => d
  | room + 1, d, current =>
    if q ≥ current then growLoop q room (d ++ [0]) (current + 1) else d

/-- `GrowableBitSet.set` (bitset.c3 211-222). The word is promoted to `int`, and the result is
narrowed to `Type` when it is passed to `List.set`. -/
def set {w : Nat} (d : Data w) (i : Nat) : Option (Data w) := do
  let q := i / w
  let r := i % w
  let d := growLoop q (q + 1) d d.length
  let x ← d[q]?
  let m ← shlOne r
  some (d.set q ((x.setWidth 32 ||| m).setWidth w))

/-- `GrowableBitSet.unset` (bitset.c3 224-230). -/
def unset {w : Nat} (d : Data w) (i : Nat) : Option (Data w) := do
  let q := i / w
  let r := i % w
  if q ≥ d.length then some d
  else do
    let x ← d[q]?
    let m ← shlOne r
    some (d.set q ((x.setWidth 32 &&& ~~~ m).setWidth w))

/-- `GrowableBitSet.get` (bitset.c3 232-238). -/
def get {w : Nat} (d : Data w) (i : Nat) : Option Bool := do
  let q := i / w
  let r := i % w
  if q ≥ d.length then some false
  else do
    let x ← d[q]?
    let m ← shlOne r
    some (x.setWidth 32 &&& m != 0)

/-- `GrowableBitSet.len` (bitset.c3 240-245). -/
def len {w : Nat} (d : Data w) : Nat :=
  let n := d.length * w
  if n > 0 then n - clz (d.getLastD 0) else n

/-- `GrowableBitSet.set_bool` (bitset.c3 247-251). -/
def setBool {w : Nat} (d : Data w) (i : Nat) (value : Bool) : Option (Data w) :=
  if value then set d i else unset d i

end Growable

/-! ### `EnumSet{Enum}` over at most 32 elements (enumset.c3)

`type_for_enum_elements` gives `uint` for every enum of at most 32 elements where a C `int` has 32
bits (enumset.c3 143-160). An element is given by its ordinal. -/

namespace Small

/-- `EnumSet.add` (enumset.c3 16-23). `1u << ordinal` traps when the ordinal is 32 or more. -/
def add (s : BitVec 32) (v : Nat) : Option (BitVec 32) := do
  let m ← shlOne v
  some (s ||| m)

/-- `EnumSet.clear` (enumset.c3 25-32). -/
def clear : BitVec 32 := 0

/-- `EnumSet.remove` (enumset.c3 34-46). -/
def remove (s : BitVec 32) (v : Nat) : Option (BitVec 32 × Bool) := do
  let m ← shlOne v
  let new := s &&& ~~~ m
  some (new, s != new)

/-- `EnumSet.has` (enumset.c3 48-55). -/
def has (s : BitVec 32) (v : Nat) : Option Bool := do
  let m ← shlOne v
  some (s &&& m != 0)

/-- `EnumSet.add_all` and `or_of` (enumset.c3 57-64, 95-104). -/
def orOf (a b : BitVec 32) : BitVec 32 := a ||| b

/-- `EnumSet.retain_all` and `and_of` (enumset.c3 66-73, 84-93). -/
def andOf (a b : BitVec 32) : BitVec 32 := a &&& b

/-- `EnumSet.remove_all` and `diff_of` (enumset.c3 75-82, 107-116). -/
def diffOf (a b : BitVec 32) : BitVec 32 := a &&& ~~~ b

/-- `EnumSet.xor_of` (enumset.c3 118-127). -/
def xorOf (a b : BitVec 32) : BitVec 32 := a ^^^ b

end Small

/-! ### `EnumSet{Enum}` over more than 128 elements: an array of bytes -/

namespace Big

/-- `char[(elements + 7) / 8]` (enumset.c3 146-147). -/
abbrev Data := List (BitVec 8)

/-- A zero initialised set, and `EnumSet.clear` (enumset.c3 25-32). -/
def empty (elements : Nat) : Data := List.replicate ((elements + 7) / 8) 0

/-- `EnumSet.has` (enumset.c3 48-55): the byte is promoted to `int` and shifted **left**. -/
def has (d : Data) (v : Nat) : Option Bool := do
  let x ← d[v / 8]?
  some ((x.setWidth 32 <<< (v % 8)) &&& 1#32 != 0)

/-- `EnumSet.add` (enumset.c3 16-23). -/
def add (d : Data) (v : Nat) : Option Data := do
  let x ← d[v / 8]?
  let m ← shlOne (v % 8)
  some (d.set (v / 8) (x ||| m.setWidth 8))

/-- `EnumSet.remove` (enumset.c3 34-46). -/
def remove (d : Data) (v : Nat) : Option (Data × Bool) := do
  let h ← has d v
  if !h then some (d, false)
  else do
    let x ← d[v / 8]?
    let m ← shlOne (v % 8)
    some (d.set (v / 8) (x &&& (~~~ m).setWidth 8), true)

/-- `foreach (i, c : s) (*self)[i] OP= c` from position `i`: `self` is written in place. -/
def updLoop (op : BitVec 8 → BitVec 8 → BitVec 8) : Data → Nat → Data → Option Data
  | [], _, self => some self
  | c :: rest, i, self => do
    let x ← self[i]?
    updLoop op rest (i + 1) (self.set i (op x c))

/-- `EnumSet.add_all` and `or_of` (enumset.c3 57-64, 95-104). -/
def orOf (a b : Data) : Option Data := updLoop (· ||| ·) b 0 a

/-- `EnumSet.retain_all` and `and_of` (enumset.c3 66-73, 84-93). -/
def andOf (a b : Data) : Option Data := updLoop (· &&& ·) b 0 a

/-- `EnumSet.remove_all` and `diff_of` (enumset.c3 75-82, 107-116). -/
def diffOf (a b : Data) : Option Data := updLoop (fun x c => x &&& ~~~ c) b 0 a

/-- `EnumSet.xor_of` (enumset.c3 118-127). -/
def xorOf (a b : Data) : Option Data := updLoop (· ^^^ ·) b 0 a

end Big

/-! ### `EnumSet.to_format` (enumset.c3 129-141) -/

/-- The loop over `Enum.values` from ordinal `v`: the text written and whether an element was
written before. `has` is the membership test of the set, `names` the names of the elements in the
order of their ordinals; `formatter.printf("%s", value)` of an enum value writes its name. -/
def formatLoop (has : Nat → Option Bool) : List String → Nat → Bool → Option String
  | [], _, _ => some ""
  | name :: rest, v, found => do
    let h ← has v
    if !h then formatLoop has rest (v + 1) found
    else do
      let more ← formatLoop has rest (v + 1) true
      some ((if found then ", " else "") ++ name ++ more)

/-- `EnumSet.to_format`: the text written and the count it returns, for a formatter whose output
function never fails. The count of each piece is its number of bytes. -/
def toFormat (has : Nat → Option Bool) (names : List String) : Option (String × Nat) := do
  let body ← formatLoop has names 0 false
  let out := "[" ++ body ++ "]"
  some (out, out.utf8ByteSize)

end C3.Sets
