import Verif.Abi.Model

/-!
What the System V convention for x86-64 says (AMD64 ABI, 3.2.3), for types without vectors and `long double`, in terms of the
numbers that a value consists of.
-/
set_option autoImplicit false

namespace C3.Abi.Std

/-- The kinds of numbers: integers and pointers, floating point numbers of at most 64 bits, `__float128`. -/
inductive Kind where
  | integer
  | float (k : FKind)
  | quad
deriving DecidableEq, Repr

/-- A number in a value: the bytes from `off`. -/
structure Leaf where
  off : Nat
  size : Nat
  kind : Kind
deriving DecidableEq, Repr

mutual
/-- The numbers a value at an address consists of. -/
def leaves : Ty → Nat → List Leaf
  | .void, _ => []
  | .int _ b, a => [⟨a, b, .integer⟩]
  | .ptr, a => [⟨a, 8, .integer⟩]
  | .i128, a => [⟨a, 16, .integer⟩]
  | .float k, a => [⟨a, k.size, .float k⟩]
  | .f128, a => [⟨a, 16, .quad⟩]
  | .slice, a => [⟨a, 8, .integer⟩, ⟨a + 8, 8, .integer⟩]
  | .any, a => [⟨a, 8, .integer⟩, ⟨a + 8, 8, .integer⟩]
  | .agg _ _ _ _ ms, a => leavesMs ms a
  | .array e n, a => (List.range n).flatMap fun i => leaves e (a + i * size e)

def leavesMs : Ms → Nat → List Leaf
  | .nil, _ => []
  | .cons o t rest, a => leaves t (a + o) ++ leavesMs rest a
end

mutual
/-- All members and elements are at a multiple of their alignment. -/
def aligned : Ty → Nat → Prop
  | .agg _ _ _ _ ms, a => alignedMs ms a
  | .array e n, a => a % align e = 0 ∧ ∀ i, i < n → aligned e (a + i * size e)
  | _, _ => True

def alignedMs : Ms → Nat → Prop
  | .nil, _ => True
  | .cons o t rest, a => ((a + o) % align t = 0 ∧ aligned t (a + o)) ∧ alignedMs rest a
end

mutual
/-- A part has a flexible array. -/
def flexible : Ty → Prop
  | .agg _ _ _ flex ms => flex = true ∨ flexibleMs ms
  | .array e _ => flexible e
  | _ => False

def flexibleMs : Ms → Prop
  | .nil => False
  | .cons _ t rest => flexible t ∨ flexibleMs rest
end

/-- Values that are passed in memory: longer than two eightbytes, with parts that are not aligned, or of no fixed length. -/
def memory (t : Ty) : Prop := 16 < size t ∨ flexible t ∨ ¬ aligned t 0

/-- The class of the first eightbyte. -/
def low (L : List Leaf) : Class :=
  if L.any fun l => decide (l.off < 8) && decide (l.kind = .integer) then .integer
  else if L.any fun l => decide (l.off < 8) then .sse
  else .no

/-- The class of the second eightbyte: `SSEUP` is the upper half of what starts in the first one. -/
def high (L : List Leaf) : Class :=
  if L.any fun l => decide (8 < l.off + l.size) && decide (l.kind = .integer) then .integer
  else if L.any fun l => decide (8 < l.off + l.size) && decide (l.kind ≠ .quad) then .sse
  else if L.any fun l => decide (8 < l.off + l.size) then if low L = .sse then .sseup else .sse
  else .no

mutual
/-- Types as the compiler makes them: members inside, in order, the first at the beginning, those of a union all there. -/
def Valid : Ty → Prop
  | .void => False
  | .int _ b => b = 1 ∨ b = 2 ∨ b = 4 ∨ b = 8
  | .agg u s a _ ms => 0 < a ∧ s % a = 0 ∧ starts ms ∧ ValidMs u s 0 ms
  | .array e n => Valid e ∧ 0 < n
  | _ => True

/-- `free` is the end of the members before. -/
def ValidMs (u : Bool) (s : Nat) : Nat → Ms → Prop
  | _, .nil => True
  | free, .cons o t rest => Valid t ∧ o + size t ≤ s ∧ (if u then o = 0 else free ≤ o) ∧ ValidMs u s (o + size t) rest

/-- The first member is at the beginning. -/
def starts : Ms → Prop
  | .nil => False
  | .cons o _ _ => o = 0
end

mutual
/-- No part is a union. -/
def plain : Ty → Prop
  | .agg u _ _ _ ms => u = false ∧ plainMs ms
  | .array e _ => plain e
  | _ => True

def plainMs : Ms → Prop
  | .nil => True
  | .cons _ t rest => plain t ∧ plainMs rest
end

/-- No number is a `__float128`. -/
def noQuad (t : Ty) : Prop := ∀ l ∈ leaves t 0, l.kind ≠ .quad

/-- No number is a 16 bit float. -/
def noHalf (t : Ty) : Prop := ∀ l ∈ leaves t 0, l.kind ≠ .float .f16 ∧ l.kind ≠ .float .bf16

/-- The bytes of a value of `n` bytes that get there: all of it, or those in the registers, the second of which holds what
begins at byte 8. -/
def carries (info : Info) (k : Nat) : Prop :=
  match info with
  | .ignore => False
  | .direct _ => True
  | .coerceInt => True
  | .indirect _ _ => True
  | .coerce r _ => k < r.size
  | .pair lo hi => k < lo.size ∨ 8 ≤ k ∧ k < 8 + hi.size

/-- The general and the vector registers that a value needs. -/
def needs (t : Ty) : Nat × Nat :=
  let c := [low (leaves t 0), high (leaves t 0)]
  (c.count .integer, c.count .sse)

/-- Every byte is part of a number. -/
def dense (t : Ty) : Prop := ∀ k, k < size t → ∃ l ∈ leaves t 0, l.off ≤ k ∧ k < l.off + l.size

/-- Types that are passed in vector registers. -/
def floating : AbiType → Bool
  | .float _ => true
  | .f128 => true
  | .vector _ _ => true
  | _ => false

/-- A value is passed in the registers that its classes call for: one register or two of the right kind, or, if it is not made of
parts, as it is. -/
def inRegs (t : Ty) (info : Info) : Prop :=
  match info with
  | .direct _ => aggregate t = false
  | .coerceInt => low (leaves t 0) = .integer ∧ high (leaves t 0) = .no
  | .coerce r _ => (high (leaves t 0) = .no ∨ high (leaves t 0) = .sseup) ∧ (floating r = true ↔ low (leaves t 0) = .sse)
  | .pair lo hi => (floating lo = true ↔ low (leaves t 0) = .sse) ∧
    ((high (leaves t 0) = .integer ∧ floating hi = false) ∨ (high (leaves t 0) = .sse ∧ floating hi = true))
  | _ => False

/-- A value is passed on the stack: a copy at a multiple of eight and of its alignment; what is not made of parts goes there by
itself, and so does an integer if no general register is left. -/
def onStack (t : Ty) (free : Nat) (info : Info) : Prop :=
  match info with
  | .direct _ => aggregate t = false
  | .coerceInt => free = 0 ∧ size t ≤ 8
  | .indirect a byVal => aggregate t = true ∧ byVal = true ∧ a = max 8 (align t)
  | _ => False

/-- How parameters are assigned with a number of general and of vector registers left: one that is of class memory or that does not
fit goes to the stack as a whole and takes no register, those after it may still get some. -/
inductive Assigned : List Ty → Nat → Nat → List Info → Prop
  | nil (i s : Nat) : Assigned [] i s []
  | stack {t : Ty} {rest : List Ty} {i s : Nat} {info : Info} {more : List Info} :
    (memory t ∨ i < (needs t).1 ∨ s < (needs t).2) → onStack t i info → Assigned rest i s more → Assigned (t :: rest) i s (info :: more)
  | regs {t : Ty} {rest : List Ty} {i s : Nat} {info : Info} {more : List Info} :
    ¬ memory t → (needs t).1 ≤ i → (needs t).2 ≤ s → inRegs t info →
    Assigned rest (i - (needs t).1) (s - (needs t).2) more → Assigned (t :: rest) i s (info :: more)

end C3.Abi.Std
