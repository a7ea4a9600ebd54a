import Verif.StdMem.Mem

/-!
# What a program may rely on

A program acquires, resizes and releases blocks and writes into the blocks it
has.  `World` is the state of the allocator and the blocks the program has.
-/

set_option autoImplicit false

namespace C3.StdMem

/-- A block the program has. -/
structure Block where
  addr : Nat
  size : Nat
  align : Nat
deriving DecidableEq, Repr

/-- What the program does. -/
inductive Op
  | acquire (size : Nat) (zero : Bool) (align : Nat)
  | release (ptr : Nat) (aligned : Bool)
  | resize (ptr size align : Nat)
  | write (addr : Nat) (v : UInt8)

/-- The state of the allocator, and the blocks of the program. -/
structure World (S : Type) where
  st : S
  live : List Block

/-- The contract of the parameter `alignment`: 0 or a power of two of at most
`MAX_MEMORY_ALIGNMENT`. -/
def AlignOk (a : Nat) : Prop := a = 0 ∨ ∃ k, k ≤ 28 ∧ a = 2 ^ k

/-- The contracts of the interface: sizes are positive, pointers are those of
blocks, blocks acquired with an alignment are released and resized as such, and
the program writes only into its blocks. -/
def Op.Allowed (live : List Block) : Op → Prop
  | .acquire size _ align => 0 < size ∧ size < 2 ^ 64 ∧ AlignOk align
  | .release ptr aligned => ∃ b ∈ live, b.addr = ptr ∧ (aligned = true ↔ 0 < b.align)
  | .resize ptr size align => 
    (∃ b ∈ live, b.addr = ptr ∧ (0 < align ↔ 0 < b.align)) ∧ 0 < size ∧ size < 2 ^ 64 ∧ AlignOk align
  | .write addr _ => ∃ b ∈ live, b.addr ≤ addr ∧ addr < b.addr + b.size

/-- The blocks without the one at an address. -/
def without (live : List Block) (ptr : Nat) : List Block := live.filter (fun b => b.addr ≠ ptr)

/-- One action of the program; `none` if it stops the program. -/
def step {S : Type} (A : Allocator S) (w : World S) : Op → Option (World S)
  | .acquire size zero align =>
    match A.acquire w.st size zero align with
    | .ok s p => some ⟨s, ⟨p, size, align⟩ :: w.live⟩
    | .fault s => some ⟨s, w.live⟩
    | .panic => none
  | .release ptr aligned =>
    match A.release w.st ptr aligned with
    | some s => some ⟨s, without w.live ptr⟩
    | none => none
  | .resize ptr size align =>
    match A.resize w.st ptr size align with
    | .ok s p => some ⟨s, ⟨p, size, align⟩ :: without w.live ptr⟩
    | .fault s => some ⟨s, w.live⟩
    | .panic => none
  | .write addr v => some ⟨A.setMem w.st (setByte (A.mem w.st) addr v), w.live⟩

/-- The worlds a program can get to. -/
inductive Reach {S : Type} (A : Allocator S) (init : S) (ok : World S → Op → Prop) : World S → Prop
  | init : Reach A init ok ⟨init, []⟩
  | step (w w' : World S) (op : Op) : Reach A init ok w → op.Allowed w.live → ok w op →
      step A w op = some w' → Reach A init ok w'

/-- Two blocks have no byte in common. -/
def Disjoint (b c : Block) : Prop := b.addr + b.size ≤ c.addr ∨ c.addr + c.size ≤ b.addr

/-- The blocks are inside of the memory given to the allocator (`own`), aligned
as was asked for, and have no byte in common. -/
structure Sound (own : Nat → Prop) (live : List Block) : Prop where
  inside : ∀ b ∈ live, ∀ x, b.addr ≤ x → x < b.addr + b.size → own x
  aligned : ∀ b ∈ live, 16 ∣ b.addr ∧ (b.align = 0 ∨ b.align ∣ b.addr)
  disjoint : live.Pairwise Disjoint

/-- The bytes of a block. -/
def bytes (m : Mem) (addr n : Nat) : List UInt8 := (List.range n).map (fun i => m (addr + i))

/-- What an action does to the contents of blocks: those of other blocks are
kept, a resized block keeps what fits, a block acquired with `ZERO` is zero,
and the allocator does not touch memory that was not given to it. -/
structure Keeps {S : Type} (A : Allocator S) (own : Nat → Prop) (w w' : World S) (op : Op) :
    Prop where
  others : ∀ b ∈ w.live, b ∈ w'.live → (∀ addr v, op ≠ .write addr v) →
    bytes (A.mem w'.st) b.addr b.size = bytes (A.mem w.st) b.addr b.size
  written : ∀ addr v, op = .write addr v → A.mem w'.st = setByte (A.mem w.st) addr v
  resized : ∀ ptr size align, op = .resize ptr size align →
    ∀ s p, A.resize w.st ptr size align = .ok s p → ∀ b ∈ w.live, b.addr = ptr →
    bytes (A.mem s) p (min b.size size) = bytes (A.mem w.st) ptr (min b.size size)
  zeroed : ∀ size align, op = .acquire size true align →
    ∀ s p, A.acquire w.st size true align = .ok s p →
    bytes (A.mem s) p size = List.replicate size 0
  outside : (∀ addr v, op ≠ .write addr v) → ∀ x, ¬ own x → A.mem w'.st x = A.mem w.st x

end C3.StdMem
