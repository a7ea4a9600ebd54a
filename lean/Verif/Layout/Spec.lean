import Verif.Layout.Model

/-!
# What the layout of a struct or union should be
-/

set_option autoImplicit false

namespace C3.Layout.Spec

def Pow2 (a : Nat) : Prop := ∃ k, a = 2 ^ k

/-- The alignment a member asks for: the one given, else that of its type, which packing ignores. -/
def required (attrs : Attrs) (m : Member) : Nat :=
  if m.given ≠ 0 then m.given else if attrs.packed then 1 else m.abi

/-- `x` is the first multiple of `a` from `n` on. -/
def FirstFrom (n a x : Nat) : Prop := n ≤ x ∧ a ∣ x ∧ ∀ y, n ≤ y → a ∣ y → x ≤ y

/-- The members follow each other from `start` on, each at the first offset that is aligned, and end at `last`. -/
def Placed (attrs : Attrs) : Nat → List Member → List Nat → Nat → Prop
  | start, [], offs, last => offs = [] ∧ last = start
  | start, m :: ms, offs, last =>
    ∃ o rest, offs = o :: rest ∧ FirstFrom start (required attrs m) o ∧ Placed attrs (o + m.size) ms rest last

/-- `a` is the largest of `1`, the alignment given for the declaration, and those the members ask for. -/
def IsAlignment (attrs : Attrs) (ms : List Member) (a : Nat) : Prop :=
  (a = 1 ∨ a = attrs.align ∨ ∃ m ∈ ms, a = required attrs m) ∧
  1 ≤ a ∧ attrs.align ≤ a ∧ ∀ m ∈ ms, required attrs m ≤ a

/-- Alignments of types are powers of two, those given in attributes are or are absent (sema_decls.c 3056). -/
def Valid (attrs : Attrs) (ms : List Member) : Prop :=
  (attrs.align = 0 ∨ Pow2 attrs.align) ∧
  ∀ m ∈ ms, Pow2 m.abi ∧ Pow2 m.natural ∧ (m.given = 0 ∨ Pow2 m.given)

/-- Everything stays within 32 bits. -/
def Fits (ms : List Member) (size : Nat) : Prop := ∀ m ∈ ms, size + m.natural ≤ 2 ^ 32

/-! ## Types without attributes: the layout of C -/

def up (n a : Nat) : Nat := (n + (a - 1)) / a * a

/-- Offsets and end of members given by size and alignment. -/
def cOffsets : Nat → List (Nat × Nat) → List Nat
  | _, [] => []
  | n, (s, a) :: cs => up n a :: cOffsets (up n a + s) cs

def cEnd : Nat → List (Nat × Nat) → Nat
  | n, [] => n
  | n, (s, a) :: cs => cEnd (up n a + s) cs

def cMax (xs : List Nat) : Nat := xs.foldl max 0

mutual
/-- Size and alignment. -/
def cType : Ty → Nat × Nat
  | .prim s a => (s, a)
  | .array t n => ((cType t).1 * n, (cType t).2)
  | .struct _ ms => let cs := cTypes ms; let a := cMax (cs.map (·.2)); (up (cEnd 0 cs) a, a)
  | .union _ ms => let cs := cTypes ms; let a := cMax (cs.map (·.2)); (up (cMax (cs.map (·.1))) a, a)

def cTypes : List (Nat × Ty) → List (Nat × Nat)
  | [] => []
  | (_, t) :: ms => cType t :: cTypes ms
end

mutual
/-- No attributes anywhere, no empty types; unions are at most 64 kB. -/
def Plain : Ty → Prop
  | .prim s a => 0 < s ∧ Pow2 a ∧ a ≤ 2 ^ 16
  | .array t n => Plain t ∧ 0 < n
  | .struct attrs ms => attrs = {} ∧ ms ≠ [] ∧ Plains ms
  | .union attrs ms => attrs = {} ∧ ms ≠ [] ∧ Plains ms ∧ (cType (.union attrs ms)).1 ≤ 2 ^ 16

def Plains : List (Nat × Ty) → Prop
  | [] => True
  | (given, t) :: ms => given = 0 ∧ Plain t ∧ Plains ms
end

end C3.Layout.Spec
