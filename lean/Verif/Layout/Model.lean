/-!
# Model of struct and union layout

`src/compiler/sema_decls.c: sema_analyse_struct_members, sema_analyse_union_members, sema_check_struct_holes,
sema_get_max_natural_alignment`, `src/compiler/types.c: type_size, type_abi_alignment`, the LLVM types made from them in
`src/compiler/llvm_codegen_type.c: llvm_type_from_decl` and the element looked up by
`src/compiler/llvm_codegen_expr.c: llvm_value_struct_gep`.

The outer `none` is a failed `ASSERT` (on in all builds, utils/common.h 117) or a division by zero; the inner `none` is
a rejected declaration.  `TypeSize` and `AlignSize` are `uint32_t` (compiler_internal.h 17, 21).
-/

set_option autoImplicit false

namespace C3.Layout

def u32 (n : Nat) : Nat := n % 2 ^ 32

/-- `aligned_offset`, compiler_internal.h 2789–2792. -/
def alignedOffset (offset alignment : Nat) : Option Nat :=
  if alignment = 0 then none else some (u32 (u32 (offset + (alignment - 1)) / alignment * alignment))

/-- What the layout looks at in a member that is already analysed: `type_size`, `type_abi_alignment` and
`sema_get_max_natural_alignment` of its type; `given` is `member->alignment` on entry: the `@align` attribute or 0, and
for a struct or union declared in place its alignment.  `hole`: its type is a struct or union with
`strukt.padded_decl_id` set; `lacksNopadding`: its type is a struct or union without `@nopadding`; `flexible`: its type
is a struct with a flexible array at the end; `inferred`: its type is `[*]`. -/
structure Member where
  size : Nat
  abi : Nat
  natural : Nat
  given : Nat := 0
  nopadding : Bool := false
  hole : Bool := false
  lacksNopadding : Bool := false
  flexible : Bool := false
  inferred : Bool := false
deriving Repr, DecidableEq

/-- Attributes of the declaration; `substruct`: the first member is `inline`. -/
structure Attrs where
  packed : Bool := false
  align : Nat := 0
  nopadding : Bool := false
  compact : Bool := false
  substruct : Bool := false
deriving Repr, DecidableEq

/-- The result for a member. -/
structure Field where
  offset : Nat
  alignment : Nat
  padding : Nat
deriving Repr, DecidableEq

/-- The result for the declaration.  `padding` is a 16 bit field (compiler_internal.h 390); `hole` is whether
`padded_decl_id` is set; `rep` is `union_rep`. -/
structure Layout where
  fields : List Field
  size : Nat
  alignment : Nat
  padding : Nat
  packed : Bool
  hole : Bool
  rep : Nat := 0
deriving Repr, DecidableEq

/-- The variables of the loop in `sema_analyse_struct_members`; `alignment` is `decl->alignment`, `fields` the members
done. -/
structure State where
  natural : Nat
  actual : Nat
  unaligned : Bool
  naturallyAligned : Bool
  offset : Nat
  alignment : Nat
  hole : Bool
  fields : List Field
deriving Repr, DecidableEq

/-- One round of the loop, sema_decls.c 509–613, for member number `i` of `count`; the analysis of the member itself and
members erased by `@if` are left out. -/
def structMember (attrs : Attrs) (i count : Nat) (s : State) (m : Member) : Option (Option State) := do
  if (m.flexible || m.inferred) && i ≠ count - 1 then return none
  if !m.flexible && m.inferred && i = 0 then return none
  let alignment := if m.given ≠ 0 then m.given else if attrs.packed then 1 else m.abi
  let declAlignment := if m.given ≠ 0 && m.given > s.alignment then m.given else s.alignment
  let natural := if m.natural > s.natural then m.natural else s.natural
  let actual := if alignment > s.actual then alignment else s.actual
  let alignOffset ← alignedOffset s.offset alignment
  let naturalOffset ← alignedOffset s.offset m.natural
  let naturallyAligned := if naturalOffset ≠ alignOffset then false else s.naturallyAligned
  let unaligned ←
    if naturalOffset ≠ alignOffset then
      if m.natural > alignment then if naturalOffset > alignOffset then some true else none
      else if naturalOffset < alignOffset then some s.unaligned else none
    else some s.unaligned
  if alignOffset ≠ s.offset && (attrs.nopadding || m.nopadding) then return none
  let hole := s.hole || alignOffset ≠ s.offset || m.hole
  if m.hole && attrs.compact then return none
  return some {
    natural, actual, unaligned, naturallyAligned, hole,
    offset := u32 (alignOffset + m.size)
    alignment := declAlignment
    fields := s.fields ++ [⟨alignOffset, alignment, u32 (alignOffset + 2 ^ 32 - s.offset)⟩] }

/-- The loop, lines 488–614. -/
def structLoop (attrs : Attrs) (count : Nat) : Nat → State → List Member → Option (Option State)
  | _, s, [] => some (some s)
  | i, s, m :: ms => do
    match ← structMember attrs i count s m with
    | none => return none
    | some s => structLoop attrs count (i + 1) s ms

/-- After the loop, lines 616–678. -/
def structFinish (attrs : Attrs) (first : Option Member) (s : State) : Option (Option Layout) := do
  let alignment := if attrs.packed && s.alignment = 0 then 1 else s.alignment
  let alignment := if !attrs.packed && alignment < s.actual then s.actual else alignment
  let size ← alignedOffset s.offset alignment
  let naturalSize ← alignedOffset s.offset s.natural
  let padding := if size > naturalSize then u32 (size + 2 ^ 32 - s.offset) % 2 ^ 16 else 0
  let unaligned := s.unaligned || size < naturalSize
  let padding ←
    if unaligned && size > s.offset then
      if padding ≠ 0 then none else some (u32 (size + 2 ^ 32 - s.offset) % 2 ^ 16)
    else some padding
  if attrs.nopadding && attrs.substruct && (first.elim false (·.lacksNopadding)) then return none
  if size ≠ s.offset && attrs.nopadding then return none
  let strip := !unaligned && s.naturallyAligned
  return some {
    fields := if strip then s.fields.map fun f => { f with padding := 0 } else s.fields
    size, alignment, padding
    packed := unaligned
    hole := s.hole || size ≠ s.offset }

/-- `sema_analyse_struct_members`, lines 475–679. -/
def layoutStruct (attrs : Attrs) (members : List Member) : Option (Option Layout) := do
  if members = [] then none
  else do
    let s : State := {
      natural := 1, actual := 1, unaligned := false, naturallyAligned := !attrs.packed
      offset := 0, alignment := attrs.align, hole := false, fields := [] }
    match ← structLoop attrs members.length 0 s members with
    | none => return none
    | some s => structFinish attrs members.head? s

/-- The variables of the loop in `sema_analyse_union_members`. -/
structure UnionState where
  maxSize : Nat
  maxElement : Nat
  maxAlignment : Nat
  hole : Bool
deriving Repr, DecidableEq

/-- One round of its loop, lines 340–371. -/
def unionMember (attrs : Attrs) (i : Nat) (s : UnionState) (m : Member) : Option UnionState :=
  if m.inferred then none
  else if m.hole && attrs.compact then none
  else
    let alignment := if m.given > m.abi then m.given else m.abi
    let (maxAlignment, maxElement) :=
      if alignment > s.maxAlignment then (alignment, i) else (s.maxAlignment, s.maxElement)
    let (maxSize, maxElement) :=
      if m.size > s.maxSize then
        (m.size, if maxElement ≠ i && maxAlignment = alignment then i else maxElement)
      else (s.maxSize, maxElement)
    some { maxSize, maxElement, maxAlignment, hole := s.hole || m.hole }

/-- Its loop, lines 315–372. -/
def unionLoop (attrs : Attrs) : Nat → UnionState → List Member → Option UnionState
  | _, s, [] => some s
  | i, s, m :: ms => do
    let s ← unionMember attrs i s m
    unionLoop attrs (i + 1) s ms

/-- `sema_analyse_union_members`, lines 304–411. -/
def layoutUnion (attrs : Attrs) (members : List Member) : Option (Option Layout) := do
  if members = [] then none
  else
    match unionLoop attrs 0 ⟨0, 0, 0, false⟩ members with
    | none => return none
    | some s => do
      let alignment := if attrs.packed && attrs.align = 0 then 1 else attrs.align
      let alignment := if !attrs.packed && alignment < s.maxAlignment then s.maxAlignment else alignment
      if s.maxSize = 0 then none
      let size ← alignedOffset s.maxSize alignment
      let rep ← members[s.maxElement]?
      return some {
        fields := members.map fun _ => ⟨0, alignment, 0⟩
        size, alignment
        padding := if size > rep.size then (size - rep.size) % 2 ^ 16 else 0
        packed := attrs.packed && s.maxAlignment > 1
        hole := s.hole
        rep := s.maxElement }

/-! ## LLVM types -/

/-- An LLVM type by its allocation size and ABI alignment (LLVM's `DataLayout`). -/
structure LType where
  size : Nat
  align : Nat
deriving Repr, DecidableEq

def roundUp (n a : Nat) : Nat := (n + (a - 1)) / a * a

/-- LLVM's `StructLayout` (part of the trusted base, see the LLVM Language Reference on structure types): offsets of the
elements, and the end of the last. -/
def lOffsets (packed : Bool) : Nat → List LType → List Nat × Nat
  | cur, [] => ([], cur)
  | cur, t :: ts =>
    let off := if packed then cur else roundUp cur t.align
    let (offs, last) := lOffsets packed (off + t.size) ts
    (off :: offs, last)

def lAlign (packed : Bool) (ts : List LType) : Nat :=
  if packed then 1 else ts.foldl (fun a t => max a t.align) 1

def lStruct (packed : Bool) (ts : List LType) : LType :=
  ⟨roundUp (lOffsets packed 0 ts).2 (lAlign packed ts), lAlign packed ts⟩

/-- `llvm_const_padding_type`, llvm_codegen_expr.c 337–342: bytes. -/
def padType (n : Nat) : LType := ⟨n, 1⟩

/-- The elements of the LLVM type of a struct, llvm_codegen_type.c 37–48. -/
def lFields : List Field → List LType → List LType
  | f :: fs, t :: ts => (if f.padding ≠ 0 then [padType f.padding] else []) ++ t :: lFields fs ts
  | _, _ => []

def lElements (l : Layout) (ts : List LType) : List LType :=
  lFields l.fields ts ++ if l.padding ≠ 0 then [padType l.padding] else []

/-- The LLVM type of a struct, llvm_codegen_type.c 30–51. -/
def structType (l : Layout) (ts : List LType) : LType := lStruct l.packed (lElements l ts)

/-- The elements of the LLVM type of a union, lines 58–72. -/
def unionType (l : Layout) (ts : List LType) : Option LType := do
  let rep ← ts[l.rep]?
  return lStruct l.packed (rep :: if l.padding ≠ 0 then [padType l.padding] else [])

/-- The element number of a member, `llvm_value_struct_gep`, llvm_codegen_expr.c 4995–5005. -/
def gepIndex (fields : List Field) (index : Nat) : Nat :=
  (fields.take (index + 1)).foldl (fun n f => n + (if f.padding ≠ 0 then 2 else 1)) 0 - 1

/-- The offset at which a member is accessed: `LLVMOffsetOfElement` of that element. -/
def accessOffset (l : Layout) (ts : List LType) (index : Nat) : Option Nat :=
  (lOffsets l.packed 0 (lElements l ts)).1[gepIndex l.fields index]?

/-! ## Types -/

/-- Types as trees: built-in types with their size and alignment (taken to be the same for LLVM), arrays, structs and
unions with the attributes of the declaration and of each member (`given`).  Vectors, slices, pointers and enums are
built-in here; bitstructs with `@align` and structs declared in place are left out. -/
inductive Ty where
  | prim (size align : Nat)
  | array (base : Ty) (len : Nat)
  | struct (attrs : Attrs) (members : List (Nat × Ty))
  | union (attrs : Attrs) (members : List (Nat × Ty))

/-- What is known of an analysed type. -/
structure Info where
  size : Nat
  abi : Nat
  natural : Nat
  llvm : LType
  hole : Bool := false
  lacksNopadding : Bool := false
  layout : Option Layout := none
deriving Repr, DecidableEq

def Info.member (given : Nat) (i : Info) : Member :=
  { size := i.size, abi := i.abi, natural := i.natural, given, hole := i.hole, lacksNopadding := i.lacksNopadding }

/-- `sema_get_max_natural_alignment` of a struct or union, lines 450–456. -/
def maxNatural (is : List Info) : Nat := is.foldl (fun a i => if i.natural > a then i.natural else a) 0

mutual
/-- `type_size` (types.c 314–372), `type_abi_alignment` (667–736), `sema_get_max_natural_alignment` (sema_decls.c
413–471) and the LLVM type.  `sema_check_struct_holes` sees through typedefs, but not into arrays. -/
def info : Ty → Option (Option Info)
  | .prim size align => some (some { size, abi := align, natural := align, llvm := ⟨size, align⟩ })
  | .array base len => do
    match ← info base with
    | none => return none
    | some i =>
      return some { size := u32 (i.size * len), abi := i.abi, natural := i.natural,
                    llvm := ⟨i.llvm.size * len, i.llvm.align⟩ }
  | .struct attrs members => do
    match ← infos members with
    | none => return none
    | some is =>
      match ← layoutStruct attrs ((members.zip is).map fun (m, i) => i.member m.1) with
      | none => return none
      | some l =>
        return some { size := l.size, abi := l.alignment, natural := maxNatural is,
                      llvm := structType l (is.map (·.llvm)), hole := l.hole,
                      lacksNopadding := !attrs.nopadding, layout := some l }
  | .union attrs members => do
    match ← infos members with
    | none => return none
    | some is =>
      match ← layoutUnion attrs ((members.zip is).map fun (m, i) => i.member m.1) with
      | none => return none
      | some l => do
        let llvm ← unionType l (is.map (·.llvm))
        return some { size := l.size, abi := l.alignment, natural := maxNatural is, llvm, hole := l.hole,
                      lacksNopadding := !attrs.nopadding, layout := some l }

def infos : List (Nat × Ty) → Option (Option (List Info))
  | [] => some (some [])
  | (_, t) :: ts => do
    match ← info t with
    | none => return none
    | some i =>
      match ← infos ts with
      | none => return none
      | some is => return some (i :: is)
end

end C3.Layout
