import Verif.ConstInit.Syntax

/-!
# Model of constant initializers: `src/compiler/sema_initializers.c`, `llvm_emit_const_initializer` in `llvm_codegen.c`

`ConstInitializer`s are changed in place, so they live in a heap: a list of cells, whose positions are the addresses.  A vector of pointers
is a list of addresses in the cell that holds it; two cells never share it, which differs from the code only where the code copies a
cell twice (ranges).  Runtime values, anonymous members, inferred lengths and the constants themselves are left out.  `none`: an error, a
violated `ASSERT`, or a use of the `union` in `ConstInitializer` that is not of its `kind`.
-/

set_option autoImplicit false

namespace C3.ConstInit

variable {α : Type}

/-- `ConstInitType` and the `union` of `ConstInitializer`, compiler_internal.h 112–137.  A constant that is zero is `none`. -/
inductive Node (α : Type) where
  | zero
  | struct (members : List Nat)
  | union (element : Nat) (index : Nat)
  | value (x : Option α)
  | array (elements : List Nat)
  | arrayFull (elements : List Nat)
  | arrayValue (element : Nat) (index : Nat)

/-- `ConstInitializer`: type and the rest. -/
abbrev Cell (α : Type) := Ty × Node α

abbrev Heap (α : Type) := List (Cell α)

/-- A new cell. -/
def alloc (h : Heap α) (c : Cell α) : Nat × Heap α := (h.length, h ++ [c])

/-- An analysed expression: a constant of scalar type, or `CONST_INITIALIZER` with its cell. -/
inductive Val (α : Type) where
  | scalar (x : Option α)
  | init (a : Nat)

/-- `const_init_rewrite_to_value`, sema_initializers.c 860–882.  The expression then refers to the changed cell.  (Constants of the source
are copied with `expr_copy` before.) -/
def const_init_rewrite_to_value (h : Heap α) (a : Nat) : Val α → Option (Heap α × Val α)
  | .init b => (h[b]?).map fun c => (h.set a c, .init a)
  | .scalar x => some (h.set a (.scalar, .value x), .scalar x)

/-- `sema_initializer_list_is_empty`, 1210–1213. -/
def sema_initializer_list_is_empty (h : Heap α) : Val α → Bool
  | .init a => match h[a]? with
    | some (_, .zero) => true
    | _ => false
  | .scalar _ => false

/-- New cells that are zero, one of each type. -/
def allocZeros (h : Heap α) : List Ty → List Nat × Heap α
  | [] => ([], h)
  | t :: ts =>
    let r := allocZeros (h ++ [(t, .zero)]) ts
    (h.length :: r.1, r.2)

/-- What follows for the cell found: the value is stored or the path goes on. -/
abbrev Update (α : Type) := Heap α → Nat → Val α → Option (Heap α × Val α)

/-- The cell `a` expanded: 958–970. -/
def expandStruct (h : Heap α) (a : Nat) (members : List Ty) : Node α → Option (List Nat × Heap α)
  | .zero =>
    let r := allocZeros h members
    some (r.1, r.2.set a (.struct members, .struct r.1))
  | .struct els => some (els, h)
  | _ => none

/-- `sema_update_const_initializer_with_designator_struct`, 938–985. -/
def updateStruct (last : Bool) (k : Update α) (members : List Ty) (i : Nat) : Update α := fun h a v => do
  let c ← h[a]?
  if last && sema_initializer_list_is_empty h v then some (h.set a (c.1, .zero), v)
  else
    let (els, h) ← expandStruct h a members c.2
    let sub ← els[i]?
    k h sub v

/-- The sub element of a union: 1016–1028. -/
def unionElement (h : Heap α) (i : Nat) (t : Ty) : Node α → Option (Nat × Heap α)
  | .zero => some (alloc h (t, .zero))
  | .union sub j =>
    if i ≠ j then some (sub, h.set sub (t, .zero))
    else (h[sub]?).map fun c => (sub, h.set sub (t, c.2))
  | _ => none

/-- `sema_update_const_initializer_with_designator_union`, 995–1044. -/
def updateUnion (last : Bool) (k : Update α) (members : List Ty) (i : Nat) : Update α := fun h a v => do
  let c ← h[a]?
  if last && sema_initializer_list_is_empty h v then some (h.set a (c.1, .zero), v)
  else
    let t ← members[i]?
    let (sub, h) ← unionElement h i t c.2
    k (h.set a (c.1, .union sub i)) sub v

/-- The walk to the insert point, 1053–1057, from the position `pos` on. -/
def walk (h : Heap α) (index : Nat) : List Nat → Nat → Option Nat
  | [], pos => some pos
  | c :: cs, pos =>
    match h[c]? with
    | some (_, .arrayValue _ j) => if j < index then walk h index cs (pos + 1) else some pos
    | _ => none

/-- `sema_update_const_initializer_at_index`, 1046–1095: the cell of the element, the elements, and `insert_index`. -/
def atIndex (h : Heap α) (base : Ty) (els : List Nat) (index insert_index : Nat) : Option (Nat × List Nat × Nat × Heap α) := do
  let pos ← walk h index (els.drop insert_index) insert_index
  let r := alloc h (base, .zero)
  let r' := alloc r.2 (base, .arrayValue r.1 index)
  match els[pos]? with
  | none => some (r.1, els ++ [r'.1], pos, r'.2)
  | some c =>
    match h[c]? with
    | some (_, .arrayValue e j) =>
      if j ≠ index then
        -- 1077: the assertion
        if j > pos then some (r.1, els.take pos ++ r'.1 :: els.drop pos, pos, r'.2) else none
      else some (e, els, pos, h)
    | _ => none

/-- The elements of an array; `init_array` and `init_array_full` are at the same place. -/
def elementsOf : Node α → Option (List Nat)
  | .zero => some []
  | .array els => some els
  | .arrayFull els => some els
  | _ => none

/-- The kind stays if it is not `CONST_INIT_ZERO`. -/
def withElements (els : List Nat) : Node α → Node α
  | .arrayFull _ => .arrayFull els
  | _ => .array els

/-- The loop of `sema_update_const_initializer_with_designator_array`, 1148–1160. -/
def arrayLoop (k : Update α) (base : Ty) (a : Nat) : Nat → Nat → Nat → Heap α → Val α → Option (Heap α × Val α)
  | 0, _, _, h, v => some (h, v)
  | n + 1, index, insert_index, h, v => do
    let c ← h[a]?
    let els ← elementsOf c.2
    let (e, els, insert_index, h) ← atIndex h base els index insert_index
    let (h, v) ← k (h.set a (c.1, withElements els c.2)) e v
    arrayLoop k base a n (index + 1) insert_index h v

/-- `sema_update_const_initializer_with_designator_array`, 1127–1161. -/
def updateArray (k : Update α) (base : Ty) (lo hi : Nat) : Update α := fun h a v => arrayLoop k base a (hi + 1 - lo) lo 0 h v

/-- `sema_update_const_initializer_with_designator`, 1163–1185. -/
def update : List Step → Update α
  | [] => fun _ _ _ => none
  | step :: rest => fun h a v => do
    let c ← h[a]?
    let last := rest.isEmpty
    let k := if last then const_init_rewrite_to_value else update rest
    match c.1, step with
    | .struct ms, .field i => updateStruct last k ms i h a v
    | .union ms, .field i => updateUnion last k ms i h a v
    | .array _ base, .index i => updateArray k base i i h a v
    | .array _ base, .range lo hi => updateArray k base lo hi h a v
    | _, _ => none

/-- `sema_expr_analyse_designator` and `sema_find_type_of_element`, 1187–1291: the type of the part. -/
def sema_expr_analyse_designator : Ty → List Step → Option Ty
  | t, [] => some t
  | .struct ms, .field i :: p => (ms[i]?).bind (sema_expr_analyse_designator · p)
  | .union ms, .field i :: p => (ms[i]?).bind (sema_expr_analyse_designator · p)
  | .array len base, .index i :: p => if i ≥ len then none else sema_expr_analyse_designator base p
  | .array len base, .range lo hi :: p =>
    if lo ≥ len then none
    else if lo > hi then none
    -- 1265
    else if hi > len then none
    else sema_expr_analyse_designator base p
  | _, _ => none

/-- The cell of an analysed expression; `const_init_new_value`, 925–930, for a constant. -/
def cellOf (h : Heap α) : Val α → Nat × Heap α
  | .init a => (a, h)
  | .scalar x => alloc h (.scalar, .value x)

def cellsOf (h : Heap α) : List (Val α) → List Nat × Heap α
  | [] => ([], h)
  | v :: vs =>
    let r := cellOf h v
    let r' := cellsOf r.2 vs
    (r.1 :: r'.1, r'.2)

/-- `sema_create_const_initializer_from_designated_init`, 629–640, for the cell `a`. -/
def applyAll (a : Nat) : List (List Step × Val α) → Heap α → Option (Heap α)
  | [], h => some h
  | (path, v) :: ds, h => do
    let (h, _) ← update path h a v
    applyAll a ds h

mutual

/-- `sema_expr_analyse_initializer_list`, 780–858, and `sema_expr_analyse_initializer`, 556–624. -/
def build (t : Ty) (i : Init α) (h : Heap α) : Option (Val α × Heap α) :=
  match i with
  | .scalar x =>
    match t with
    | .scalar => some (.scalar (some x), h)
    | _ => none
  | .empty =>
    match t with
    | .scalar => some (.scalar none, h)
    | _ => some (.init h.length, h ++ [(t, .zero)])
  | .list vs =>
    match t with
    | .scalar => none
    -- `sema_expr_analyse_struct_plain_initializer`, 189–310, `const_init_new_struct`, 108–125
    | .struct ms => do
      let (l, h) ← buildList ms vs h
      if l.isEmpty then none
      else
        let (els, h) := cellsOf h l
        some (.init h.length, h ++ [(t, .struct els)])
    -- the same with `const_init_new_union`, 127–142
    | .union ms => do
      let (l, h) ← buildList (ms.take 1) vs h
      if l.isEmpty then none
      else
        let (els, h) := cellsOf h l
        let e ← els[0]?
        some (.init h.length, h ++ [(t, .union e 0)])
    -- `sema_expr_analyse_array_plain_initializer`, 322–471, `const_init_new_array_full`, 99–106
    | .array len base => do
      let (l, h) ← buildList (List.replicate len base) vs h
      if l.isEmpty then none
      else
        let (els, h) := cellsOf h l
        some (.init h.length, h ++ [(t, .arrayFull els)])
  -- `sema_expr_analyse_designated_initializer`, 494–553
  | .desig ds => do
    let (l, h) ← buildDesigs t ds h
    if l.isEmpty then none
    else
      let a := h.length
      let h ← applyAll a l (h ++ [(t, .zero)])
      some (.init a, h)

/-- The expressions of a list, one for each type. -/
def buildList (ts : List Ty) (vs : Inits α) (h : Heap α) : Option (List (Val α) × Heap α) :=
  match vs, ts with
  | .nil, [] => some ([], h)
  | .cons v vs, t :: ts => do
    let (x, h) ← build t v h
    let (l, h) ← buildList ts vs h
    some (x :: l, h)
  | _, _ => none

def buildDesigs (t : Ty) (ds : Desigs α) (h : Heap α) : Option (List (List Step × Val α) × Heap α) :=
  match ds with
  | .nil => some ([], h)
  | .cons path v ds => do
    if path.isEmpty then none
    else
      let t' ← sema_expr_analyse_designator t path
      let (x, h) ← build t' v h
      let (l, h) ← buildDesigs t ds h
      some ((path, x) :: l, h)

end

/-! ## Emission -/

/-- An LLVM constant; `zeros n` are `n` elements of an array in one part. -/
inductive Const (α : Type) where
  | zero
  | value (x : Option α)
  | struct (members : List (Const α))
  | union (index : Nat) (c : Const α)
  | array (parts : List (Const α))
  | zeros (n : Nat)

/-- The parts of an array, 283–309: `current_index`, then the elements with their indices. -/
def arrayParts (len : Nat) : Nat → List (Nat × Const α) → List (Const α)
  | current, [] => if len > current then [.zeros (len - current)] else []
  | current, (i, c) :: es => (if i > current then [.zeros (i - current)] else []) ++ c :: arrayParts len (i + 1) es

/-- The members or elements, with `f` for each. -/
def emitAll (f : Nat → Option (Const α)) : List Nat → Option (List (Const α))
  | [] => some []
  | e :: es => do
    let c ← f e
    let l ← emitAll f es
    some (c :: l)

/-- The elements of `CONST_INIT_ARRAY` with their indices. -/
def emitElements (f : Nat → Option (Const α)) (h : Heap α) : List Nat → Option (List (Nat × Const α))
  | [] => some []
  | e :: es =>
    match h[e]? with
    | some (_, .arrayValue e i) => do
      let c ← f e
      let l ← emitElements f h es
      some ((i, c) :: l)
    | _ => none

/-- `llvm_emit_const_initializer`, llvm_codegen.c 232–421, with a bound on the depth.  Padding between members is left out. -/
def emit (n : Nat) (h : Heap α) (a : Nat) : Option (Const α) :=
  match n with
  | 0 => none
  | n + 1 =>
    match h[a]? with
    | some (_, .zero) => some .zero
    | some (_, .value x) => some (.value x)
    | some (_, .struct els) => (emitAll (emit n h) els).map .struct
    | some (_, .union e i) => (emit n h e).map (.union i)
    | some (_, .arrayFull els) => (emitAll (emit n h) els).map .array
    | some (.array len _, .array els) => (emitElements (emit n h) h els).map fun l => .array (arrayParts len 0 l)
    | _ => none

/-- The constant that a variable of type `t` gets; `n` bounds the depth. -/
def compile (n : Nat) (t : Ty) (i : Init α) : Option (Const α) :=
  (build t i []).bind fun r => emit n (cellOf r.2 r.1).2 (cellOf r.2 r.1).1

end C3.ConstInit
