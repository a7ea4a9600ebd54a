import Verif.ConstCompare.Model

/-!
# Model of `switch` over integers and enums: `sema_stmts.c` and `llvm_codegen_stmt.c`

All case values are constants already converted to the type of the switch; cases with run-time values and
switches over other types (always a chain of comparisons) are not modelled.  Where the compiler would emit a
diagnostic the result is `some none`; a failed `ASSERT`, a write outside an array, and generated code with
undefined behaviour (or which LLVM rejects) are `none`.
-/

set_option autoImplicit false

namespace C3.Switch
open C3.Bigint C3.ConstCompare

/-- The value of a case, `case a:` or `case a .. b:`; an enum constant is its ordinal. -/
inductive Label where
  | int (first : CInt) (last : Option CInt)
  | enum (first : BitVec 32) (last : Option (BitVec 32))
deriving DecidableEq, Repr

/-- `AST_CASE_STMT`, or `AST_DEFAULT_STMT` without label; an empty body is absent (`parse_case_stmts`,
parse_stmt.c 517–536) and falls through to the next case. -/
structure Case where
  label : Option Label
  body : Bool
deriving DecidableEq, Repr

/-- The constant of the first value. -/
def Label.first : Label → Const
  | .int a _ => .integer a
  | .enum a _ => .enum 0#64 a

/-- The constant of the last value, if the case is a range. -/
def Label.last : Label → Option Const
  | .int _ b => b.map .integer
  | .enum _ b => b.map (.enum 0#64)

/-- Integer and enum constants do not look into memory. -/
def noMem : Mem := fun _ => 0#8

/-- What analysing the cases collects, sema_stmts.c 2342–2346. -/
structure State where
  maxRanged : Bool
  actualCases : BitVec 64
  low : Option CInt
  high : Option CInt
  hasDefault : Bool
deriving DecidableEq, Repr

/-- The limits in the build options (build.h 702–703): by default 256 and 0x3FFF. -/
structure Limits where
  range : BitVec 32
  jump : BitVec 32
deriving DecidableEq, Repr

/-- The loop over earlier cases at the end of `sema_check_value_case`, sema_stmts.c 2262–2277: whether one of
them contains the constant. -/
def foundBefore (value : Const) : List Case → Option Bool
  | [] => some false
  | c :: cs =>
    match c.label with
    | none => foundBefore value cs
    | some l => do if ← expr_const_in_range noMem value l.first l.last then return true else foundBefore value cs

/-- The checks on a range, sema_stmts.c 2223–2261; `some none` is the error message. -/
def checkRange (lim : Limits) (s : State) : Label → Option (Option State)
  | .int a (some b) =>
    if s.maxRanged then some (some s)
    else if int_comp a b .GT then some none
    else do
      let range := (← int_sub b a).i
      let s := { s with actualCases := s.actualCases + range.low }
      some (some (if i128_scomp range ⟨0#64, lim.range.setWidth 64⟩ = .GT then { s with maxRanged := true } else s))
  | .enum a (some b) =>
    if s.maxRanged then some (some s)
    else if a > b then some none
    else
      let s := { s with actualCases := s.actualCases + (b - a).setWidth 64 }
      some (some (if lim.range < b - a then { s with maxRanged := true } else s))
  | _ => some (some s)

/-- Lowest and highest value, sema_stmts.c 2218–2222. -/
def updateBounds (s : State) : Label → State
  | .int a b =>
    let to := b.getD a
    { s with
      low := match s.low with
        | none => some a
        | some l => if int_comp l a .GT then some a else some l
      high := match s.high with
        | none => some to
        | some h => if int_comp h to .LT then some to else some h }
  | .enum _ _ => s

/-- `sema_check_value_case`, sema_stmts.c 2189–2279, for constant values. -/
def checkValueCase (lim : Limits) (s : State) (before : List Case) (l : Label) : Option (Option State) := do
  let s := { s with actualCases := s.actualCases + 1#64 }
  match ← checkRange lim (updateBounds s l) l with
  | none => some none
  | some s => if ← foundBefore l.first before then some none else some (some s)

/-- The loop over the cases in `sema_analyse_switch_body`, sema_stmts.c 2347–2393. -/
def checkCases (lim : Limits) (s : State) (before : List Case) : List Case → Option (Option State)
  | [] => some (some s)
  | c :: cs =>
    match c.label with
    | none => if s.hasDefault then some none else checkCases lim { s with hasDefault := true } (before ++ [c]) cs
    | some l => do
      match ← checkValueCase lim s before l with
      | none => some none
      | some s => checkCases lim s (before ++ [c]) cs

/-- How the switch is to be generated, `flow.if_chain` and `flow.jump`. -/
structure Plan where
  ifChain : Bool
  jump : Bool
deriving DecidableEq, Repr

/-- `exhaustive`, sema_stmts.c 2346 and 2398–2400. -/
def exhaustive (enumCount : Option Nat) (s : State) : Bool :=
  s.hasDefault || match enumCount with
    | some n => s.actualCases.toNat == n
    | none => false

/-- `sema_analyse_switch_body`, sema_stmts.c 2325–2444, without the analysis of the bodies; `enumCount` is the
number of values if the switch is over an enum, `jump` whether it is marked `@jump`. -/
def analyseSwitch (lim : Limits) (enumCount : Option Nat) (jump : Bool) (cases : List Case) : Option (Option Plan) := do
  match ← checkCases lim ⟨false, 0#64, none, none, false⟩ [] cases with
  | none => some none
  | some s =>
    if enumCount.isSome && !exhaustive enumCount s then some none
    else if jump then do
      let tooBig ← match s.low, s.high with
        | some low, some high => do
          let range ← int_sub high low
          some (int_comp range ⟨⟨0#64, lim.jump.setWidth 64⟩, range.type⟩ .GE)
        | _, _ => some false
      if tooBig then some none
      else some (some ⟨false, !(s.hasDefault && cases.length == 1)⟩)
    else some (some ⟨s.maxRanged, false⟩)

/-! ## Code generation -/

/-- A basic block: the body of the case with that index, or the end of the switch. -/
abbrev Block := Option Nat

/-- The blocks of the cases, llvm_codegen_stmt.c 936–978: a case without body shares the next one's. -/
def assignBlocks (i : Nat) : List Case → List Block
  | [] => []
  | c :: cs =>
    let rest := assignBlocks (i + 1) cs
    (if c.body then some i else rest.headD none) :: rest

/-- Cases with their blocks. -/
def withBlocks (cases : List Case) : List (Case × Block) := cases.zip (assignBlocks 0 cases)

/-- The default case, the last without label. -/
def defaultCase (cs : List (Case × Block)) : Option (Case × Block) := cs.reverse.find? fun c => c.1.label.isNone

/-- `llvm_set_jump_table_values`, llvm_codegen_stmt.c 787–813: first and last value as integers of the
(lowered) type of the switch. -/
def labelValues (t : TypeKind) : Label → CInt × CInt
  | .int a b => (a, b.getD a)
  | .enum a b => (⟨⟨0#64, a.setWidth 64⟩, t⟩, ⟨⟨0#64, (b.getD a).setWidth 64⟩, t⟩)

/-- A run-time value of the switch's type. -/
abbrev Val (t : TypeKind) := BitVec (type_kind_bitsize t)

/-- The LLVM constant for an integer: its low bits. -/
def constVal (t : TypeKind) (c : CInt) : Val t := (c.i.high ++ c.i.low).setWidth _

/-- `llvm_emit_comp` with `BINARYOP_LE`: `icmp sle` or `icmp ule`. -/
def llvmLe (t : TypeKind) (a b : Val t) : Bool := if type_kind_is_signed t then a.sle b else a.ule b

/-- Where a chain of comparisons and a jump table go without matching case, llvm_codegen_stmt.c 738–746 and
867–870: to the body of the default, if it has one. -/
def defaultBlock : Option (Case × Block) → Block
  | some (c, b) => if c.body then b else none
  | none => none

/-- `llvm_emit_switch_body_if_chain`, llvm_codegen_stmt.c 687–751. -/
def ifChain (t : TypeKind) (v : Val t) (dflt : Option (Case × Block)) : List (Case × Block) → Block
  | [] => defaultBlock dflt
  | (c, b) :: cs =>
    match c.label with
    | none => ifChain t v dflt cs
    | some l =>
      let first := constVal t (labelValues t l).1
      let last := constVal t (labelValues t l).2
      let equals := match l.last with
        | some _ => llvmLe t first v && llvmLe t v last
        | none => first == v
      if equals then b else ifChain t v dflt cs

theorem range_measure {w : Nat} (a b : BitVec w) (h : a ≠ b) : (b - (a + 1#w)).toNat < (b - a).toNat := by
  have e : b - (a + 1#w) = (b - a) - 1#w := by grind
  have hne : b - a ≠ 0#w := fun h0 => h (by grind)
  have hpos : 0 < (b - a).toNat := Nat.pos_of_ne_zero fun h0 => hne (BitVec.eq_of_toNat_eq (by simpa using h0))
  have hw : 0 < w := by
    rcases Nat.eq_zero_or_pos w with rfl | h'
    · exact absurd (Subsingleton.elim a b) h
    · exact h'
  rw [e, BitVec.toNat_sub_of_le]
  · rw [BitVec.toNat_one hw]
    omega
  · rw [BitVec.le_def, BitVec.toNat_one hw]
    omega

/-- The loop adding a case for every value of a range, llvm_codegen_stmt.c 1021–1034. -/
def rangeCases {w : Nat} (a b : BitVec w) : List (BitVec w) :=
  if _h : a = b then [a] else a :: rangeCases (a + 1#w) b
termination_by (b - a).toNat
decreasing_by exact range_measure a b (by assumption)

/-- The values of a case, llvm_codegen_stmt.c 1012–1036. -/
def caseValues (t : TypeKind) (l : Label) : List (Val t) :=
  let first := constVal t (labelValues t l).1
  match l.last with
  | some _ => rangeCases first (constVal t (labelValues t l).2)
  | none => [first]

/-- The cases given to LLVM's `switch`, llvm_codegen_stmt.c 1004–1043. -/
def llvmCases (t : TypeKind) : List (Case × Block) → List (Val t × Block)
  | [] => []
  | (c, b) :: cs =>
    match c.label with
    | none => llvmCases t cs
    | some l => (caseValues t l).map (·, b) ++ llvmCases t cs

/-- LLVM's `switch`: the values must be distinct. -/
def llvmSwitch {t : TypeKind} (v : Val t) (dflt : Block) (cs : List (Val t × Block)) : Option Block :=
  if (cs.map (·.1)).Nodup then
    match cs.find? fun c => c.1 == v with
    | some c => some c.2
    | none => some dflt
  else none

/-- Lowest and highest value and the index of the lowest, llvm_codegen_stmt.c 828–857. -/
def tableBounds (t : TypeKind) : Option (CInt × CInt) → List (Case × Block) → Option (CInt × CInt)
  | acc, [] => acc
  | acc, (c, _) :: cs =>
    match c.label with
    | none => tableBounds t acc cs
    | some l =>
      let (value, to) := labelValues t l
      match acc with
      | none => tableBounds t (some (value, to)) cs
      | some (min, max) =>
        if int_comp value min .LT then tableBounds t (some (value, max)) cs
        else if int_comp to max .GT then tableBounds t (some (min, to)) cs
        else tableBounds t (some (min, max)) cs

/-- `refs[j] = block` for `n` values of `j`, llvm_codegen_stmt.c 898–901; the array must have the cell. -/
def fillRefs (block : Block) (refs : List (Option Block)) (j : Nat) : Nat → Option (List (Option Block))
  | 0 => some refs
  | n + 1 => if j < refs.length then fillRefs block (refs.set j (some block)) (j + 1) n else none

/-- The loop filling the table, llvm_codegen_stmt.c 886–911; also the destinations declared for the
`indirectbr`. -/
def fillTable (t : TypeKind) (min : CInt) (refs : List (Option Block)) (dests : List Block) :
    List (Case × Block) → Option (List (Option Block) × List Block)
  | [] => some (refs, dests)
  | (c, b) :: cs =>
    match c.label with
    | none => fillTable t min refs dests cs
    | some l => do
      let value ← int_sub (labelValues t l).1 min
      let to ← int_sub (labelValues t l).2 min
      let refs ← fillRefs b refs value.i.low.toNat (to.i.low.toNat + 1 - value.i.low.toNat)
      fillTable t min refs (if c.body then b :: dests else dests) cs

/-- The index of a `getelementptr` with an index of the switch's type, `llvm_emit_array_gep_raw_index`
(llvm_codegen_expr.c 4851–4863) on a 64-bit target: unsigned types below 64 bits are zero-extended, others
are taken as signed. -/
def gepIndex (t : TypeKind) (v : Val t) : Int :=
  if type_kind_is_unsigned t && type_kind_bitsize t < 64 then v.toNat else (v.signExtend 64).toInt

/-- `llvm_emit_switch_jump_table` and `llvm_emit_switch_jump_stmt`, llvm_codegen_stmt.c 753–923. -/
def jumpTable (t : TypeKind) (v : Val t) (cs : List (Case × Block)) : Option Block := do
  let dflt := defaultBlock (defaultCase cs)
  let (min, max) ← tableBounds t none cs
  let size ← int_sub max min
  if size.i.low.toNat > 0xFFFF ∨ size.i.high ≠ 0#64 ∨ ¬ size.i.low.toNat + 1 < 0x3FFF + 1 then none
  else
    let count := size.i.low.toNat + 1
    let (refs, dests) ← fillTable t min (List.replicate count none) [] cs
    let dests := if refs.all Option.isSome then dests else dflt :: dests
    let index := if constVal t min = 0 then v else v - constVal t min
    if index.toNat > (BitVec.ofNat (type_kind_bitsize t) (count - 1)).toNat then some dflt
    else
      let i := gepIndex t index
      if i < 0 then none
      else do
        let target := (← refs[i.toNat]?).getD dflt
        if target ∈ dests then some target else none

/-- `llvm_emit_switch_body`, llvm_codegen_stmt.c 925–1045: the block a value is sent to. -/
def emitSwitch (t : TypeKind) (plan : Plan) (cases : List Case) (v : Val t) : Option Block :=
  if cases.isEmpty then some none
  else
    let cs := withBlocks cases
    if plan.ifChain then some (ifChain t v (defaultCase cs) cs)
    else if plan.jump then jumpTable t v cs
    else llvmSwitch v ((defaultCase cs).elim none (·.2)) (llvmCases t cs)

/-- The target of `nextcase value` with a constant, sema_stmts.c 2052–2066: the first case containing it;
`some none` is the error that there is none. -/
def nextcase (value : Const) (i : Nat) : List Case → Option (Option Nat)
  | [] => some none
  | c :: cs =>
    match c.label with
    | none => nextcase value (i + 1) cs
    | some l => do if ← expr_const_in_range noMem value l.first l.last then return some i else nextcase value (i + 1) cs

end C3.Switch
