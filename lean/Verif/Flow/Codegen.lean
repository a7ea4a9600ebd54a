import Verif.Flow.Model

/-!
# Model of the emission of basic blocks in `src/compiler/llvm_codegen_stmt.c`

From the statements after the analysis to a graph of basic blocks.  Expressions are single instructions: what a condition or the operand
of `!` does is part of the branch that follows it.  Left out are macros with their own exits, the two other forms of a switch (`C28` is about
how a case is found), and debug information.  `none` stands for a violated `ASSERT` or a call of LLVM that is not allowed.
-/

set_option autoImplicit false

namespace C3.Flow

variable {σ : Type}

/-! ## Basic blocks and how they run: what LLVM says -/

abbrev Label := Nat

/-- An instruction; `noreturn` ends the program. -/
inductive Instr (σ : Type) where
  | act (f : σ → σ)
  | noreturn (f : σ → σ)

inductive Term (σ : Type) where
  | br (l : Label)
  | cbr (f : σ → σ × Bool) (t e : Label)
  | sw (f : σ → σ × Nat) (targets : List Label) (default : Label)
  | ret (failed : Bool)
  | unreachable

def Term.targets : Term σ → List Label
  | .br l => [l]
  | .cbr _ t e => [t, e]
  | .sw _ ls d => d :: ls
  | _ => []

/-- The blocks of a function that are complete. -/
abbrev Blocks (σ : Type) := List (Label × List (Instr σ) × Term σ)

def Blocks.find (G : Blocks σ) (l : Label) : Option (List (Instr σ) × Term σ) := List.lookup l G

/-- A run: in a block with these instructions left; returned; in a function that does not return (`halt`); or beyond what LLVM
defines (`stuck`: after `unreachable`, or in a block that is not there). -/
inductive Conf (σ : Type) where
  | run (is : List (Instr σ)) (t : Term σ) (s : σ)
  | ret (failed : Bool) (s : σ)
  | halt (s : σ)
  | stuck (s : σ)

def Conf.state : Conf σ → σ
  | .run _ _ s => s
  | .ret _ s => s
  | .halt s => s
  | .stuck s => s

def enter (G : Blocks σ) (l : Label) (s : σ) : Conf σ :=
  match G.find l with
  | some (is, t) => .run is t s
  | none => .stuck s

def step (G : Blocks σ) : Conf σ → Conf σ
  | .run (.act f :: is) t s => .run is t (f s)
  | .run (.noreturn f :: _) _ s => .halt (f s)
  | .run [] (.br l) s => enter G l s
  | .run [] (.cbr f t e) s => enter G (if (f s).2 then t else e) (f s).1
  | .run [] (.sw f ls d) s => enter G (ls.getD (f s).2 d) (f s).1
  | .run [] (.ret failed) s => .ret failed s
  | .run [] .unreachable s => .stuck s
  | c => c

def stepN (G : Blocks σ) : Nat → Conf σ → Conf σ
  | 0, c => c
  | n + 1, c => stepN G n (step G c)

/-! ## The builder: `GenContext` -/

/-- `fresh` is the next new block; `cur` is `current_block` with what it has so far.  The first block is 0. -/
structure B (σ : Type) where
  fresh : Nat
  done : Blocks σ
  cur : Option (Label × List (Instr σ))

/-- `LLVMGetFirstUse`: some branch leads to the block. -/
def used (b : B σ) (l : Label) : Bool := b.done.any fun e => e.2.2.targets.contains l

/-- The block is the first, or some branch leads to it. -/
def alive (b : B σ) (l : Label) : Bool := l == 0 || used b l

/-- `llvm_basic_block_new` -/
def newBlock (b : B σ) : Label × B σ := (b.fresh, { b with fresh := b.fresh + 1 })

/-- `llvm_emit_block`, llvm_codegen_function.c 66–72; a block is put into the function once. -/
def emitBlock (l : Label) (b : B σ) : Option (B σ) :=
  if b.cur.isNone && !b.done.any (fun e => e.1 == l) then some { b with cur := some (l, []) } else none

/-- `llvm_emit_check_block_branch`, llvm_codegen_function.c 21–56: a block that nothing leads to is deleted. -/
def checkBlockBranch (b : B σ) : B σ :=
  match b.cur with
  | some (l, _) => if alive b l then b else { b with cur := none }
  | none => b

/-- The end of the current block. -/
def emitTerm (t : Term σ) (b : B σ) : Option (B σ) :=
  match b.cur with
  | some (l, is) => some { b with done := (l, is, t) :: b.done, cur := none }
  | none => none

/-- `llvm_emit_br`, llvm_codegen_function.c 58–63 -/
def emitBr (l : Label) (b : B σ) : B σ :=
  match (checkBlockBranch b).cur with
  | some (l', is) => { b with done := (l', is, .br l) :: b.done, cur := none }
  | none => { b with cur := none }

/-- `llvm_emit_jmp`, llvm_codegen_stmt.c 213–218 -/
def emitJmp (l : Label) (b : B σ) : Option (B σ) :=
  let (post, b) := newBlock (emitBr l b)
  emitBlock post b

/-- `llvm_get_current_block_if_in_use`, llvm_codegen_internal_impl.h 188–197: an empty block that nothing leads to is deleted.  (The first
block has an instruction, `alloca_point`.) -/
def dropUnused (b : B σ) : B σ :=
  match b.cur with
  | some (l, []) => if alive b l then b else { b with cur := none }
  | _ => b

/-- An instruction in the current block. -/
def emitInstr (i : Instr σ) (b : B σ) : B σ :=
  match b.cur with
  | some (l, is) => { b with cur := some (l, is ++ [i]) }
  | none => b

/-- `ast_is_not_empty`, ast.c 268–280, of a compound statement -/
def notEmpty : LSeq σ → Bool
  | .nil => false
  | .cons (.block body) .nil => notEmpty body
  | .cons _ _ => true

/-- Where `break`, `continue` and `nextcase` lead: `codegen.exit_block`, `continue_block`, and `backend_block` of the cases. -/
structure Target where
  brk : Label
  cont : Option Label
  cases : List Label

/-- New blocks for the cases of a switch. -/
def newBlocks : Nat → B σ → List Label × B σ
  | 0, b => ([], b)
  | n + 1, b =>
    let (l, b) := newBlock b
    let (ls, b) := newBlocks n b
    (l :: ls, b)

def LCases.length : LCases σ → Nat
  | .nil => 0
  | .cons _ r => r.length + 1

/-- A new block, if asked for. -/
def newBlockIf (c : Bool) (b : B σ) : Option Label × B σ :=
  if c then ((newBlock b).1, (newBlock b).2) else (none, b)

/-- A condition whose value is not needed for a branch. -/
def emitCond (c : Cond σ) (b : B σ) : B σ :=
  match c with
  | .const _ => b
  | .dyn f => emitInstr (.act fun s => (f s).1) b

/-- The operand of `!`, or of a `return`, that may fail: if it does, `guard` follows.  `llvm_value_fold_optional` and
`llvm_emit_jump_to_optional_exit`, llvm_codegen_value.c 120–166; the block `assign_optional` between, which stores the fault, is left out. -/
def emitFold (f : σ → σ × Bool) (guard : Label) (b : B σ) : Option (B σ) := do
  let (after, b) := newBlock b
  let b ← emitTerm (.cbr f guard after) b
  emitBlock after b

/-- `g`, if there is something to do it for. -/
def onSome {α β : Type} (o : Option α) (dflt : β) (g : α → Option β) : Option β :=
  match o with
  | some a => g a
  | none => some dflt

/-- `g`, if there is a current block. -/
def onCurrent (b : B σ) (g : B σ → Option (B σ)) : Option (B σ) := if b.cur.isSome then g b else some b

/-- `g`, if some branch leads to `l`. -/
def onUsed (l : Label) (b : B σ) (g : B σ → Option (B σ)) : Option (B σ) := if used b l then g b else some b

/-- The jump to the block `inc` behind the body, 626–636: the block is there only if the body jumps to it. -/
def afterBody (inc : Option Label) (b : B σ) : Option Label × B σ :=
  if inc.any (used b) then (inc, emitBr (inc.getD 0) b) else (none, b)

/-- The step of a `for`, 645–658: in its own block if there is a branch to it. -/
def emitIncr (incr : Option (σ → σ)) (inc : Option Label) (b : B σ) : Option (B σ) :=
  match incr with
  | none => some b
  | some f => do
    let b ← onSome inc b fun l => emitBlock l b
    let b := dropUnused b
    some (emitInstr (.act f) b)

mutual

/-- `llvm_emit_stmt`, llvm_codegen_stmt.c 1626–1712: nothing is emitted without a current block. -/
def emit (env : List Target) (st : LStmt σ) (b : B σ) : Option (B σ) :=
  if b.cur.isNone then some b
  else
    match st with
    | .nop => some b
    | .act f => some (emitInstr (.act f) b)
    | .noreturn f => some (emitInstr (.noreturn f) b)
    -- `llvm_emit_rethrow_expr`, llvm_codegen_expr.c 4247–4296
    | .rethrow f cleanup => do
      let (guard, b) := newBlock b
      let (noerr, b) := newBlock b
      let b ← emitFold f guard b
      let b := emitBr noerr b
      let b ← emitBlock guard b
      let b := checkBlockBranch b
      let b ← onCurrent b fun b => (emitSeq env cleanup b).bind (emitTerm (.ret true))
      emitBlock noerr b
    -- The same with `llvm_emit_optional`, 6155–6190, which goes to `guard`
    | .throw cleanup => do
      let (guard, b) := newBlock b
      let (noerr, b) := newBlock b
      let b ← emitJmp guard b
      let b := emitBr noerr b
      let b ← emitBlock guard b
      let b := checkBlockBranch b
      let b ← onCurrent b fun b => (emitSeq env cleanup b).bind (emitTerm (.ret true))
      emitBlock noerr b
    -- `llvm_emit_return`, llvm_codegen_stmt.c 220–302
    | .ret .void cleanup _ => do
      let b ← emitSeq env cleanup b
      let b := dropUnused b
      onCurrent b (emitTerm (.ret false))
    | .ret (.plain f) cleanup _ => do
      let b ← emitSeq env cleanup (emitInstr (.act f) b)
      let b := dropUnused b
      onCurrent b (emitTerm (.ret false))
    | .ret (.opt f) cleanup cleanup_fail => do
      let (error, b) := newBlock b
      let b ← emitFold f error b
      let b ← emitSeq env cleanup b
      let b := dropUnused b
      let b ← onCurrent b (emitTerm (.ret false))
      onUsed error b fun b => do
        let b ← emitBlock error b
        (emitSeq env cleanup_fail b).bind (emitTerm (.ret true))
    -- `llvm_emit_compound_stmt`, 9–30
    | .block body => emitSeq env body b
    -- `llvm_emit_if_stmt`, 364–461
    | .ite c t e => do
      let (exit, b) := newBlock b
      let (thenB, b) := newBlockIf (notEmpty t) b
      let (elseB, b) := newBlockIf (notEmpty e) b
      let env' := ⟨exit, none, []⟩ :: env
      if thenB.isNone && elseB.isNone then some (dropUnused (emitCond c b))
      else
        match c with
        | .const v =>
          onCurrent (dropUnused b) fun b => do
            let dest := if v then thenB else elseB
            let b := emitBr (dest.getD exit) b
            let b ← onSome dest b fun l => do
              let b ← emitBlock l b
              let b ← (if v then emitSeq env' t else emitSeq env' e) b
              some (emitBr exit b)
            emitBlock exit b
        | .dyn f => do
          let b ← emitTerm (.cbr f (thenB.getD exit) (elseB.getD exit)) b
          let b ← onSome thenB b fun l => do
            let b ← emitBlock l b
            let b ← emitSeq env' t b
            some (emitBr exit b)
          let b ← onSome elseB b fun l => do
            let b ← emitBlock l b
            let b ← emitSeq env' e b
            some (emitBr exit b)
          emitBlock exit b
    -- `llvm_emit_for_stmt`, 499–680
    | .loop skip_first cond incr body => do
      let (inc, b) := newBlockIf incr.isSome b
      let (bodyB, b) := newBlockIf (notEmpty body) b
      match cond with
      | .dyn f =>
        let (condB, b) := newBlock b
        let (exit, b) := newBlock b
        let success := (bodyB.or inc).getD condB
        let b := emitBr (if skip_first then success else condB) b
        let b ← emitBlock condB b
        let b ← emitTerm (.cbr f success exit) b
        let r ← onSome bodyB (inc, b) fun l => do
          let b ← emitBlock l b
          let b ← emitSeq (⟨exit, inc.or (some condB), []⟩ :: env) body b
          some (afterBody inc b)
        let b ← emitIncr incr r.1 r.2
        emitBlock exit (emitBr condB b)
      | .const true =>
        match bodyB.or inc with
        | none =>
          -- 529–538: nothing to loop over, `llvm_emit_panic` (with `--safe=no` and without a panic function the call is missing)
          let b ← emitTerm .unreachable (emitInstr (.noreturn id) b)
          let (post, b) := newBlock b
          emitBlock post b
        | some start => do
          let (exit, b) := newBlock b
          let r ← onSome bodyB (inc, emitBr start b) fun l => do
            let b ← emitBlock l (emitBr l b)
            let b ← emitSeq (⟨exit, inc.or (some start), []⟩ :: env) body b
            some (afterBody inc b)
          let b ← emitIncr incr r.1 r.2
          emitBlock exit (emitBr start b)
      | .const false =>
        match bodyB.or inc with
        | none => some b
        | some start => do
          let (exit, b) := newBlock b
          let r ← onSome bodyB (inc, emitBr start b) fun _ => do
            let b ← emitSeq (⟨exit, inc.or (some exit), []⟩ :: env) body b
            some (afterBody inc b)
          let b ← emitIncr incr r.1 r.2
          onUsed exit b fun b => emitBlock exit (emitBr exit b)
    -- `llvm_emit_switch` and `llvm_emit_switch_body` with the instruction `switch`, 920–1066; all cases have a body
    | .switch sel dflt cases => do
      if cases.length = 0 then some (emitInstr (.act fun s => (sel s).1) b)
      else
        let (ls, b) := newBlocks cases.length b
        let (exit, b) := newBlock b
        let (entry, b) := newBlock b
        let b := emitBr entry b
        let b ← emitBlock entry b
        let b ← emitTerm (.sw sel ls ((dflt.bind (ls[·]?)).getD exit)) b
        let b ← emitCases (⟨exit, none, ls⟩ :: env) exit cases ls b
        emitBlock exit b
    -- `llvm_emit_break`, `llvm_emit_continue` and `gencontext_emit_next_stmt`, 1068–1121
    | .brk m defers => do
      let b ← emitSeq env defers b
      let t ← env[m]?
      emitJmp t.brk b
    | .cont m defers => do
      let b ← emitSeq env defers b
      let t ← env[m]?
      let l ← t.cont
      emitJmp l b
    | .next m k defers => do
      let b ← emitSeq env defers b
      let t ← env[m]?
      let l ← t.cases[k]?
      emitJmp l b
    -- not modelled
    | .inl _ _ _ => none

/-- `llvm_emit_statement_chain` -/
def emitSeq (env : List Target) (sq : LSeq σ) (b : B σ) : Option (B σ) :=
  match sq with
  | .nil => some b
  | .cons st rest => do
    let b ← emit env st b
    emitSeq env rest b

def emitCases (env : List Target) (exit : Label) (cases : LCases σ) (ls : List Label) (b : B σ) : Option (B σ) :=
  match cases, ls with
  | .cons body rest, l :: ls => do
    let b ← emitBlock l b
    let b ← emitSeq env body b
    emitCases env exit rest ls (emitBr exit b)
  | _, _ => some b

end

/-- `llvm_emit_function_body`, llvm_codegen_function.c 506–521: the end of the last block is a return, or with `nonvoid` unreachable. -/
def emitFn (nonvoid : Bool) (body : LSeq σ) : Option (Blocks σ) := do
  let b ← emitSeq [] body ⟨1, [], some (0, [])⟩
  let b ← onCurrent (dropUnused b) (emitTerm (if nonvoid then .unreachable else .ret false))
  some b.done

end C3.Flow
