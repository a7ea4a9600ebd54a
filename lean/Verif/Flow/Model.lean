import Verif.Flow.Syntax

/-!
# Model of the analysis of control flow in `src/compiler/sema_stmts.c` and `semantic_analyser.c`

The analysis finds the targets of jumps, copies deferred statements to every place where a scope is left, and drops statements that
cannot be reached.  Types, expressions, names other than labels, and the contracts are left out; so are the trailing bodies of macros,
compile time statements, and switches over all values of an enum.
-/

set_option autoImplicit false

namespace C3.Flow

variable {σ : Type}

namespace LSeq

def append : LSeq σ → LSeq σ → LSeq σ
  | .nil, b => b
  | .cons s a, b => .cons s (a.append b)

end LSeq

/-! ## What the statements after the analysis do: `llvm_codegen_stmt.c` -/

inductive LExit where
  | norm
  | brk (n : Nat)
  | cont (n : Nat)
  | next (n k : Nat)
  | ret (failed : Bool)
  | stop
  deriving DecidableEq

/-- The jump as the statement around an `if` sees it: `llvm_emit_break`, llvm_codegen_stmt.c 1069–1091.  Only `break` may leave an
`if` (`UNREACHABLE` in 1093–1110, here `stop`). -/
def outOfIf : LExit → LExit
  | .brk 0 => .norm
  | .brk (n + 1) => .brk n
  | .cont 0 => .stop
  | .cont (n + 1) => .cont n
  | .next 0 _ => .stop
  | .next (n + 1) k => .next n k
  | x => x

/-- As the statement around a loop or switch sees a jump that was not for it. -/
def outOf : LExit → LExit
  | .brk (n + 1) => .brk n
  | .cont (n + 1) => .cont n
  | .next (n + 1) k => .next n k
  | .cont 0 => .stop
  | .next 0 _ => .stop
  | x => x

def isBreak0 : LExit → Bool
  | .brk 0 => true
  | _ => false

def goesOn0 : LExit → Bool
  | .norm => true
  | .cont 0 => true
  | _ => false

def next0 : LExit → Option Nat
  | .next 0 k => some k
  | _ => none

/-- The exits of a macro: `return` goes to `block_return_exit`, a fault to `block_optional_exit`, llvm_codegen_stmt.c 305–352. -/
def outOfMacro (bang : Bool) : LExit → LExit
  | .ret true => if bang then .ret true else .norm
  | .ret false => .norm
  | .brk _ => .stop
  | .cont _ => .stop
  | .next _ _ => .stop
  | x => x

/-- Statements and then a jump: `llvm_emit_statement_chain` before `llvm_emit_jmp` or a return. -/
def andThen (r : σ × LExit) (x : LExit) : σ × LExit := if r.2 = .norm then (r.1, x) else r

mutual

/-- A statement after the analysis; `n` bounds the rounds of every loop.  A `return` runs `cleanup` when its value is there, and
`cleanup_fail` when it failed, llvm_codegen_stmt.c 215–303; `!` runs its `cleanup` when the value failed. -/
def lexec (n : Nat) : LStmt σ → σ → σ × LExit
  | .nop, s => (s, .norm)
  | .act f, s => (f s, .norm)
  | .noreturn f, s => (f s, .stop)
  | .rethrow f cleanup, s => if (f s).2 then andThen (lexecSeq n cleanup (f s).1) (.ret true) else ((f s).1, .norm)
  | .throw cleanup, s => andThen (lexecSeq n cleanup s) (.ret true)
  | .ret .void cleanup _, s => andThen (lexecSeq n cleanup s) (.ret false)
  | .ret (.plain f) cleanup _, s => andThen (lexecSeq n cleanup (f s)) (.ret false)
  | .ret (.opt f) cleanup cleanup_fail, s =>
    if (f s).2 then andThen (lexecSeq n cleanup_fail (f s).1) (.ret true) else andThen (lexecSeq n cleanup (f s).1) (.ret false)
  | .block body, s => lexecSeq n body s
  | .ite c t e, s =>
    let r := if (c.eval s).2 then lexecSeq n t (c.eval s).1 else lexecSeq n e (c.eval s).1
    (r.1, outOfIf r.2)
  | .loop skip c incr body, s =>
    let r := loopFrom .stop .norm isBreak0 goesOn0 c.eval (lexecSeq n body) (incr.getD id) n skip s
    (r.1, outOf r.2)
  | .switch sel dflt cases, s =>
    let bodies := lexecCases n cases
    let r := caseFrom .stop .norm isBreak0 next0 bodies n (selected dflt bodies.length (sel s).2) (sel s).1
    (r.1, outOf r.2)
  | .brk m defers, s => andThen (lexecSeq n defers s) (.brk m)
  | .cont m defers, s => andThen (lexecSeq n defers s) (.cont m)
  | .next m k defers, s => andThen (lexecSeq n defers s) (.next m k)
  | .inl body bang cleanup, s =>
    let r := lexecSeq n body s
    let x := outOfMacro bang r.2
    if x = .ret true then andThen (lexecSeq n cleanup r.1) x else (r.1, x)

def lexecSeq (n : Nat) : LSeq σ → σ → σ × LExit
  | .nil, s => (s, .norm)
  | .cons st rest, s =>
    let r := lexec n st s
    if r.2 = .norm then lexecSeq n rest r.1 else r

def lexecCases (n : Nat) : LCases σ → List (σ → σ × LExit)
  | .nil => []
  | .cons body rest => lexecSeq n body :: lexecCases n rest

end

/-! ## The analysis -/

inductive Construct where
  | ite
  | loop
  | switch (cases : Nat)

/-- An `if`, loop or switch around the place of analysis.  `bottom` is the length of the list of deferred statements where it
begins: `label.defer`, `break_defer`, `continue_defer` and `switch_stmt.defer`, which are all set there. -/
structure Entry where
  label : Option Nat
  sort : Construct
  bottom : Nat

/-- What `SemaContext` and `DynamicScope` say about jumps: the statements around, innermost first; the list `defer_last`, latest first,
of what was deferred and not yet run, with the code of each; whether the place is in a `defer` (`in_defer`). -/
structure Ctx (σ : Type) where
  env : List Entry
  chain : List (Kind × LSeq σ)
  inDefer : Bool

/-- The copies of the list: `context_get_defers`, semantic_analyser.c 77–95, for the part of the list beyond `bottom`, which is
the length of the rest. -/
def copies (is_success : Bool) : List (Kind × LSeq σ) → LSeq σ
  | [] => .nil
  | (k, body) :: chain =>
    if (is_success && k == .onCatch) || (!is_success && k == .onTry) then copies is_success chain
    else .cons (.block body) (copies is_success chain)

def context_get_defers (chain : List (Kind × LSeq σ)) (bottom : Nat) (is_success : Bool) : LSeq σ :=
  copies is_success (chain.take (chain.length - bottom))

/-- `sema_defer_has_try_or_catch`, sema_stmts.c 407–416. -/
def sema_defer_has_try_or_catch (chain : List (Kind × LSeq σ)) : Bool := chain.any fun d => d.1 == .onCatch || d.1 == .onTry

/-- The target of `break`: sema_stmts.c 174–216 and 1875–1935.  Without a label it is `break_target`, which loops and switches
set. -/
def findBreak (l : Option Nat) : List Entry → Option (Nat × Entry)
  | [] => none
  | e :: env =>
    let hit := match l, e.sort with
      | some l, _ => e.label == some l
      | none, .ite => false
      | none, _ => true
    if hit then some (0, e) else (findBreak l env).map fun r => (r.1 + 1, r.2)

/-- The target of `continue`: sema_stmts.c 257–296.  A label must be of a loop. -/
def findCont (l : Option Nat) : List Entry → Option (Nat × Entry)
  | [] => none
  | e :: env =>
    let hit := match l, e.sort with
      | some l, _ => e.label == some l
      | none, .loop => true
      | none, _ => false
    if hit then match e.sort with | .loop => some (0, e) | _ => none
    else (findCont l env).map fun r => (r.1 + 1, r.2)

/-- The target of `nextcase`: sema_stmts.c 1949–2052.  A label must be of a switch, and the case must be one of it. -/
def findNext (l : Option Nat) (k : Nat) : List Entry → Option (Nat × Entry)
  | [] => none
  | e :: env =>
    let hit := match l, e.sort with
      | some l, _ => e.label == some l
      | none, .switch _ => true
      | none, _ => false
    if hit then match e.sort with | .switch m => if k < m then some (0, e) else none | _ => none
    else (findNext l k env).map fun r => (r.1 + 1, r.2)

/-- The result: the code, `jump_end`, the statements around that have a `break` to them (`flow.has_break`), and the number of `returns`
of the macro. -/
structure R (α : Type) where
  code : α
  je : Bool
  brks : List Nat
  rets : Nat

/-- The same, seen from outside of the innermost statement. -/
def outer : List Nat → List Nat
  | [] => []
  | 0 :: l => outer l
  | (n + 1) :: l => n :: outer l

def Stmt.isBlock : Stmt σ → Bool
  | .block _ => true
  | _ => false

mutual

/-- `sema_analyse_statement_inner`, sema_stmts.c 2947–3013, and the functions it calls; `none` for an error. -/
def compile (c : Ctx σ) : Stmt σ → Option (R (LStmt σ))
  | .act f => some ⟨.act f, false, [], 0⟩
  -- 1179–1218
  | .noreturn f => some ⟨.noreturn f, true, [], 0⟩
  -- sema_expr.c 8449–8494
  | .rethrow f => if c.inDefer then none else some ⟨.rethrow f (context_get_defers c.chain 0 false), false, [], 1⟩
  | .throw => if c.inDefer then none else some ⟨.throw (context_get_defers c.chain 0 false), true, [], 1⟩
  -- `sema_analyse_return_stmt`, `sema_analyse_block_exit_stmt` and `sema_inline_return_defers`, 419–433, 525–560, 629–665
  | .ret r =>
    if c.inDefer then none
    else
      let cleanup := context_get_defers c.chain 0 true
      let isOpt := match r with | .opt _ => true | _ => false
      let cleanup_fail := if isOpt && sema_defer_has_try_or_catch c.chain then context_get_defers c.chain 0 false else cleanup
      some ⟨.ret r cleanup cleanup_fail, true, [], 1⟩
  -- `sema_analyse_compound_stmt`, 221–232
  | .block body => do
    let r ← compileSeq c c.chain.length false body
    some ⟨.block r.code, r.je, r.brks, r.rets⟩
  -- `sema_analyse_if_stmt`, 1759–1856
  | .ite label cond t e => do
    let c' := { c with env := ⟨label, .ite, c.chain.length⟩ :: c.env }
    let rt ← compileSeq c' c.chain.length false t
    let re ← compileSeq c' c.chain.length false e
    let has_break := (rt.brks ++ re.brks).contains 0
    let je := match cond with
      | .const true => (rt.je && re.je && !has_break) || rt.je
      | .const false => (rt.je && re.je && !has_break) || re.je
      | .dyn _ => rt.je && re.je && !has_break
    some ⟨.ite cond rt.code re.code, je, outer (rt.brks ++ re.brks), rt.rets + re.rets⟩
  -- `sema_analyse_for_stmt`, 1306–1390
  | .loop label skip_first cond incr body => do
    let c' := { c with env := ⟨label, .loop, c.chain.length⟩ :: c.env }
    let r ← compileSeq c' c.chain.length false body
    let is_infinite := match cond with | .const true => true | _ => false
    some ⟨.loop skip_first cond incr r.code, is_infinite && !r.brks.contains 0, outer r.brks, r.rets⟩
  -- `sema_analyse_switch_stmt` and `sema_analyse_switch_body`, 2330–2440 and 2742–2778
  | .switch label sel dflt cases => do
    let n := cases.length
    if dflt.all (· < n) then
      let c' := { c with env := ⟨label, .switch n, c.chain.length⟩ :: c.env }
      let r ← compileCases c' c.chain.length cases
      some ⟨.switch sel dflt r.code, dflt.isSome && r.je && !r.brks.contains 0, outer r.brks, r.rets⟩
    else none
  -- `sema_analyse_break_stmt`, 174–216
  | .brk l => do
    let (n, e) ← findBreak l c.env
    some ⟨.brk n (context_get_defers c.chain e.bottom true), true, [n], 0⟩
  -- `sema_analyse_continue_stmt`, 257–296
  | .cont l => do
    let (n, e) ← findCont l c.env
    some ⟨.cont n (context_get_defers c.chain e.bottom true), true, [], 0⟩
  -- `sema_analyse_nextcase_stmt`, 1949–2052
  | .next l k => do
    let (n, e) ← findNext l k c.env
    some ⟨.next n k (context_get_defers c.chain e.bottom true), true, [], 0⟩
  -- A bare `defer` as the body of something is refused; in a sequence it is a case of `compileSeq`.
  | .defer _ _ => none
  -- `sema_expr_analyse_macro_call`, sema_expr.c 2440–2652, with a new context (`SCOPE_MACRO`, semantic_analyser.c 25–29)
  | .inl body bang =>
    if bang && c.inDefer then none
    else do
      let r ← compileSeq ⟨[], [], false⟩ 0 false body
      some ⟨.inl r.code bang (context_get_defers c.chain 0 false), r.je && r.rets == 0, [], if bang then 1 else 0⟩

/-- The statements of a scope: `sema_analyse_compound_statement_no_scope`, sema_stmts.c 2146–2162, with `sema_analyse_statement`,
3016–3042, for each of them.  `je` is `jump_end` of the scope: a statement behind a jump becomes nothing, and so does the list of what
is deferred at the end (`context_pop_defers`, semantic_analyser.c 97–116).  `start` is `defer_start`. -/
def compileSeq (c : Ctx σ) (start : Nat) (je : Bool) : Seq σ → Option (R (LSeq σ))
  | .nil => some ⟨if je then .nil else context_get_defers c.chain start true, je, [], 0⟩
  -- `sema_analyse_defer_stmt`, 1220–1269; nothing is emitted for the statement itself, llvm_codegen_stmt.c 1688–1690
  | .cons (.defer k body) rest => do
    let b ← compileSeq ⟨[], [], true⟩ 0 false body
    let r ← compileSeq { c with chain := (k, b.code) :: c.chain } start je rest
    some { r with code := .cons .nop r.code }
  | .cons st rest => do
    let a ← compile c st
    let je' := if st.isBlock then a.je else je || a.je
    let b ← compileSeq c start je' rest
    some ⟨.cons (if je then .nop else a.code) b.code, b.je, a.brks ++ b.brks, (if je then 0 else a.rets) + b.rets⟩

/-- The loop over the cases, sema_stmts.c 2396–2410. -/
def compileCases (c : Ctx σ) (start : Nat) : Cases σ → Option (R (LCases σ))
  | .nil => some ⟨.nil, true, [], 0⟩
  | .cons body rest => do
    let a ← compileSeq c start false body
    let b ← compileCases c start rest
    some ⟨.cons a.code b.code, a.je && b.je, a.brks ++ b.brks, a.rets + b.rets⟩

end

/-- The body of a function: `sema_analyse_function_body`, sema_stmts.c 3126–3224.  With `nonvoid` it must end in a jump (3207–3213),
and its end is the instruction `unreachable` (`llvm_emit_return_implicit`, llvm_codegen_function.c 388–404). -/
def compileFn (nonvoid : Bool) (body : Seq σ) : Option (LSeq σ) := do
  let r ← compileSeq ⟨[], [], false⟩ 0 false body
  if nonvoid && !r.je then none else some r.code

end C3.Flow
