/-!
# Model of the tracing of live declarations, `src/compiler/sema_liveness.c`

Declarations are numbered; statements, expressions and constant initializers are trees that refer to them.  Kinds
with the same fields that are traced alike share a constructor.  `none` is a fault: an unreachable kind or a
declaration that does not exist, or divergence.
-/

set_option autoImplicit false

namespace C3.Liveness

abbrev DeclId := Nat

/-- What tracing sees of a type: a user-defined type (`type_is_user_defined`, types.c 1053–1069), a (canonical)
pointer, slice or array with its base, or another type. -/
inductive Ty where
  | user (d : DeclId)
  | base (t : Ty)
  | other
deriving DecidableEq, Repr

mutual
/-- Expressions with their types (compiler_internal.h 1290–1420). -/
inductive Expr where
  | mk (type : Option Ty) (kind : ExprKind)

inductive ExprKind where
  -- kinds that must not occur: `NON_RUNTIME_EXPR`, `UNRESOLVED_EXPRS`, `EXPR_LAMBDA`, …
  | bad
  -- `EXPR_BUILTIN`, `EXPR_NOP`, `EXPR_RETVAL`, the hooks, `EXPR_LAST_FAULT`
  | leaf
  -- kinds with one operand: `EXPR_FORCE_UNWRAP` … `EXPR_ADDR_CONVERSION`, `EXPR_UNARY`, `EXPR_MAKE_SLICE`, …;
  -- `EXPR_ASM` of a value or address, which is a `leaf` otherwise
  | inner (e : Option Expr)
  -- `EXPR_TWO`, `EXPR_BINARY`, `EXPR_BITASSIGN`, `EXPR_SUBSCRIPT`, `EXPR_SLICE_ASSIGN`, `EXPR_POINTER_OFFSET`, `EXPR_MAKE_ANY`
  | two (a b : Option Expr)
  -- `EXPR_EXPRESSION_LIST`, `EXPR_COND`, `EXPR_INITIALIZER_LIST`, `EXPR_TRY_UNWRAP_CHAIN`, …
  | list (es : List Expr)
  -- `EXPR_IDENTIFIER`, `EXPR_DECL`
  | ident (d : Option DeclId)
  -- `EXPR_ACCESS_RESOLVED`, `EXPR_BITACCESS`
  | access (ref : Option DeclId) (parent : Option Expr)
  | call (args : List Expr) (varargs : VarArgs) (callee : Callee)
  | catch_ (decl : Option DeclId) (es : List Expr)
  | try_ (optional : Option Expr) (assignExisting : Bool) (lhs : Option Expr) (decl : Option DeclId)
  | ternary (cond then_ else_ : Option Expr)
  | slice (e : Option Expr) (range : SliceRange)
  | constTypeid (t : Option Ty)
  -- constants without references
  | constPlain
  -- `CONST_FAULT`, `CONST_ENUM`, `CONST_REF`
  | constDecl (d : Option DeclId)
  -- `CONST_SLICE`, `CONST_INITIALIZER`
  | constInit (i : Option Init)
  | macroBlock (params : List DeclId) (body : List Stmt)
  | bodyExpansion (decls : List DeclId) (values : List Expr) (first : Option Stmt)

inductive VarArgs where
  | none
  | splat (e : Option Expr)
  | list (es : List Expr)

inductive Callee where
  | builtin
  | expr (e : Option Expr)
  | func (contracts : Option Stmt) (d : Option DeclId)

inductive SliceRange where
  | const
  | dynamic (start : Option Expr) (end_ : Option Expr)
  | constEnd (start : Option Expr)

/-- Constant initializers (compiler_internal.h 1480–1520); the elements of `CONST_INIT_STRUCT` are those up to the
number of members (one for a union). -/
inductive Init where
  | zero
  -- `CONST_INIT_ARRAY_VALUE`, `CONST_INIT_UNION`
  | single (i : Option Init)
  -- `CONST_INIT_ARRAY_FULL`, `CONST_INIT_ARRAY`, `CONST_INIT_STRUCT`
  | many (is : List Init)
  | value (e : Option Expr)

/-- Statements (compiler_internal.h 1560–1700). -/
inductive Stmt where
  | bad
  -- `AST_NOP_STMT`, `AST_ASM_LABEL`
  | nop
  -- `AST_ASM_STMT`
  | asm (args : List Expr)
  -- `AST_ASM_BLOCK_STMT`
  | asmString (e : Option Expr)
  | asmBlock (stmts : List Stmt) (input output : List AsmArg)
  | defer (body : Stmt)
  -- `AST_COMPOUND_STMT`, `AST_CT_COMPOUND_STMT`
  | compound (stmts : List Stmt)
  | expr (e : Option Expr)
  | declare (d : Option DeclId)
  | decls (ds : List DeclId)
  -- `AST_RETURN_STMT`, or `AST_BLOCK_EXIT_STMT` if `exit`; the cleanups are chains of statements, and `cleanupFail`
  -- is empty if it is the same as `cleanup`
  | return_ (exit : Bool) (e : Option Expr) (cleanup cleanupFail : List Stmt)
  | assert (e : Expr) (message : Option Expr) (args : List Expr)
  | for_ (cond init incr : Option Expr) (body : Option Stmt)
  | if_ (cond : Option Expr) (then_ else_ : Option Stmt)
  | switch (cond : Option Expr) (cases : List Stmt)
  | case (e to : Option Expr) (body : Option Stmt)
  | default (body : Option Stmt)
  | nextcase (defers : List Stmt) (e : Option Expr)
  -- `AST_BREAK_STMT`, `AST_CONTINUE_STMT`
  | break_ (defers : List Stmt)

/-- Operands of an inline assembly block. -/
inductive AsmArg where
  -- `ASM_ARG_ADDR`, `ASM_ARG_ADDROF`: `TODO`
  | bad
  -- `ASM_ARG_REG`, `ASM_ARG_INT`
  | leaf
  -- `ASM_ARG_MEMVAR`, `ASM_ARG_REGVAR`
  | var (d : Option DeclId)
  | value (e : Option Expr)
end

/-- Parameters and return type of a function. -/
structure Signature where
  params : List DeclId
  rtype : Option Ty

inductive VarKind where
  -- `VARDECL_PARAM_CT_TYPE`, `VARDECL_LOCAL_CT_TYPE`, `VARDECL_REWRAPPED`, `VARDECL_UNWRAPPED`, `VARDECL_PARAM_EXPR`
  | untraced
  -- `VARDECL_PARAM_CT`, `VARDECL_PARAM`
  | param
  | other
deriving DecidableEq

/-- Declarations by kind (compiler_internal.h 560–700). -/
inductive DeclKind where
  -- kinds that must not be traced: `DECL_CT_ASSERT`, `DECL_IMPORT`, …
  | bad
  | macro
  -- `DECL_ERASED`, `DECL_POISONED`, `DECL_ATTRIBUTE`, `DECL_FAULT`
  | leaf
  | typedef (type : Option Ty)
  | define (alias : Option DeclId)
  | enum (methods : List DeclId) (type : Option Ty) (values : List DeclId)
  | distinct (type : Option Ty) (methods : List DeclId)
  -- `DECL_BITSTRUCT`, `DECL_STRUCT`, `DECL_UNION`, `DECL_INTERFACE`
  | aggregate (methods : List DeclId)
  | enumConstant (args : List Expr)
  | fntype (sig : Signature)
  | func (sig : Signature) (body : Option Stmt)
  | var (kind : VarKind) (type : Option Ty) (init : Option Expr) (initDone : Bool)

/-- A declaration with the attributes that matter. -/
structure Decl where
  kind : DeclKind
  isExport : Bool := false
  noStrip : Bool := false
  dynamic : Bool := false
  finalizer : Bool := false
  init : Bool := false
  test : Bool := false
  benchmark : Bool := false

/-- The program and the build options used: `compile_asserts()`; `expr_is_pure` is left open. -/
structure Env where
  decls : List Decl
  asserts : Bool
  pure_ : Expr → Bool

/-- The `is_live` flags. -/
abbrev Live := DeclId → Bool

/-- Is it a statement after which the chain is not traced on, lines 58–66. -/
def Stmt.jumps : Stmt → Bool
  | .return_ exit _ _ _ => !exit
  | .break_ _ | .nextcase _ _ => true
  | _ => false

/-- Dynamic methods of a type, `sema_trace_decl_dynamic_methods` without the tracing, lines 565–579. -/
def dynamicMethods (env : Env) : List DeclId → Option (List DeclId)
  | [] => some []
  | d :: ds => do
    let decl ← env.decls[d]?
    let rest ← dynamicMethods env ds
    match decl.kind with
    | .macro => some rest
    | _ => if decl.dynamic then some (d :: rest) else some rest

mutual
/-- `sema_trace_decl_liveness`, lines 586–666, with `sema_trace_func_liveness` and
`sema_trace_enum_associated`, lines 557–564 and 580–584. -/
def traceDecl (env : Env) (live : Live) (d : Option DeclId) : Option Live :=
  match d with
  | none => some live
  | some d =>
    if live d then some live
    else do
      let live : Live := fun x => if x = d then true else live x
      let decl ← env.decls[d]?
      match decl.kind with
      | .bad | .macro => none
      | .leaf => some live
      | .typedef type => traceType env live type
      | .define alias => traceDecl env live alias
      | .enum methods type values => do
        let live ← traceDecls env live (← dynamicMethods env methods)
        let live ← traceType env live type
        traceDecls env live values
      | .distinct type methods => do
        let live ← traceType env live type
        traceDecls env live (← dynamicMethods env methods)
      | .aggregate methods => do traceDecls env live (← dynamicMethods env methods)
      | .enumConstant args => traceExprs env live args
      | .fntype sig => do
        let live ← traceDecls env live sig.params
        traceType env live sig.rtype
      | .func sig body => do
        let live ← traceDecls env live sig.params
        let live ← traceType env live sig.rtype
        traceStmt env live body
      | .var kind type init initDone =>
        match kind with
        | .untraced => some live
        | .param => do
          let live ← traceType env live type
          match init with
          | some e => if initDone then traceExpr env live (some e) else some live
          | none => some live
        | .other => do
          let live ← traceType env live type
          traceExpr env live init
partial_fixpoint

/-- Several declarations in order. -/
def traceDecls (env : Env) (live : Live) (ds : List DeclId) : Option Live :=
  match ds with
  | [] => some live
  | d :: ds => do
    let live ← traceDecl env live (some d)
    traceDecls env live ds
partial_fixpoint

/-- `sema_trace_type_liveness`, lines 11–34. -/
def traceType (env : Env) (live : Live) (t : Option Ty) : Option Live :=
  match t with
  | none => some live
  | some (.user d) => traceDecl env live (some d)
  | some (.base t) => traceType env live (some t)
  | some .other => some live
partial_fixpoint

/-- `sema_trace_expr_liveness`, lines 253–514. -/
def traceExpr (env : Env) (live : Live) (e : Option Expr) : Option Live :=
  match e with
  | none => some live
  | some (.mk type kind) => do
    let live ← traceType env live type
    match kind with
    | .bad => none
    | .leaf => some live
    | .inner e => traceExpr env live e
    | .two a b => do
      let live ← traceExpr env live a
      traceExpr env live b
    | .list es => traceExprs env live es
    | .ident d => traceDecl env live d
    | .access ref parent => do
      let live ← traceDecl env live ref
      traceExpr env live parent
    | .call args varargs callee => do
      let live ← traceExprs env live args
      let live ← match varargs with
        | .none => some live
        | .splat e => traceExpr env live e
        | .list es => traceExprs env live es
      match callee with
      | .builtin => some live
      | .expr e => traceExpr env live e
      | .func contracts d => do
        let live ← traceStmt env live contracts
        traceDecl env live d
    | .catch_ decl es => do
      let live ← traceDecl env live decl
      traceExprs env live es
    | .try_ optional assignExisting lhs decl => do
      let live ← traceExpr env live optional
      if assignExisting then traceExpr env live lhs else traceDecl env live decl
    | .ternary cond then_ else_ => do
      let live ← traceExpr env live cond
      let live ← traceExpr env live then_
      traceExpr env live else_
    | .slice e range => do
      let live ← traceExpr env live e
      match range with
      | .const => some live
      | .dynamic start end_ => do
        let live ← traceExpr env live start
        traceExpr env live end_
      | .constEnd start => traceExpr env live start
    | .constTypeid t => traceType env live t
    | .constPlain => some live
    | .constDecl d => traceDecl env live d
    | .constInit i => traceInit env live i
    | .macroBlock params body => do
      let live ← traceDecls env live params
      traceChain env live body
    | .bodyExpansion decls values first => do
      let live ← traceDecls env live decls
      let live ← traceExprs env live values
      traceStmt env live first
partial_fixpoint

/-- `sema_trace_expr_list_liveness`, lines 46–49. -/
def traceExprs (env : Env) (live : Live) (es : List Expr) : Option Live :=
  match es with
  | [] => some live
  | e :: es => do
    let live ← traceExpr env live (some e)
    traceExprs env live es
partial_fixpoint

/-- `sema_trace_const_initializer_liveness`, lines 203–250. -/
def traceInit (env : Env) (live : Live) (i : Option Init) : Option Live :=
  match i with
  | none => some live
  | some .zero => some live
  | some (.single i) => traceInit env live i
  | some (.many is) => traceInits env live is
  | some (.value e) => traceExpr env live e
partial_fixpoint

/-- Its loops. -/
def traceInits (env : Env) (live : Live) (is : List Init) : Option Live :=
  match is with
  | [] => some live
  | i :: is => do
    let live ← traceInit env live (some i)
    traceInits env live is
partial_fixpoint

/-- `sema_trace_stmt_liveness`, lines 96–201. -/
def traceStmt (env : Env) (live : Live) (s : Option Stmt) : Option Live :=
  match s with
  | none => some live
  | some s =>
    match s with
    | .bad => none
    | .nop => some live
    | .asm args => traceExprs env live args
    | .asmString e => traceExpr env live e
    | .asmBlock stmts input output => do
      let live ← traceChain env live stmts
      let live ← traceAsm env live input
      traceAsm env live output
    | .defer body => traceStmt env live (some body)
    | .compound stmts => traceChain env live stmts
    | .expr e => traceExpr env live e
    | .declare d => traceDecl env live d
    | .decls ds => traceDecls env live ds
    | .return_ _ e cleanup cleanupFail => do
      let live ← traceExpr env live e
      let live ← traceStmt env live cleanup.head?
      traceStmt env live cleanupFail.head?
    | .assert e message args => do
      let live ← if env.asserts || env.pure_ e then traceExpr env live (some e) else some live
      if env.asserts then do
        let live ← traceExpr env live message
        traceExprs env live args
      else some live
    | .for_ cond init incr body => do
      let live ← traceExpr env live cond
      let live ← traceExpr env live init
      let live ← traceExpr env live incr
      traceStmt env live body
    | .if_ cond then_ else_ => do
      let live ← traceExpr env live cond
      let live ← traceStmt env live then_
      traceStmt env live else_
    | .switch cond cases => do
      let live ← traceExpr env live cond
      traceStmts env live cases
    | .case e to body => do
      let live ← traceExpr env live e
      let live ← traceExpr env live to
      traceStmt env live body
    | .default body => traceStmt env live body
    | .nextcase defers e => do
      let live ← traceChain env live defers
      traceExpr env live e
    | .break_ defers => traceChain env live defers
partial_fixpoint

/-- `sema_trace_asm_arg_list`, lines 72–94. -/
def traceAsm (env : Env) (live : Live) (as : List AsmArg) : Option Live :=
  match as with
  | [] => some live
  | a :: as =>
    match a with
    | .bad => none
    | .leaf => traceAsm env live as
    | .var d => do
      let live ← traceDecl env live d
      traceAsm env live as
    | .value e => do
      let live ← traceExpr env live e
      traceAsm env live as
partial_fixpoint

/-- The loop over the cases, line 180. -/
def traceStmts (env : Env) (live : Live) (ss : List Stmt) : Option Live :=
  match ss with
  | [] => some live
  | s :: ss => do
    let live ← traceStmt env live (some s)
    traceStmts env live ss
partial_fixpoint

/-- `sema_trace_stmt_chain_liveness`, lines 51–71. -/
def traceChain (env : Env) (live : Live) (ss : List Stmt) : Option Live :=
  match ss with
  | [] => some live
  | s :: ss => do
    let live ← traceStmt env live (some s)
    if s.jumps then some live else traceChain env live ss
partial_fixpoint
end

/-- A compilation unit's lists. -/
structure CompUnit where
  functions : List DeclId
  methods : List DeclId
  vars : List DeclId
  localMethodExtensions : List DeclId

/-- The program: modules only matter through their units, in order. -/
structure Program where
  env : Env
  main : Option DeclId
  methodExtensions : List DeclId
  units : List CompUnit
  testing : Bool
  benchmarking : Bool

/-- `if (keep(d)) sema_trace_decl_liveness(d)` for each of a list. -/
def traceIf (env : Env) (keep : DeclId → Decl → Bool) (live : Live) : List DeclId → Option Live
  | [] => some live
  | d :: ds => do
    let decl ← env.decls[d]?
    let live ← if keep d decl then traceDecl env live (some d) else some live
    traceIf env keep live ds

/-- `no_strip` once the first loop has set it for dynamic method extensions, line 526. -/
def Program.noStrip (p : Program) (d : DeclId) (decl : Decl) : Bool :=
  decl.noStrip || decl.dynamic && p.methodExtensions.contains d

/-- The loop over the units, lines 529–554. -/
def traceUnits (p : Program) (live : Live) : List CompUnit → Option Live
  | [] => some live
  | u :: us => do
    let keep := fun d decl => decl.isExport || p.noStrip d decl
    let live ← traceIf p.env (fun d decl => keep d decl || decl.finalizer || decl.init ||
      decl.test && p.testing || decl.benchmark && p.benchmarking) live u.functions
    let live ← traceIf p.env keep live u.methods
    let live ← traceIf p.env keep live u.vars
    let live ← traceIf p.env keep live u.localMethodExtensions
    traceUnits p live us

/-- `sema_trace_liveness`, lines 516–555. -/
def traceLiveness (p : Program) : Option Live := do
  let live ← traceDecl p.env (fun _ => false) p.main
  let live ← traceIf p.env (fun d decl => decl.isExport || p.noStrip d decl) live p.methodExtensions
  traceUnits p live p.units

end C3.Liveness
