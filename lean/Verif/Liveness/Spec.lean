import Mathlib.Logic.Relation
import Verif.Liveness.Model

/-!
# What it means for a declaration to be used

A declaration is used if it can be reached from a root through the parts of declarations, types, expressions and
statements.
-/

set_option autoImplicit false

namespace C3.Liveness.Spec

open Relation

inductive Node where
  | decl (d : DeclId)
  | type (t : Ty)
  | expr (e : Expr)
  | init (i : Init)
  | stmt (s : Stmt)
  | asm (a : AsmArg)

/-- Control never passes this statement. -/
def Leaves : Stmt → Bool
  | .return_ false _ _ _ | .break_ _ | .nextcase _ _ => true
  | _ => false

/-- The statements of a chain up to the first that is never passed. -/
def upToJump (ss : List Stmt) : List Stmt := ss.take (ss.findIdx Leaves + 1)

def declN (d : Option DeclId) : List Node := d.toList.map .decl
def typeN (t : Option Ty) : List Node := t.toList.map .type
def exprN (e : Option Expr) : List Node := e.toList.map .expr
def initN (i : Option Init) : List Node := i.toList.map .init
def stmtN (s : Option Stmt) : List Node := s.toList.map .stmt

def exprParts : ExprKind → List Node
  | .bad | .leaf | .constPlain => []
  | .inner e => exprN e
  | .two a b => exprN a ++ exprN b
  | .list es => es.map .expr
  | .ident d | .constDecl d => declN d
  | .access ref parent => declN ref ++ exprN parent
  | .call args varargs callee =>
    args.map .expr ++
    (match varargs with | .none => [] | .splat e => exprN e | .list es => es.map .expr) ++
    (match callee with | .builtin => [] | .expr e => exprN e | .func contracts d => stmtN contracts ++ declN d)
  | .catch_ decl es => declN decl ++ es.map .expr
  | .try_ optional assignExisting lhs decl =>
    exprN optional ++ if assignExisting then exprN lhs else declN decl
  | .ternary cond then_ else_ => exprN cond ++ exprN then_ ++ exprN else_
  | .slice e range => exprN e ++
    (match range with | .const => [] | .dynamic start end_ => exprN start ++ exprN end_ | .constEnd start => exprN start)
  | .constTypeid t => typeN t
  | .constInit i => initN i
  | .macroBlock params body => params.map .decl ++ (upToJump body).map .stmt
  | .bodyExpansion decls values first => decls.map .decl ++ values.map .expr ++ stmtN first

def stmtParts (env : Env) : Stmt → List Node
  | .bad | .nop => []
  | .asm args => args.map .expr
  | .asmString e => exprN e
  | .asmBlock stmts input output => (upToJump stmts).map .stmt ++ input.map .asm ++ output.map .asm
  | .defer body => [.stmt body]
  | .compound stmts => (upToJump stmts).map .stmt
  | .expr e => exprN e
  | .declare d => declN d
  | .decls ds => ds.map .decl
  | .return_ _ e cleanup cleanupFail => exprN e ++ cleanup.map .stmt ++ cleanupFail.map .stmt
  | .assert e message args =>
    -- checked, or only assumed
    if env.asserts then .expr e :: exprN message ++ args.map .expr else if env.pure_ e then [.expr e] else []
  | .for_ cond init incr body => exprN cond ++ exprN init ++ exprN incr ++ stmtN body
  | .if_ cond then_ else_ => exprN cond ++ stmtN then_ ++ stmtN else_
  | .switch cond cases => exprN cond ++ cases.map .stmt
  | .case e hi body => exprN e ++ exprN hi ++ stmtN body
  | .default body => stmtN body
  | .nextcase defers e => (upToJump defers).map .stmt ++ exprN e
  | .break_ defers => (upToJump defers).map .stmt

/-- The methods of a type that can be found at run time. -/
def isDynamicMethod (env : Env) (d : DeclId) : Bool :=
  match env.decls[d]? with
  | some decl => (match decl.kind with | .macro => false | _ => true) && decl.dynamic
  | none => false

def sigParts (sig : Signature) : List Node := sig.params.map .decl ++ typeN sig.rtype

def declParts (env : Env) : DeclKind → List Node
  | .bad | .macro | .leaf => []
  | .typedef type => typeN type
  | .define aliased => declN aliased
  | .enum methods type values =>
    (methods.filter (isDynamicMethod env)).map .decl ++ typeN type ++ values.map .decl
  | .distinct type methods => typeN type ++ (methods.filter (isDynamicMethod env)).map .decl
  | .aggregate methods => (methods.filter (isDynamicMethod env)).map .decl
  | .enumConstant args => args.map .expr
  | .fntype sig => sigParts sig
  | .func sig body => sigParts sig ++ stmtN body
  | .var kind type init initDone =>
    match kind with
    | .untraced => []
    | .param => typeN type ++ if initDone then exprN init else []
    | .other => typeN type ++ exprN init

/-- The parts of a node that are used if it is. -/
def parts (env : Env) : Node → List Node
  | .decl d => match env.decls[d]? with | some decl => declParts env decl.kind | none => []
  | .type (.user d) => [.decl d]
  | .type (.base t) => [.type t]
  | .type .other => []
  | .expr (.mk type kind) => typeN type ++ exprParts kind
  | .init .zero => []
  | .init (.single i) => initN i
  | .init (.many is) => is.map .init
  | .init (.value e) => exprN e
  | .stmt s => stmtParts env s
  | .asm (.var d) => declN d
  | .asm (.value e) => exprN e
  | .asm _ => []

/-- A node uses another. -/
def Uses (env : Env) : Node → Node → Prop := ReflTransGen fun n m => m ∈ parts env n

/-- The declarations the program must keep. -/
inductive Root (p : Program) : DeclId → Prop
  | main (d : DeclId) : p.main = some d → Root p d
  | extension (d : DeclId) (decl : Decl) : d ∈ p.methodExtensions → p.env.decls[d]? = some decl →
      (decl.isExport ∨ decl.noStrip ∨ decl.dynamic) → Root p d
  | kept (u : CompUnit) (d : DeclId) (decl : Decl) : u ∈ p.units →
      (d ∈ u.functions ∨ d ∈ u.methods ∨ d ∈ u.vars ∨ d ∈ u.localMethodExtensions) →
      p.env.decls[d]? = some decl → (decl.isExport ∨ decl.noStrip) → Root p d
  | function (u : CompUnit) (d : DeclId) (decl : Decl) : u ∈ p.units → d ∈ u.functions →
      p.env.decls[d]? = some decl →
      (decl.finalizer ∨ decl.init ∨ (decl.test ∧ p.testing) ∨ (decl.benchmark ∧ p.benchmarking)) → Root p d

/-- The declaration is used by the program. -/
def Used (p : Program) (d : DeclId) : Prop := ∃ r, Root p r ∧ Uses p.env (.decl r) (.decl d)

/-- The node is one the analysis may leave behind. -/
def NodeOk (env : Env) : Node → Prop
  | .decl d => ∃ decl, env.decls[d]? = some decl ∧
      (match decl.kind with
        | .bad | .macro => False
        | .enum methods _ _ | .distinct _ methods | .aggregate methods => ∀ m ∈ methods, m < env.decls.length
        | _ => True)
  | .expr (.mk _ .bad) | .stmt .bad | .asm .bad => False
  | _ => True

/-- The program is one the analysis may leave behind: its lists are of declarations, and only nodes that may be left
behind are used. -/
structure Analysed (p : Program) : Prop where
  extensions : ∀ d ∈ p.methodExtensions, d < p.env.decls.length
  functions : ∀ u ∈ p.units, ∀ d ∈ u.functions, d < p.env.decls.length
  methods : ∀ u ∈ p.units, ∀ d ∈ u.methods, d < p.env.decls.length
  vars : ∀ u ∈ p.units, ∀ d ∈ u.vars, d < p.env.decls.length
  localExtensions : ∀ u ∈ p.units, ∀ d ∈ u.localMethodExtensions, d < p.env.decls.length
  nodes : ∀ r n, Root p r → Uses p.env (.decl r) n → NodeOk p.env n

/-- At most one statement is to be run on leaving at a return. -/
def SingleCleanup : Node → Prop
  | .stmt (.return_ _ _ cleanup cleanupFail) => cleanup.length ≤ 1 ∧ cleanupFail.length ≤ 1
  | _ => True

end C3.Liveness.Spec
