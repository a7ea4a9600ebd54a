import Verif.Liveness.Spec

/-!
# Tracing is tracing the parts in order
-/

set_option autoImplicit false
set_option linter.unusedSimpArgs false

namespace C3.Liveness

open Spec

/-- Tracing by kind of node. -/
def trace (env : Env) (live : Live) : Node → Option Live
  | .decl d => traceDecl env live (some d)
  | .type t => traceType env live (some t)
  | .expr e => traceExpr env live (some e)
  | .init i => traceInit env live (some i)
  | .stmt s => traceStmt env live (some s)
  | .asm a => traceAsm env live [a]

def traces (env : Env) (live : Live) : List Node → Option Live
  | [] => some live
  | n :: ns => trace env live n >>= fun live => traces env live ns

/-- The parts that are traced. -/
def traced (env : Env) : Node → List Node
  | .stmt (.return_ _ e cleanup cleanupFail) => exprN e ++ stmtN cleanup.head? ++ stmtN cleanupFail.head?
  | n => parts env n

theorem traces_append (env : Env) (live : Live) (ns ms : List Node) :
    traces env live (ns ++ ms) = traces env live ns >>= fun live => traces env live ms := by
  induction ns generalizing live with
  | nil => simp [traces]
  | cons n ns ih =>
    simp only [List.cons_append, traces, bind_assoc]
    congr 1
    funext l
    exact ih l

theorem traces_one (env : Env) (live : Live) (n : Node) : traces env live [n] = trace env live n := by
  simp [traces]

theorem traceDecl_opt (env : Env) (live : Live) (d : Option DeclId) :
    traceDecl env live d = traces env live (declN d) := by
  cases d with
  | none => rw [traceDecl]; rfl
  | some d => simp [declN, traces, trace]

theorem traceType_opt (env : Env) (live : Live) (t : Option Ty) :
    traceType env live t = traces env live (typeN t) := by
  cases t with
  | none => rw [traceType]; rfl
  | some d => simp [typeN, traces, trace]

theorem traceExpr_opt (env : Env) (live : Live) (e : Option Expr) :
    traceExpr env live e = traces env live (exprN e) := by
  cases e with
  | none => rw [traceExpr]; rfl
  | some d => simp [exprN, traces, trace]

theorem traceInit_opt (env : Env) (live : Live) (e : Option Init) :
    traceInit env live e = traces env live (initN e) := by
  cases e with
  | none => rw [traceInit]; rfl
  | some d => simp [initN, traces, trace]

theorem traceStmt_opt (env : Env) (live : Live) (e : Option Stmt) :
    traceStmt env live e = traces env live (stmtN e) := by
  cases e with
  | none => rw [traceStmt]; rfl
  | some d => simp [stmtN, traces, trace]

theorem traceDecls_eq (env : Env) (live : Live) (ds : List DeclId) :
    traceDecls env live ds = traces env live (ds.map .decl) := by
  induction ds generalizing live with
  | nil => rw [traceDecls]; rfl
  | cons d ds ih => rw [traceDecls]; simp only [List.map_cons, traces, trace, ih]

theorem traceExprs_eq (env : Env) (live : Live) (es : List Expr) :
    traceExprs env live es = traces env live (es.map .expr) := by
  induction es generalizing live with
  | nil => rw [traceExprs]; rfl
  | cons d ds ih => rw [traceExprs]; simp only [List.map_cons, traces, trace, ih]

theorem traceInits_eq (env : Env) (live : Live) (es : List Init) :
    traceInits env live es = traces env live (es.map .init) := by
  induction es generalizing live with
  | nil => rw [traceInits]; rfl
  | cons d ds ih => rw [traceInits]; simp only [List.map_cons, traces, trace, ih]

theorem traceStmts_eq (env : Env) (live : Live) (es : List Stmt) :
    traceStmts env live es = traces env live (es.map .stmt) := by
  induction es generalizing live with
  | nil => rw [traceStmts]; rfl
  | cons d ds ih => rw [traceStmts]; simp only [List.map_cons, traces, trace, ih]

theorem traceAsm_eq (env : Env) (live : Live) (as : List AsmArg) :
    traceAsm env live as = traces env live (as.map .asm) := by
  induction as generalizing live with
  | nil => rw [traceAsm]; rfl
  | cons a as ih =>
    rw [traceAsm.eq_def]
    simp only [List.map_cons, traces, trace]
    rw [traceAsm.eq_def env live [a]]
    have hn : ∀ l, traceAsm env l [] = some l := fun l => by rw [traceAsm]
    cases a <;> simp [ih, hn]

theorem leaves_eq (s : Stmt) : Leaves s = s.jumps := by
  cases s <;> try rfl
  rename_i x _ _ _
  cases x <;> rfl

theorem upToJump_nil : upToJump [] = [] := rfl

theorem upToJump_cons (s : Stmt) (ss : List Stmt) :
    upToJump (s :: ss) = s :: if Leaves s then [] else upToJump ss := by
  unfold upToJump
  cases h : Leaves s <;> simp [List.findIdx_cons, h]

theorem traceChain_eq (env : Env) (live : Live) (es : List Stmt) :
    traceChain env live es = traces env live ((upToJump es).map .stmt) := by
  induction es generalizing live with
  | nil => rw [traceChain]; rfl
  | cons s ss ih =>
    rw [traceChain, upToJump_cons]
    simp only [List.map_cons, traces, trace, leaves_eq]
    congr 1
    funext l
    cases s.jumps
    · simpa using ih l
    · simp [traces]

theorem trace_type (env : Env) (live : Live) (t : Ty) :
    trace env live (.type t) = traces env live (traced env (.type t)) := by
  simp only [trace]
  rw [traceType.eq_def]
  cases t <;> simp [traced, parts, traces, trace]

theorem trace_init (env : Env) (live : Live) (i : Init) :
    trace env live (.init i) = traces env live (traced env (.init i)) := by
  simp only [trace]
  rw [traceInit.eq_def]
  cases i <;> simp [traced, parts, traces, traceInit_opt, traceInits_eq, traceExpr_opt]

theorem trace_asm (env : Env) (live : Live) (a : AsmArg) (h : NodeOk env (.asm a)) :
    trace env live (.asm a) = traces env live (traced env (.asm a)) := by
  simp only [trace]
  have hn : ∀ l, traceAsm env l [] = some l := fun l => by rw [traceAsm]
  rw [traceAsm.eq_def]
  cases a <;> simp_all [traced, parts, traces, traceDecl_opt, traceExpr_opt, NodeOk]

theorem trace_expr (env : Env) (live : Live) (e : Expr) (h : NodeOk env (.expr e)) :
    trace env live (.expr e) = traces env live (traced env (.expr e)) := by
  obtain ⟨t, k⟩ := e
  simp only [trace, traced, parts]
  rw [traceExpr.eq_def, traces_append]
  simp only [traceType_opt]
  congr 1
  funext live
  cases k with
  | bad => simp [NodeOk] at h
  | call args varargs callee =>
    cases varargs <;> cases callee <;>
      simp [exprParts, traces_append, traces, traceDecl_opt, traceExpr_opt, traceExprs_eq, traceStmt_opt, bind_assoc]
  | slice e range =>
    cases range <;> simp [exprParts, traces_append, traces, traceExpr_opt, bind_assoc]
  | try_ o a l d =>
    cases a <;> simp [exprParts, traces_append, traceExpr_opt, traceDecl_opt]
  | _ =>
    simp [exprParts, traces_append, traces, traceDecl_opt, traceExpr_opt, traceExprs_eq, traceStmt_opt, traceType_opt,
      traceInit_opt, traceDecls_eq, traceChain_eq, bind_assoc]

theorem trace_stmt (env : Env) (live : Live) (s : Stmt) (h : NodeOk env (.stmt s)) :
    trace env live (.stmt s) = traces env live (traced env (.stmt s)) := by
  simp only [trace]
  rw [traceStmt.eq_def]
  cases s with
  | bad => simp [NodeOk] at h
  | assert e m a =>
    have hc : ∀ ns, Node.expr e :: ns = exprN (some e) ++ ns := fun _ => rfl
    cases ha : env.asserts <;> cases hp : env.pure_ e <;>
      simp [traced, parts, stmtParts, ha, hp, hc, traces_append, traces, traceExpr_opt, traceExprs_eq]
  | defer b => simp [traced, parts, stmtParts, traces, trace]
  | _ =>
    simp [traced, parts, stmtParts, traces_append, traces, traceDecl_opt, traceExpr_opt, traceExprs_eq,
      traceStmt_opt, traceDecls_eq, traceChain_eq, traceStmts_eq, traceAsm_eq, bind_assoc]

theorem dynamicMethods_eq (env : Env) (ms : List DeclId) (h : ∀ m ∈ ms, m < env.decls.length) :
    dynamicMethods env ms = some (ms.filter (isDynamicMethod env)) := by
  induction ms with
  | nil => rfl
  | cons d ds ih =>
    have hd := h d (by simp)
    rw [dynamicMethods, ih fun m hm => h m (List.mem_cons_of_mem _ hm)]
    rw [List.filter_cons]
    simp only [isDynamicMethod, List.getElem?_eq_getElem hd, Option.bind_eq_bind, Option.bind_some]
    generalize env.decls[d] = decl
    obtain ⟨kind, _, _, dyn, _⟩ := decl
    cases kind <;> cases dyn <;> simp

/-- The flags with one more set. -/
def mark (live : Live) (d : DeclId) : Live := fun x => if x = d then true else live x

theorem trace_decl (env : Env) (live : Live) (d : DeclId) (h : NodeOk env (.decl d)) :
    trace env live (.decl d) = if live d then some live else traces env (mark live d) (traced env (.decl d)) := by
  obtain ⟨decl, hd, hk⟩ := h
  simp only [trace, traced, parts, hd]
  rw [traceDecl.eq_def]
  cases hl : live d
  · simp only [hl, hd, Bool.false_eq_true, if_false, Option.bind_eq_bind, Option.bind_some]
    change _ = traces env (fun x => if x = d then true else live x) _
    generalize (fun x => if x = d then true else live x) = live
    generalize decl.kind = kind at hk
    cases kind with
    | bad => exact hk.elim
    | «macro» => exact hk.elim
    | var k t i dn =>
      cases k <;> cases i <;> cases dn <;>
        simp [declParts, traces, traces_append, traceType_opt, traceExpr_opt, exprN]
    | enum ms t vs =>
      simp [declParts, traces_append, traceType_opt, traceDecls_eq, dynamicMethods_eq env ms hk, Option.bind_assoc]
    | distinct t ms =>
      simp [declParts, traces_append, traceType_opt, traceDecls_eq, dynamicMethods_eq env ms hk]
    | aggregate ms =>
      simp [declParts, traceDecls_eq, dynamicMethods_eq env ms hk]
    | _ =>
      simp [declParts, sigParts, traces, traces_append, traceType_opt, traceExprs_eq, traceDecl_opt, traceStmt_opt,
        traceDecls_eq, Option.bind_assoc]
  · simp [hl]

end C3.Liveness
