import Verif.Liveness.Lemmas

/-!
# Tracing ends, and marks what is used
-/

set_option autoImplicit false
set_option linter.unusedSimpArgs false

namespace C3.Liveness

open Spec Relation

noncomputable def nodeSize : Node → Nat
  | .decl _ => 0
  | .type t => sizeOf t
  | .expr e => sizeOf e
  | .init i => sizeOf i
  | .stmt s => sizeOf s
  | .asm a => sizeOf a

theorem size_declN {m : Node} (d : Option DeclId) (h : m ∈ declN d) : nodeSize m = 0 := by
  cases d <;> simp [declN] at h
  subst h; rfl

theorem size_decls {m : Node} (ds : List DeclId) (h : m ∈ ds.map Node.decl) : nodeSize m = 0 := by
  simp only [List.mem_map] at h
  obtain ⟨d, _, rfl⟩ := h
  rfl

theorem size_typeN {m : Node} (t : Option Ty) (h : m ∈ typeN t) : nodeSize m < sizeOf t := by
  cases t <;> simp [typeN] at h
  subst h; simp [nodeSize]

theorem size_exprN {m : Node} (t : Option Expr) (h : m ∈ exprN t) : nodeSize m < sizeOf t := by
  cases t <;> simp [exprN] at h
  subst h; simp [nodeSize]

theorem size_initN {m : Node} (t : Option Init) (h : m ∈ initN t) : nodeSize m < sizeOf t := by
  cases t <;> simp [initN] at h
  subst h; simp [nodeSize]

theorem size_stmtN {m : Node} (t : Option Stmt) (h : m ∈ stmtN t) : nodeSize m < sizeOf t := by
  cases t <;> simp [stmtN] at h
  subst h; simp [nodeSize]

theorem size_exprs {m : Node} (es : List Expr) (h : m ∈ es.map Node.expr) : nodeSize m < sizeOf es := by
  simp only [List.mem_map] at h
  obtain ⟨d, hd, rfl⟩ := h
  exact List.sizeOf_lt_of_mem hd

theorem size_inits {m : Node} (es : List Init) (h : m ∈ es.map Node.init) : nodeSize m < sizeOf es := by
  simp only [List.mem_map] at h
  obtain ⟨d, hd, rfl⟩ := h
  exact List.sizeOf_lt_of_mem hd

theorem size_stmts {m : Node} (es : List Stmt) (h : m ∈ es.map Node.stmt) : nodeSize m < sizeOf es := by
  simp only [List.mem_map] at h
  obtain ⟨d, hd, rfl⟩ := h
  exact List.sizeOf_lt_of_mem hd

theorem size_asms {m : Node} (es : List AsmArg) (h : m ∈ es.map Node.asm) : nodeSize m < sizeOf es := by
  simp only [List.mem_map] at h
  obtain ⟨d, hd, rfl⟩ := h
  exact List.sizeOf_lt_of_mem hd

theorem size_chain {m : Node} (es : List Stmt) (h : m ∈ (upToJump es).map Node.stmt) : nodeSize m < sizeOf es := by
  simp only [List.mem_map] at h
  obtain ⟨d, hd, rfl⟩ := h
  exact List.sizeOf_lt_of_mem (List.mem_of_mem_take hd)

theorem size_head {m : Node} (es : List Stmt) (h : m ∈ stmtN es.head?) : nodeSize m < sizeOf es := by
  cases es <;> simp [stmtN] at h
  subst h; simp [nodeSize]; omega

syntax "size_part " ident : tactic
macro_rules
  | `(tactic| size_part $h) => `(tactic| first
      | (have := size_exprs _ $h; omega)
      | (have := size_exprN _ $h; omega)
      | (have := size_stmtN _ $h; omega)
      | (have := size_declN _ $h; omega)
      | (have := size_decls _ $h; omega)
      | (have := size_typeN _ $h; omega)
      | (have := size_initN _ $h; omega)
      | (have := size_inits _ $h; omega)
      | (have := size_chain _ $h; omega)
      | (have := size_head _ $h; omega)
      | (have := size_stmts _ $h; omega)
      | (have := size_asms _ $h; omega)
      | ((obtain $h:ident | $h:ident := List.mem_append.1 $h) <;> size_part $h))

theorem size_exprParts (k : ExprKind) (m : Node) (h : m ∈ exprParts k) : nodeSize m < sizeOf k := by
  cases k with
  | bad | leaf | constPlain => simp [exprParts] at h
  | call a v c =>
    cases v <;> cases c <;> simp only [exprParts, List.append_nil] at h <;> simp <;> size_part h
  | slice e r =>
    cases r <;> simp only [exprParts, List.append_nil] at h <;> simp <;> size_part h
  | try_ o a l d =>
    cases a <;> simp only [exprParts, Bool.false_eq_true, if_true, if_false] at h <;> simp <;> size_part h
  | _ => simp only [exprParts] at h; simp; size_part h

theorem size_stmt (env : Env) (s : Stmt) (m : Node) (h : m ∈ traced env (.stmt s)) : nodeSize m < sizeOf s := by
  cases s with
  | bad | nop => simp [traced, parts, stmtParts] at h
  | «assert» e g a =>
    cases ha : env.asserts <;> cases hp : env.pure_ e <;>
      simp only [traced, parts, stmtParts, ha, hp, Bool.false_eq_true, if_true, if_false, List.cons_append,
        List.mem_cons, List.not_mem_nil, or_false] at h
    · subst h; simp [nodeSize]; omega
    · rcases h with h | h
      · subst h; simp [nodeSize]; omega
      · simp; size_part h
    · rcases h with h | h
      · subst h; simp [nodeSize]; omega
      · simp; size_part h
  | defer b => simp [traced, parts, stmtParts] at h; subst h; simp [nodeSize]
  | _ => simp only [traced, parts, stmtParts] at h; simp; size_part h

/-- The parts of anything but a declaration are smaller. -/
theorem size_lt (env : Env) (n m : Node) (hn : ∀ d, n ≠ .decl d) (h : m ∈ traced env n) :
    nodeSize m < nodeSize n := by
  cases n with
  | decl d => exact absurd rfl (hn d)
  | type t =>
    cases t <;> simp [traced, parts] at h <;> subst h <;> simp [nodeSize] <;> omega
  | expr e =>
    obtain ⟨t, k⟩ := e
    simp only [traced, parts] at h
    change _ < sizeOf (Expr.mk t k)
    rw [Expr.mk.sizeOf_spec]
    rcases List.mem_append.1 h with h | h
    · size_part h
    · have := size_exprParts k m h
      omega
  | init i =>
    change _ < sizeOf i
    cases i <;> simp only [traced, parts, List.not_mem_nil] at h <;> simp <;> size_part h
  | stmt s => exact size_stmt env s m h
  | asm a =>
    change _ < sizeOf a
    cases a <;> simp only [traced, parts, List.not_mem_nil] at h <;> simp <;> size_part h

theorem trace_parts (env : Env) (live : Live) (n : Node) (hn : ∀ d, n ≠ .decl d) (h : NodeOk env n) :
    trace env live n = traces env live (traced env n) := by
  cases n with
  | decl d => exact absurd rfl (hn d)
  | type t => exact trace_type env live t
  | expr e => exact trace_expr env live e h
  | init i => exact trace_init env live i
  | stmt s => exact trace_stmt env live s h
  | asm a => exact trace_asm env live a h

/-- Reached through the traced parts. -/
def Reach (env : Env) : Node → Node → Prop := ReflTransGen fun n m => m ∈ traced env n

/-- Declarations reached without passing through another. -/
inductive Mention (env : Env) : Node → DeclId → Prop
  | decl (d : DeclId) : Mention env (.decl d) d
  | part (n m : Node) (d : DeclId) : (∀ x, n ≠ .decl x) → m ∈ traced env n → Mention env m d → Mention env n d

theorem Mention.reach {env : Env} {n : Node} {d : DeclId} (h : Mention env n d) : Reach env n (.decl d) := by
  induction h with
  | decl d => exact .refl
  | part n m d _ hm _ ih => exact .head hm ih

/-- What tracing a list of nodes does. -/
structure Post (env : Env) (live live' : Live) (ns : List Node) : Prop where
  le : ∀ d, live d → live' d
  mentioned : ∀ n ∈ ns, ∀ d, Mention env n d → live' d
  closed : ∀ d, live' d → live d = false → ∀ m ∈ traced env (.decl d), ∀ x, Mention env m x → live' x
  reached : ∀ d, live' d → live d = false → ∃ n ∈ ns, Reach env n (.decl d)

theorem Post.nil (env : Env) (live : Live) : Post env live live [] where
  le _ h := h
  mentioned := by simp
  closed d h h' := by simp [h] at h'
  reached d h h' := by simp [h] at h'

theorem Post.append {env : Env} {live live1 live2 : Live} {ns ms : List Node} (h1 : Post env live live1 ns)
    (h2 : Post env live1 live2 ms) : Post env live live2 (ns ++ ms) where
  le d h := h2.le d (h1.le d h)
  mentioned n hn d hd := by
    rcases List.mem_append.1 hn with hn | hn
    · exact h2.le d (h1.mentioned n hn d hd)
    · exact h2.mentioned n hn d hd
  closed d h h' m hm x hx := by
    cases h1d : live1 d
    · exact h2.closed d h h1d m hm x hx
    · exact h2.le x (h1.closed d h1d h' m hm x hx)
  reached d h h' := by
    cases h1d : live1 d
    · obtain ⟨n, hn, hr⟩ := h2.reached d h h1d
      exact ⟨n, List.mem_append_right _ hn, hr⟩
    · obtain ⟨n, hn, hr⟩ := h1.reached d h1d h'
      exact ⟨n, List.mem_append_left _ hn, hr⟩

/-- Number of declarations not yet marked. -/
def unmarked (env : Env) (live : Live) : Nat := (List.range env.decls.length).countP fun d => !live d

theorem unmarked_le (env : Env) (live live' : Live) (h : ∀ d, live d → live' d) :
    unmarked env live' ≤ unmarked env live := by
  refine List.countP_mono_left fun d _ hd => ?_
  cases hl : live d
  · rfl
  · simp [h d hl] at hd

theorem countP_lt {α : Type} (l : List α) (p q : α → Bool) (hpq : ∀ x ∈ l, p x → q x) (a : α) (ha : a ∈ l)
    (hp : p a = false) (hq : q a = true) : l.countP p < l.countP q := by
  induction l with
  | nil => simp at ha
  | cons x l ih =>
    have hle : l.countP p ≤ l.countP q :=
      List.countP_mono_left fun y hy => hpq y (List.mem_cons_of_mem _ hy)
    rw [List.countP_cons, List.countP_cons]
    rcases List.mem_cons.1 ha with rfl | ha
    · simp [hp, hq]; omega
    · have := ih (fun y hy => hpq y (List.mem_cons_of_mem _ hy)) ha
      have := hpq x (by simp)
      cases h1 : p x <;> cases h2 : q x <;> simp_all <;> omega

theorem unmarked_mark (env : Env) (live : Live) (d : DeclId) (hd : d < env.decls.length) (h : live d = false) :
    unmarked env (mark live d) < unmarked env live := by
  refine countP_lt _ _ _ (fun x _ hx => ?_) d (List.mem_range.2 hd) (by simp [mark]) (by simp [h])
  simp only [mark] at hx
  split at hx <;> simp_all

/-- The nodes tracing gets to are all right. -/
def Ok (env : Env) (n : Node) : Prop := ∀ m, Reach env n m → NodeOk env m

theorem Ok.part {env : Env} {n m : Node} (h : Ok env n) (hm : m ∈ traced env n) : Ok env m :=
  fun x hx => h x (.head hm hx)

theorem traces_post (env : Env) (ns : List Node) (live : Live)
    (hn : ∀ n ∈ ns, ∀ live1 : Live, (∀ d, live d → live1 d) →
      ∃ live', trace env live1 n = some live' ∧ Post env live1 live' [n]) :
    ∃ live', traces env live ns = some live' ∧ Post env live live' ns := by
  induction ns generalizing live with
  | nil => exact ⟨live, rfl, Post.nil env live⟩
  | cons n ns ih =>
    obtain ⟨l1, e1, p1⟩ := hn n (by simp) live fun _ h => h
    obtain ⟨l2, e2, p2⟩ := ih l1 fun m hm l hl => hn m (List.mem_cons_of_mem _ hm) l fun d hd => hl d (p1.le d hd)
    refine ⟨l2, ?_, p1.append p2⟩
    simp [traces, e1, e2]

theorem trace_post (env : Env) (k s : Nat) : ∀ (n : Node) (live : Live), unmarked env live ≤ k → nodeSize n ≤ s →
    Ok env n → ∃ live', trace env live n = some live' ∧ Post env live live' [n] := by
  induction k using Nat.strongRecOn generalizing s with
  | _ k ihk =>
  induction s using Nat.strongRecOn with
  | _ s ihs =>
  intro n live hk hs hok
  by_cases hn : ∃ d, n = .decl d
  · obtain ⟨d, rfl⟩ := hn
    have hd := hok _ .refl
    rw [trace_decl env live d hd]
    cases hl : live d
    · have hlen : d < env.decls.length := by
        obtain ⟨decl, h, _⟩ := hd
        exact (List.getElem?_eq_some_iff.1 h).1
      have hlt := unmarked_mark env live d hlen hl
      obtain ⟨l', e, p⟩ := traces_post env (traced env (.decl d)) (mark live d) fun m hm l1 hl1 =>
        ihk (unmarked env (mark live d)) (by omega) (nodeSize m) m l1 (unmarked_le env _ _ hl1) (Nat.le_refl _)
          (hok.part hm)
      refine ⟨l', by simpa using e, ?_, ?_, ?_, ?_⟩
      · intro x hx
        exact p.le x (by simp [mark, hx])
      · intro n hn x hx
        simp only [List.mem_singleton] at hn
        subst hn
        cases hx with
        | decl => exact p.le d (by simp [mark])
        | part _ _ _ h _ _ => exact absurd rfl (h d)
      · intro x hx hx' m hm y hy
        by_cases hxd : x = d
        · subst hxd
          exact p.mentioned m hm y hy
        · exact p.closed x hx (by simp [mark, hxd, hx']) m hm y hy
      · intro x hx hx'
        refine ⟨_, List.mem_singleton.2 rfl, ?_⟩
        by_cases hxd : x = d
        · subst hxd; exact .refl
        · obtain ⟨m, hm, hr⟩ := p.reached x hx (by simp [mark, hxd, hx'])
          exact .head hm hr
    · refine ⟨live, by simp, fun _ h => h, ?_, ?_, ?_⟩
      · intro n hn x hx
        simp only [List.mem_singleton] at hn
        subst hn
        cases hx with
        | decl => exact hl
        | part _ _ _ h _ _ => exact absurd rfl (h d)
      · intro x hx hx'
        simp [hx] at hx'
      · intro x hx hx'
        simp [hx] at hx'
  · have hn' : ∀ d, n ≠ .decl d := fun d h => hn ⟨d, h⟩
    rw [trace_parts env live n hn' (hok _ .refl)]
    obtain ⟨l', e, p⟩ := traces_post env (traced env n) live fun m hm l1 hl1 => by
      have hlt := size_lt env n m hn' hm
      exact ihs (nodeSize m) (by omega) m l1 (Nat.le_trans (unmarked_le env _ _ hl1) hk) (Nat.le_refl _) (hok.part hm)
    refine ⟨l', e, p.le, ?_, p.closed, ?_⟩
    · intro n' hn1 x hx
      simp only [List.mem_singleton] at hn1
      subst hn1
      cases hx with
      | decl => exact absurd rfl (hn' _)
      | part _ m _ _ hm hx => exact p.mentioned m hm x hx
    · intro x hx hx'
      obtain ⟨m, hm, hr⟩ := p.reached x hx hx'
      exact ⟨n, List.mem_singleton.2 rfl, .head hm hr⟩

/-- Tracing from nothing marks what is reached. -/
theorem traces_reach (env : Env) (ns : List Node) (h : ∀ n ∈ ns, Ok env n) :
    ∃ live, traces env (fun _ => false) ns = some live ∧
      ∀ d, live d ↔ ∃ n ∈ ns, Reach env n (.decl d) := by
  obtain ⟨l, e, p⟩ := traces_post env ns (fun _ => false) fun n hn l1 _ =>
    trace_post env _ _ n l1 (Nat.le_refl _) (Nat.le_refl _) (h n hn)
  refine ⟨l, e, fun d => ⟨fun hd => p.reached d hd rfl, ?_⟩⟩
  rintro ⟨n, hn, hr⟩
  have key : ∀ m, Reach env n m → ∀ x, Mention env m x → l x := by
    intro m hm
    induction hm with
    | refl => exact fun x hx => p.mentioned n hn x hx
    | @tail a b _ hab ih =>
      intro x hx
      by_cases ha : ∃ d, a = .decl d
      · obtain ⟨d, rfl⟩ := ha
        exact p.closed d (ih d (.decl d)) rfl b hab x hx
      · exact ih x (.part a b x (fun d h => ha ⟨d, h⟩) hab hx)
  exact key _ hr d (.decl d)

end C3.Liveness
