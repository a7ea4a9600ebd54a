import Verif.Flow.LemmasMain

/-!
# C55, C56: deferred statements and the end of a function

`σ` is any type of states and `n` any bound on the rounds of loops, so the theorems speak of everything a run does up to any point.
`PlainSeq` (in `Lemmas.lean`) says that no `if` has both a label and a constant condition; `C55_labelled_constant_if` and
`C56_labelled_constant_if` show that the claims are false for such an `if`.
-/

set_option autoImplicit false

namespace C3.Flow

variable {σ : Type}

/-- How a function is left. -/
def ends : Exit → Option LExit
  | .norm => some .norm
  | .ret f => some (.ret f)
  | .stop => some .stop
  | _ => none

theorem compileFn_some {nonvoid : Bool} {body : Seq σ} {code : LSeq σ} (h : compileFn nonvoid body = some code) :
    ∃ r, compileSeq ⟨[], [], false⟩ 0 false body = some r ∧ r.code = code ∧ (nonvoid = true → r.je = true) := by
  unfold compileFn at h
  simp only [Option.bind_eq_bind, Option.bind_eq_some_iff] at h
  obtain ⟨r, h1, h2⟩ := h
  split at h2
  · cases h2
  · rename_i hj
    simp only [Option.some.injEq] at h2
    refine ⟨r, h1, h2, fun hn => ?_⟩
    subst hn
    simpa using hj

/-- **C55** (partial).  The code of a function that the compiler accepts does exactly what the function does: the same effects in the same
order, with every deferred statement at the exit of its scope whichever way it is left, and the same end.  In particular every jump
has its target in the function.  Missing: an `if` with a label and a constant condition. -/
theorem C55_defers_partial {nonvoid : Bool} {body : Seq σ} {code : LSeq σ} (hp : PlainSeq body = true) (h : compileFn nonvoid body = some code)
    (n : Nat) (s : σ) :
    (lexecSeq n code s).1 = (execSeq n body s).1 ∧ some (lexecSeq n code s).2 = ends (execSeq n body s).2 := by
  obtain ⟨r, h1, h2, _⟩ := compileFn_some h
  have g := compileSeq_good (n := n) (c := ⟨[], [], false⟩) ⟨fun e he => (nomatch he), fun d hd => (nomatch hd)⟩ (Nat.le_refl 0) body hp h1 s
  have ge := g.eq
  have gv := g.valid
  rw [h2] at ge
  rw [ge]
  generalize execSeq n body s = x at gv
  obtain ⟨s1, x⟩ := x
  cases x with
  | brk l => obtain ⟨m, e, h3, _⟩ := gv; simp [findBreak] at h3
  | cont l => obtain ⟨m, e, h3⟩ := gv; simp [findCont] at h3
  | next l k => obtain ⟨m, e, h3⟩ := gv; simp [findNext] at h3
  | norm => simp [finishSeq, context_get_defers, copies, lexecSeq, ends]
  | stop => simp [finishSeq, finish, ends]
  | ret f => simp [finishSeq, finish, context_get_defers, copies, lexecSeq, andThen, ends]

/-- **C55**.  An accepted deferred statement cannot be left by a jump: it comes to its end, or never ends. -/
theorem C55_defer_body_partial {nonvoid : Bool} {k : Kind} {body rest : Seq σ} {code : LSeq σ} (hp : PlainSeq body = true)
    (h : compileFn nonvoid (.cons (.defer k body) rest) = some code) (n : Nat) (s : σ) :
    (execSeq n body s).2 = .norm ∨ (execSeq n body s).2 = .stop := by
  obtain ⟨r, h1, _⟩ := compileFn_some h
  simp only [compileSeq, Option.bind_eq_bind, Option.bind_eq_some_iff] at h1
  obtain ⟨b, h1, _⟩ := h1
  have gv := (compileSeq_good (n := n) (c := ⟨[], [], true⟩) ⟨fun e he => (nomatch he), fun d hd => (nomatch hd)⟩ (Nat.le_refl 0) body hp h1 s).valid
  generalize execSeq n body s = x at gv
  obtain ⟨s1, x⟩ := x
  cases x with
  | brk l => obtain ⟨m, e, h3, _⟩ := gv; simp [findBreak] at h3
  | cont l => obtain ⟨m, e, h3⟩ := gv; simp [findCont] at h3
  | next l k => obtain ⟨m, e, h3⟩ := gv; simp [findNext] at h3
  | ret f => exact absurd gv.1 (by simp)
  | norm => exact Or.inl rfl
  | stop => exact Or.inr rfl

/-- **C56** (partial).  A function with a result that the compiler accepts does not reach its end without a `return`.  Missing: an `if` with
a label and a constant condition. -/
theorem C56_no_missing_return_partial {body : Seq σ} {code : LSeq σ} (hp : PlainSeq body = true) (h : compileFn true body = some code)
    (n : Nat) (s : σ) : (lexecSeq n code s).2 ≠ .norm ∧ (execSeq n body s).2 ≠ .norm := by
  obtain ⟨r, h1, h2, hj⟩ := compileFn_some h
  have g := compileSeq_good (n := n) (c := ⟨[], [], false⟩) ⟨fun e he => (nomatch he), fun d hd => (nomatch hd)⟩ (Nat.le_refl 0) body hp h1 s
  have hne := g.je (hj rfl)
  refine ⟨?_, hne⟩
  rw [← h2, g.eq, finishSeq_of_ne hne]
  exact finish_ne_norm hne

/-- `defer f(); if L: (true) { break L; } g();` -/
def labelledIf (f g : σ → σ) : Seq σ :=
  .cons (.defer .always (.cons (.act f) .nil)) (.cons (.ite (some 0) (.const true) (.cons (.brk (some 0)) .nil) .nil) (.cons (.act g) .nil))

/-- The negation of C55 for an `if` with a label and a constant condition, which `sema_analyse_if_stmt` takes for a jump though a `break`
leads out of it: the function is accepted, should do `g` and then `f`, and does nothing. -/
theorem C55_labelled_constant_if (f g : σ → σ) : ∃ code, compileFn false (labelledIf f g) = some code ∧
    ∀ n s, execSeq n (labelledIf f g) s = (f (g s), .norm) ∧ lexecSeq n code s = (s, .norm) := by
  refine ⟨_, rfl, fun n s => ⟨?_, ?_⟩⟩
  · simp [labelledIf, execSeq, exec, Cond.eval, breaksIf, applies]
  · simp [lexecSeq, lexec, Cond.eval, context_get_defers, copies, andThen, outOfIf, Stmt.isBlock]

/-- The negation of C56: `fn int f() { if L: (true) { break L; } }` is accepted and reaches its end. -/
theorem C56_labelled_constant_if : ∃ code, compileFn true (.cons (.ite (some 0) (.const true) (.cons (.brk (some 0)) .nil) .nil) .nil : Seq σ) = some code ∧
    ∀ n s, lexecSeq n code s = (s, .norm) := by
  refine ⟨_, rfl, fun n s => ?_⟩
  simp [lexecSeq, lexec, Cond.eval, context_get_defers, copies, andThen, outOfIf]

/-! ## Cases -/

/-- A state that records what ran. -/
private def say (k : Nat) : Stmt (List Nat) := .act (· ++ [k])

private def sq : List (Stmt (List Nat)) → Seq (List Nat)
  | [] => .nil
  | s :: l => .cons s (sq l)

/-- `defer 1; defer catch 2; defer try 3; while (running) { defer 4; 5; if (len > 4) break; continue; } 6; return 7 that fails if asked;` -/
private def sample (fails : Bool) : Seq (List Nat) :=
  sq [.defer .always (sq [say 1]), .defer .onCatch (sq [say 2]), .defer .onTry (sq [say 3]),
    .loop none false (.const true) none (sq [.defer .always (sq [say 4]), say 5,
      .ite none (.dyn fun s => (s, decide (s.length > 4))) (sq [.brk none]) .nil, .cont none]),
    say 6, .ret (.opt fun s => (s ++ [7], fails))]

/-- The sample is accepted and meets the hypotheses of C55 and C56. -/
example (b : Bool) : PlainSeq (sample b) = true ∧ (compileFn true (sample b)).isSome = true := by cases b <;> decide +kernel
/-- What it does. -/
example : execSeq 9 (sample false) [] = ([5, 4, 5, 4, 5, 4, 6, 7, 3, 1], .ret false) := by decide
example : execSeq 9 (sample true) [] = ([5, 4, 5, 4, 5, 4, 6, 7, 2, 1], .ret true) := by decide
example : ((compileFn true (sample true)).map fun c => lexecSeq 9 c []) = some ([5, 4, 5, 4, 5, 4, 6, 7, 2, 1], .ret true) := by decide +kernel
/-- A `return` in a `defer` is refused, also deep inside; a macro in it may return. -/
example : compileFn false (sq [.defer .always (sq [.block (sq [.ret .void])])]) = none := by rfl
example : (compileFn false (sq [.defer .always (sq [.inl (sq [.ret .void]) false])])).isSome = true := by rfl
/-- A `break` out of a `defer`, and a missing `return`, are refused. -/
example : compileFn false (sq [.loop none false (.const true) none (sq [.defer .always (sq [.brk none])])]) = none := by rfl
example : compileFn true (sq [.ite none (.dyn fun s => (s, true)) (sq [.ret .void]) .nil]) = none := by rfl

end C3.Flow
