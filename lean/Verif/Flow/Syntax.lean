/-!
# The statements of a function

What the control flow of a function is made of, before and after the analysis of `sema_stmts.c`.  A basic statement is any function
on a state `σ`; conditions, the expressions behind `!` and the selector of a switch are functions that may change the state too.
-/

set_option autoImplicit false

namespace C3.Flow

/-- `defer`, `defer try`, `defer catch`: `is_try` and `is_catch` of `AstDeferStmt`, compiler_internal.h 1324–1331. -/
inductive Kind where
  | always
  | onTry
  | onCatch
  deriving DecidableEq

/-- A condition: a constant (`COND_TRUE`, `COND_FALSE`), or computed at run time (`COND_MISSING`).  A missing condition of a `for` is a
constant `true`. -/
inductive Cond (σ : Type) where
  | const (b : Bool)
  | dyn (f : σ → σ × Bool)

def Cond.eval {σ : Type} : Cond σ → σ → σ × Bool
  | .const b, s => (s, b)
  | .dyn f, s => f s

/-- What is returned: nothing, a value, or an optional (true: it failed). -/
inductive Ret (σ : Type) where
  | void
  | plain (f : σ → σ)
  | opt (f : σ → σ × Bool)

mutual

/-- A statement.  Bodies are compound statements: a single statement stands for the compound of it alone.  A missing `else` is an empty
one.  Labels are numbers. -/
inductive Stmt (σ : Type) where
  /-- An expression statement or a declaration. -/
  | act (f : σ → σ)
  /-- A call of a `@noreturn` function. -/
  | noreturn (f : σ → σ)
  /-- `f()!;` -/
  | rethrow (f : σ → σ × Bool)
  /-- `FAULT?!;` -/
  | throw
  | ret (r : Ret σ)
  | block (body : Seq σ)
  | ite (label : Option Nat) (c : Cond σ) (t e : Seq σ)
  /-- `while`, `for` (`init` is a statement before it), and `do` (`skip_first`). -/
  | loop (label : Option Nat) (skip_first : Bool) (c : Cond σ) (incr : Option (σ → σ)) (body : Seq σ)
  /-- `sel` gives the number of the case that matches, or a number beyond the last; `dflt` is the number of `default`. -/
  | switch (label : Option Nat) (sel : σ → σ × Nat) (dflt : Option Nat) (cases : Cases σ)
  | brk (label : Option Nat)
  | cont (label : Option Nat)
  /-- `nextcase` to the case of that number. -/
  | next (label : Option Nat) (k : Nat)
  | defer (k : Kind) (body : Seq σ)
  /-- `@m();` and, with `bang`, `@m()!;` for a macro with that body. -/
  | inl (body : Seq σ) (bang : Bool)

inductive Seq (σ : Type) where
  | nil
  | cons (s : Stmt σ) (rest : Seq σ)

inductive Cases (σ : Type) where
  | nil
  | cons (body : Seq σ) (rest : Cases σ)

end

def Cases.length {σ : Type} : Cases σ → Nat
  | .nil => 0
  | .cons _ r => r.length + 1

/-! ## After the analysis

Jumps name their target by the number of `if`, loop and `switch` statements between them, and carry the statements to run before the
jump: `contbreak_stmt.defers`, `nextcase_stmt.defer_id`, `return_stmt.cleanup` and `cleanup_fail`, `rethrow_expr.cleanup`. -/

mutual

inductive LStmt (σ : Type) where
  | nop
  | act (f : σ → σ)
  | noreturn (f : σ → σ)
  | rethrow (f : σ → σ × Bool) (cleanup : LSeq σ)
  | throw (cleanup : LSeq σ)
  | ret (r : Ret σ) (cleanup cleanup_fail : LSeq σ)
  | block (body : LSeq σ)
  | ite (c : Cond σ) (t e : LSeq σ)
  | loop (skip_first : Bool) (c : Cond σ) (incr : Option (σ → σ)) (body : LSeq σ)
  | switch (sel : σ → σ × Nat) (dflt : Option Nat) (cases : LCases σ)
  | brk (n : Nat) (defers : LSeq σ)
  | cont (n : Nat) (defers : LSeq σ)
  | next (n k : Nat) (defers : LSeq σ)
  | inl (body : LSeq σ) (bang : Bool) (cleanup : LSeq σ)

inductive LSeq (σ : Type) where
  | nil
  | cons (s : LStmt σ) (rest : LSeq σ)

inductive LCases (σ : Type) where
  | nil
  | cons (body : LSeq σ) (rest : LCases σ)

end

/-! ## Loops and switches, of either kind of statement

`n` bounds the number of rounds; when it runs out the result is `stop`. -/

section
variable {σ E : Type}

/-- The rounds of a loop.  `isBreak`: the body left the loop; `goesOn`: the body ended or continued. -/
def loopFrom (stop norm : E) (isBreak goesOn : E → Bool) (test : σ → σ × Bool) (body : σ → σ × E) (incr : σ → σ) : Nat → Bool → σ → σ × E
  | 0, _, s => (s, stop)
  | n + 1, skip, s =>
    let (s, b) := if skip then (s, true) else test s
    if b then
      let (s, x) := body s
      if isBreak x then (s, norm) else if goesOn x then loopFrom stop norm isBreak goesOn test body incr n false (incr s) else (s, x)
    else (s, norm)

/-- The cases of a switch, from case `k` on.  `isNext`: the body jumped to another case. -/
def caseFrom (stop norm : E) (isBreak : E → Bool) (isNext : E → Option Nat) (bodies : List (σ → σ × E)) : Nat → Nat → σ → σ × E
  | 0, _, s => (s, stop)
  | n + 1, k, s =>
    match bodies[k]? with
    | none => (s, norm)
    | some body =>
      let (s, x) := body s
      if isBreak x then (s, norm)
      else
        match isNext x with
        | some k => caseFrom stop norm isBreak isNext bodies n k s
        | none => (s, x)

/-- The case that is selected; a number beyond the last if there is none. -/
def selected (dflt : Option Nat) (n i : Nat) : Nat := if i < n then i else dflt.getD n

end

end C3.Flow
