import Verif.Flow.Syntax

/-!
# What a function does

The meaning of statements, with `defer` as the language defines it: a deferred statement runs when the scope it stands in is left, in
whatever way, after what was deferred later; `defer try` only if the scope is not left with a fault, `defer catch` only if it is.
-/

set_option autoImplicit false

namespace C3.Flow

variable {σ : Type}

/-- How a statement was left.  `stop`: it was not; a `@noreturn` function was called, or the bound on the rounds of loops ran out. -/
inductive Exit where
  | norm
  | brk (label : Option Nat)
  | cont (label : Option Nat)
  | next (label : Option Nat) (k : Nat)
  | ret (failed : Bool)
  | stop
  deriving DecidableEq

/-- Does a deferred statement run on this exit? -/
def applies : Kind → Exit → Bool
  | _, .stop => false
  | .always, _ => true
  | .onTry, x => x != .ret true
  | .onCatch, x => x == .ret true

/-- A `break` that leaves an `if` of this label: only one that names it. -/
def breaksIf (label : Option Nat) : Exit → Bool
  | .brk (some l) => label == some l
  | _ => false

/-- A `break` that leaves a loop or switch of this label: also one without a label. -/
def breaks (label : Option Nat) : Exit → Bool
  | .brk none => true
  | .brk (some l) => label == some l
  | _ => false

/-- The next round of a loop follows. -/
def goesOn (label : Option Nat) : Exit → Bool
  | .norm => true
  | .cont none => true
  | .cont (some l) => label == some l
  | _ => false

/-- The case that follows. -/
def nextOf (label : Option Nat) : Exit → Option Nat
  | .next none k => some k
  | .next (some l) k => if label == some l then some k else none
  | _ => none

/-- What follows a macro: its fault is passed on with `!`, and dropped without. -/
def afterMacro (bang : Bool) : Exit → Exit
  | .ret true => if bang then .ret true else .norm
  | .ret false => .norm
  | x => x

mutual

/-- One statement; `n` bounds the rounds of every loop. -/
def exec (n : Nat) : Stmt σ → σ → σ × Exit
  | .act f, s => (f s, .norm)
  | .noreturn f, s => (f s, .stop)
  | .rethrow f, s => ((f s).1, if (f s).2 then .ret true else .norm)
  | .throw, s => (s, .ret true)
  | .ret .void, s => (s, .ret false)
  | .ret (.plain f), s => (f s, .ret false)
  | .ret (.opt f), s => ((f s).1, .ret (f s).2)
  | .block body, s => execSeq n body s
  | .ite label c t e, s =>
    let r := if (c.eval s).2 then execSeq n t (c.eval s).1 else execSeq n e (c.eval s).1
    (r.1, if breaksIf label r.2 then .norm else r.2)
  | .loop label skip c incr body, s =>
    loopFrom .stop .norm (breaks label) (goesOn label) c.eval (execSeq n body) (incr.getD id) n skip s
  | .switch label sel dflt cases, s =>
    caseFrom .stop .norm (breaks label) (nextOf label) (execCases n cases) n (selected dflt cases.length (sel s).2) (sel s).1
  | .brk l, s => (s, .brk l)
  | .cont l, s => (s, .cont l)
  | .next l k, s => (s, .next l k)
  | .defer _ _, s => (s, .norm)
  | .inl body bang, s => ((execSeq n body s).1, afterMacro bang (execSeq n body s).2)

/-- The statements of a scope.  What is deferred runs after the rest of the scope. -/
def execSeq (n : Nat) : Seq σ → σ → σ × Exit
  | .nil, s => (s, .norm)
  | .cons (.defer k body) rest, s =>
    let r := execSeq n rest s
    if applies k r.2 then
      let d := execSeq n body r.1
      if d.2 = .norm then (d.1, r.2) else d
    else r
  | .cons st rest, s =>
    let r := exec n st s
    if r.2 = .norm then execSeq n rest r.1 else r

def execCases (n : Nat) : Cases σ → List (σ → σ × Exit)
  | .nil => []
  | .cons body rest => execSeq n body :: execCases n rest

end

end C3.Flow
