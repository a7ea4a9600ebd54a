import Mathlib.Logic.Relation

/-!
# Model of the task queue, `src/utils/taskqueue.c` 7–51 (the pthread version)

A transition system: any thread may make the next step.  The mutex gives exclusive access; memory is
sequentially consistent, which is what pthreads guarantee for programs without data races (that there
are none is `C22_exclusive`).  Failure of `pthread_create`, `pthread_join` or `malloc` ends the program
and is not modelled.  A task that has been started may finish at any later time; tasks that never return
or that stop the program are not modelled.  The vector of tasks is the list it holds (C20).
-/

set_option autoImplicit false

namespace C3.TaskQueue

/-- Where a worker is in `taskqueue_thread`, taskqueue.c 16–33. -/
inductive PC (α : Type) where
  /-- `pthread_create` has not been called yet -/
  | notCreated
  /-- line 21: about to take the lock -/
  | locking
  /-- line 22: about to read the size -/
  | counting
  /-- line 24: the size read was `n`, about to read element `n - 1` -/
  | reading (n : Nat)
  /-- line 25: about to decrement the size -/
  | popping (t : α)
  /-- line 26: about to release the lock -/
  | unlocking (t : α)
  /-- line 27: inside the task -/
  | running (t : α)
  /-- line 30: found the queue empty, about to release the lock -/
  | leaving
  /-- line 31 -/
  | exited
deriving Repr, DecidableEq

/-- Where the main thread is in `taskqueue_run`, taskqueue.c 35–51. -/
inductive Main where
  /-- about to create worker `k` -/
  | creating (k : Nat)
  /-- about to join worker `k` -/
  | joining (k : Nat)
  | returned
deriving Repr, DecidableEq

/-- `fault` records a failed assertion or an access outside the vector; `started` and `finished` list the
tasks in the order in which their calls began and ended. -/
structure State (α : Type) where
  main : Main
  pcs : List (PC α)
  lock : Option Nat
  queue : List α
  started : List α
  finished : List α
  fault : Bool
deriving Repr

/-- The call `taskqueue_run(n, tasks)`. -/
def init {α : Type} (n : Nat) (tasks : List α) : State α :=
  ⟨.creating 0, List.replicate n .notCreated, none, tasks, [], [], false⟩

/-- One step of one thread. -/
inductive Step {α : Type} : State α → State α → Prop
  /-- taskqueue.c 41–44 -/
  | create (s : State α) (k : Nat) (hm : s.main = .creating k) (hk : k < s.pcs.length) :
      Step s { s with main := .creating (k + 1), pcs := s.pcs.set k .locking }
  | created (s : State α) (hm : s.main = .creating s.pcs.length) : Step s { s with main := .joining 0 }
  /-- taskqueue.c 45–48: waits for the worker's exit -/
  | join (s : State α) (k : Nat) (hm : s.main = .joining k) (hk : s.pcs[k]? = some .exited) :
      Step s { s with main := .joining (k + 1) }
  | joined (s : State α) (hm : s.main = .joining s.pcs.length) : Step s { s with main := .returned }
  | lock (s : State α) (i : Nat) (hp : s.pcs[i]? = some .locking) (hl : s.lock = none) :
      Step s { s with pcs := s.pcs.set i .counting, lock := some i }
  | countEmpty (s : State α) (i : Nat) (hp : s.pcs[i]? = some .counting) (hq : s.queue.length = 0) :
      Step s { s with pcs := s.pcs.set i .leaving }
  | count (s : State α) (i : Nat) (hp : s.pcs[i]? = some .counting) (hq : s.queue.length ≠ 0) :
      Step s { s with pcs := s.pcs.set i (.reading s.queue.length) }
  | read (s : State α) (i n : Nat) (t : α) (hp : s.pcs[i]? = some (.reading n)) (hq : s.queue[n - 1]? = some t) :
      Step s { s with pcs := s.pcs.set i (.popping t) }
  | readFault (s : State α) (i n : Nat) (hp : s.pcs[i]? = some (.reading n)) (hq : s.queue[n - 1]? = none) :
      Step s { s with fault := true }
  /-- `vec_pop`, lib.h 279–285 -/
  | pop (s : State α) (i : Nat) (t : α) (hp : s.pcs[i]? = some (.popping t)) (hq : s.queue.length ≠ 0) :
      Step s { s with pcs := s.pcs.set i (.unlocking t), queue := s.queue.dropLast }
  | popFault (s : State α) (i : Nat) (t : α) (hp : s.pcs[i]? = some (.popping t)) (hq : s.queue.length = 0) :
      Step s { s with fault := true }
  | unlock (s : State α) (i : Nat) (t : α) (hp : s.pcs[i]? = some (.unlocking t)) :
      Step s { s with pcs := s.pcs.set i (.running t), lock := none, started := s.started ++ [t] }
  | finish (s : State α) (i : Nat) (t : α) (hp : s.pcs[i]? = some (.running t)) :
      Step s { s with pcs := s.pcs.set i .locking, finished := s.finished ++ [t] }
  | leave (s : State α) (i : Nat) (hp : s.pcs[i]? = some .leaving) :
      Step s { s with pcs := s.pcs.set i .exited, lock := none }

/-- One step of the Windows version, taskqueue.c 64–103: as before, but the main thread waits for all
workers in one call of `WaitForMultipleObjects`, whose result it ignores.  That call fails at once if
there are more than 64 handles (`MAXIMUM_WAIT_OBJECTS`). -/
inductive StepWin {α : Type} : State α → State α → Prop
  | other (s t : State α) (h : Step s t) (hm : ∀ k, s.main = .joining k → t.main = s.main) : StepWin s t
  | wait (s : State α) (hm : s.main = .joining 0) (hn : s.pcs.length ≤ 64) (he : ∀ p ∈ s.pcs, p = .exited) :
      StepWin s { s with main := .returned }
  | waitFailed (s : State α) (hm : s.main = .joining 0) (hn : 64 < s.pcs.length) : StepWin s { s with main := .returned }

/-- An execution of the Windows version. -/
inductive ExecWin {α : Type} : State α → State α → Prop
  | refl (s : State α) : ExecWin s s
  | step {s t u : State α} (h : ExecWin s t) (h2 : StepWin t u) : ExecWin s u

/-- An execution of `k` steps. -/
inductive Exec {α : Type} : State α → Nat → State α → Prop
  | refl (s : State α) : Exec s 0 s
  | step {s t u : State α} {k : Nat} (h : Exec s k t) (h2 : Step t u) : Exec s (k + 1) u

end C3.TaskQueue
