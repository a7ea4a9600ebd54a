import Verif.Pool.Model

set_option autoImplicit false

/-! What is asked of a thread pool. -/

namespace C3.Pool

/-- The jobs that wait in the queue. -/
def waiting (s : Sys) : List Nat := (List.range s.pool.qindex).map s.pool.slots

/-- The job a thread works on. -/
def Thread.job : Thread → Option Nat
  | .running j => some j
  | .pushing j => some j
  | _ => none

/-- The jobs that threads work on. -/
def inWork (s : Sys) : List Nat := s.threads.filterMap Thread.job

/-- A state of a pool of `n` threads, of which `created` could be made. -/
def Reachable (c : Cfg) (n created : Nat) (s : Sys) : Prop := Steps c (start n created) s

/-- All threads have returned. -/
def AllExited (s : Sys) : Prop := ∀ t ∈ s.threads, t = .exited

end C3.Pool
