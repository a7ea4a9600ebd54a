set_option autoImplicit false

/-! Model of the thread pools of the standard library, lib/std/threads/pool.c3 (`ThreadPool`) and lib/std/threads/fixed_pool.c3
(`FixedThreadPool`).

Everything the pools do to their data they do with the mutex held, so the steps of the model are the sections between taking and
giving back the mutex (or going to sleep on the condition variable, which gives it back too), in any order the scheduler likes.
Not modelled: failing mutexes and condition variables. A job is a number, the position of its `push` among all that were accepted;
its code may end at any time, never, or call `push` itself. The arguments of jobs of the fixed pool are modelled as one allocation,
freed or not. Line numbers: pool.c3 / fixed_pool.c3. -/

namespace C3.Pool

/-- Which pool, and the size of its queue (`SIZE` / `queue.len`). -/
structure Cfg where
  fixed : Bool
  cap : Nat
deriving DecidableEq, Repr

/-- The members (4-18 / 11-24) that the mutex protects; `slots` is `queue`. -/
structure Pool where
  slots : Nat → Nat
  qindex : Nat
  numThreads : Nat
  stop : Bool
  stopNow : Bool

/-- Where a thread is in `process_work` (106-137 / 131-170). -/
inductive Thread where
  /-- before `self.mu.lock()` at the head of the loop (111 / 136) -/
  | outside
  /-- in `self.notify.wait` (122 / 154), not yet notified -/
  | asleep
  /-- in `self.notify.wait`, notified, about to take the mutex again -/
  | woken
  /-- in `item.func` (135 / 168), outside of `push` -/
  | running (job : Nat)
  /-- in `item.func`, in a call of `push` on the same pool -/
  | pushing (job : Nat)
  /-- returned (120, 128 / 142, 151, 159) -/
  | exited
deriving DecidableEq, Repr

/-- Whether `destroy` or `stop_and_destroy` was called, and whether it has returned. -/
inductive Phase where
  | working | closing | closed
deriving DecidableEq, Repr

/-- A pool in use: its threads, the number of accepted jobs, the jobs that are done, those whose arguments were freed. -/
structure Sys where
  pool : Pool
  threads : List Thread
  phase : Phase
  next : Nat
  finished : List Nat
  freed : List Nat

/-- `init` (29-41 / 37-56) when `created` of the `n` threads could be made: `num_threads` is set to `n` before. If not all could
be made, `init` goes on to call `destroy` (31 / 40) - here as in the good case `shutdown` is a step of its own. -/
def start (n created : Nat) : Sys :=
  ⟨⟨fun _ => 0, 0, n, false, false⟩, List.replicate created .outside, .working, 0, [], []⟩

/-- A thread that is notified. -/
def Thread.notify : Thread → Thread
  | .asleep => .woken
  | t => t

/-- What a thread does from the time it has the mutex until it gives it back: (111-134 / 136-166) from the head of the loop, or from
the return of `wait` (123-134 / 155-166) if it was asleep. The result is the place it is in then. -/
def work (c : Cfg) (woken : Bool) (p : Pool) : Pool × Thread :=
  -- 123-129 / 137-143, 155-161: only the fixed pool looks at `stop_now` at the head of the loop
  if (woken || c.fixed) && p.stopNow then ({ p with numThreads := p.numThreads - 1 }, .exited)
  -- 113-122 / 145-154
  else if p.qindex = 0 then
    if p.stop then ({ p with numThreads := p.numThreads - 1 }, .exited) else (p, .asleep)
  -- 132-133 / 164-165
  else ({ p with qindex := p.qindex - 1 }, .running (p.slots (p.qindex - 1)))

/-- One round of `push` (93-103 / 112-128) with the mutex held. `none`: the queue is full; the fixed pool then returns
`THREAD_QUEUE_FULL`, the other one tries again. The fixed pool compares with `==` (114); `qindex` is never greater. -/
def accept (c : Cfg) (p : Pool) (job : Nat) : Option Pool :=
  if p.qindex < c.cap then
    some { p with slots := fun i => if i = p.qindex then job else p.slots i, qindex := p.qindex + 1 }
  else none

/-- What may happen next. -/
inductive Event where
  /-- a round of `push` by somebody who is not a thread of the pool -/
  | push
  /-- the job of thread `i` calls `push` -/
  | call (i : Nat)
  /-- a round of `push` by the job of thread `i` -/
  | callPush (i : Nat)
  /-- thread `i` takes the mutex -/
  | work (i : Nat)
  /-- the job of thread `i` ends -/
  | finish (i : Nat)
  /-- thread `i` is woken for no reason, which condition variables allow -/
  | wake (i : Nat)
  /-- `destroy` (47-50 / 62-65) if `now`, else `stop_and_destroy` (56-59 / 71-74), up to the loop -/
  | shutdown (now : Bool)
  /-- a round of the loop of `@shutdown` (70-79 / 85-94); `i` is the thread that `signal` wakes, if any sleeps -/
  | poll (i : Option Nat)
deriving DecidableEq, Repr

/-- `accept` and what follows from it: the broadcast (100 / 128). -/
def pushed (c : Cfg) (s : Sys) : Option Sys :=
  match accept c s.pool s.next with
  | none => none
  | some p => some { s with pool := p, threads := s.threads.map Thread.notify, next := s.next + 1 }

/-- The end of `@shutdown` (80-81 / 95-102): the fixed pool frees what is in the queue. -/
def close (c : Cfg) (s : Sys) : Sys :=
  if c.fixed then
    { s with pool := { s.pool with qindex := 0 }, phase := .closed,
             freed := s.freed ++ (List.range s.pool.qindex).reverse.map s.pool.slots }
  else { s with phase := .closed }

/-- The state after an event, `none` if it can not happen. After `@shutdown` has returned the mutex is destroyed, and calls from
outside are errors of the program; a second thread that calls `@shutdown` meanwhile is left out, and so is a job that calls it. -/
def step (c : Cfg) (s : Sys) : Event → Option Sys
  | .push => if s.phase = .closed then none else some ((pushed c s).getD s)
  | .call i =>
    match s.threads[i]? with
    | some (.running j) => some { s with threads := s.threads.set i (.pushing j) }
    | _ => none
  | .callPush i =>
    match s.threads[i]? with
    | some (.pushing j) =>
      match pushed c s with
      | some s => some { s with threads := s.threads.set i (.running j) }
      | none => if c.fixed then some { s with threads := s.threads.set i (.running j) } else some s
    | _ => none
  | .work i =>
    match s.threads[i]? with
    | some .outside => some { s with pool := (work c false s.pool).1, threads := s.threads.set i (work c false s.pool).2 }
    | some .woken => some { s with pool := (work c true s.pool).1, threads := s.threads.set i (work c true s.pool).2 }
    | _ => none
  | .finish i =>
    match s.threads[i]? with
    | some (.running j) =>
      some { s with threads := s.threads.set i .outside, finished := s.finished ++ [j],
                    freed := if c.fixed then s.freed ++ [j] else s.freed }
    | _ => none
  | .wake i =>
    match s.threads[i]? with
    | some .asleep => some { s with threads := s.threads.set i .woken }
    | _ => none
  | .shutdown now =>
    if s.phase = .working then
      some { s with pool := if now then { s.pool with stopNow := true } else { s.pool with stop := true },
                    threads := s.threads.map Thread.notify, phase := .closing }
    else none
  | .poll i =>
    if s.phase = .closing then
      if s.pool.numThreads = 0 then some (close c s)
      else match i with
        | none => if Thread.asleep ∈ s.threads then none else some s
        | some i =>
          match s.threads[i]? with
          | some .asleep => some { s with threads := s.threads.set i .woken }
          | _ => none
    else none

/-- Any number of events. -/
inductive Steps (c : Cfg) : Sys → Sys → Prop where
  | refl (s : Sys) : Steps c s s
  | tail {s t u : Sys} (e : Event) : Steps c s t → step c t e = some u → Steps c s u

end C3.Pool
