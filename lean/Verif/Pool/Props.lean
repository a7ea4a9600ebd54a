import Verif.Pool.LemmasStop

set_option autoImplicit false

/-! Properties C153-C158: the thread pools of the standard library. -/

namespace C3.Pool

theorem count_waiting (s : Sys) (j : Nat) : (waiting s).count j = (queued s.pool.slots s.pool.qindex).count j := rfl

/-- Runs the events, for the examples. -/
def run (c : Cfg) (s : Sys) : List Event → Option Sys
  | [] => some s
  | e :: l => match step c s e with
    | none => none
    | some t => run c t l

theorem run_steps {c : Cfg} {s t : Sys} {l : List Event} (h : run c s l = some t) : Steps c s t := by
  induction l generalizing s with
  | nil => rw [← Option.some.inj h]; exact .refl s
  | cons e l ih =>
    unfold run at h
    split at h
    · simp at h
    · rename_i u hu
      exact (Steps.tail e (.refl s) hu).trans (ih h)

/-- Of every pushed job, exactly one of these holds: it waits, one thread works on it, or it is done - until `destroy` returns. -/
theorem C153_once {c : Cfg} {n created : Nat} {s : Sys} (hk : created ≤ n) (h : Reachable c n created s) (ho : s.phase ≠ .closed) :
    (waiting s ++ inWork s ++ s.finished).Perm (List.range s.next) := by
  have v := reachable_inv hk h
  rw [List.perm_iff_count]
  intro j
  rw [List.count_append, List.count_append, count_waiting, show inWork s = s.threads.filterMap Thread.job from rfl, count_inWork]
  have := v.once ho j
  rw [this, List.count_range]

/-- At no time, not even later, a job is worked on that was done, that another thread works on, or that nobody pushed. -/
theorem C153_most {c : Cfg} {n created : Nat} {s : Sys} (hk : created ≤ n) (h : Reachable c n created s) :
    (inWork s ++ s.finished).Nodup ∧ ∀ j ∈ inWork s ++ s.finished, j < s.next := by
  have v := reachable_inv hk h
  have hm : ∀ j, (inWork s ++ s.finished).count j ≤ if j < s.next then 1 else 0 := by
    intro j
    rw [List.count_append, show inWork s = s.threads.filterMap Thread.job from rfl, count_inWork]
    exact v.most j
  constructor
  · rw [List.nodup_iff_count]
    intro j
    have := hm j
    split at this <;> omega
  · intro j hj
    have h1 := List.count_pos_iff.2 hj
    have := hm j
    split at this
    · assumption
    · omega

/-- No wake-up is lost: while a job waits no thread sleeps. -/
theorem C154_awake {c : Cfg} {n created : Nat} {s : Sys} (hk : created ≤ n) (h : Reachable c n created s) (hw : waiting s ≠ []) :
    Thread.asleep ∉ s.threads := by
  have v := reachable_inv hk h
  refine v.awake fun h0 => hw ?_
  unfold waiting; rw [h0]; rfl

/-- And, unless `destroy` was called, every thread that is not in a job takes a job as soon as it gets the mutex. -/
theorem C154_taken {c : Cfg} {n created : Nat} {s : Sys} {i : Nat} {t : Thread} (hk : created ≤ n) (h : Reachable c n created s)
    (hw : waiting s ≠ []) (hn : s.pool.stopNow = false) (ht : s.threads[i]? = some t) (hj : t.job = none) (hx : t ≠ .exited) :
    ∃ u j, step c s (.work i) = some u ∧ u.threads = s.threads.set i (.running j) ∧ j ∈ waiting s ∧
      (waiting s).Perm (j :: waiting u) := by
  have hq : s.pool.qindex ≠ 0 := by
    intro h0; apply hw; unfold waiting; rw [h0]; rfl
  have ha := C154_awake hk h hw
  have hwk : ∀ w, work c w s.pool = ({ s.pool with qindex := s.pool.qindex - 1 }, .running (s.pool.slots (s.pool.qindex - 1))) := by
    intro w; unfold work; rw [if_neg (by rw [hn]; simp), if_neg hq]
  have hl : waiting s = waiting { s with pool := { s.pool with qindex := s.pool.qindex - 1 } } ++ [s.pool.slots (s.pool.qindex - 1)] := by
    show (List.range s.pool.qindex).map s.pool.slots = (List.range (s.pool.qindex - 1)).map s.pool.slots ++ [_]
    have e : List.range s.pool.qindex = List.range (s.pool.qindex - 1) ++ [s.pool.qindex - 1] := by
      rw [← List.range_succ]; congr 1; omega
    rw [e, List.map_append]; rfl
  refine ⟨{ s with pool := { s.pool with qindex := s.pool.qindex - 1 },
                   threads := s.threads.set i (.running (s.pool.slots (s.pool.qindex - 1))) }, s.pool.slots (s.pool.qindex - 1),
          ?_, rfl, ?_, ?_⟩
  · have := List.mem_of_getElem? ht
    simp only [step]
    rw [ht]
    cases t with
    | outside => simp only [hwk]
    | woken => simp only [hwk]
    | asleep => exact absurd this ha
    | running j => simp [Thread.job] at hj
    | pushing j => simp [Thread.job] at hj
    | exited => exact absurd rfl hx
  · rw [hl]; simp
  · rw [hl]
    exact List.perm_append_comm

/-- Every job that is pushed before the last thread has returned is done when `stop_and_destroy` returns, also if it is pushed by
another job, or during `stop_and_destroy`. -/
theorem C155_drained {c : Cfg} {n created : Nat} {s t u : Sys} {e : Event} (hk : created ≤ n) (h : Reachable c n created s)
    (hs : step c s e = some t) (hpush : t.next = s.next + 1) (halive : ¬ AllExited s) (hu : Steps c t u)
    (hc : u.phase = .closed) (hn : u.pool.stopNow = false) : s.next ∈ u.finished := by
  have v : Inv c (n - created) t := reachable_inv hk (.tail e h hs)
  have ht := step_next hs hpush (not_allExited halive)
  have m := steps_micros v hu
  have := served_micros v m.1 hn (j := s.next) ⟨by omega, Or.inl ht⟩
  rcases this.2 with ⟨x, hx, hy⟩ | h
  · exact absurd (m.2.allExited hc x hx) hy
  · exact h

/-- Full statement of C156: once `destroy` is called no thread starts a job. -/
def C156_full (c : Cfg) (n : Nat) : Prop :=
  ∀ s t, Reachable c n n s → s.pool.stopNow = true → Steps c s t → ∀ j ∈ inWork t ++ t.finished, j ∈ inWork s ++ s.finished

/-- The fixed pool does so. -/
theorem C156_fixed (cap n : Nat) : C156_full ⟨true, cap⟩ n := by
  intro s t h hn hs j hj
  have v := reachable_inv (Nat.le_refl n) h
  have m := steps_micros v hs
  have := (now_micros rfl hn m.1).2 j
  rw [← List.count_pos_iff] at hj ⊢
  rw [List.count_append, show ∀ s, inWork s = s.threads.filterMap Thread.job from fun _ => rfl, count_inWork] at hj ⊢
  omega

/-- The other one does not, whatever its size: a thread that comes from a job does not look at `stop_now`. -/
theorem C156_fails (size : Nat) : ¬ C156_full ⟨false, size + 1⟩ (size + 1) := by
  intro h
  let c : Cfg := ⟨false, size + 1⟩
  let rest := List.replicate size Thread.outside
  -- job 0 is taken, job 1 is pushed, `destroy` is called, job 0 ends, job 1 is taken
  let s0 := start (size + 1) (size + 1)
  let f1 : Nat → Nat := fun i => if i = 0 then 0 else 0
  let f2 : Nat → Nat := fun i => if i = 0 then 1 else f1 i
  have hm : rest.map Thread.notify = rest := by simp [rest, Thread.notify]
  let s1 : Sys := ⟨⟨f1, 1, size + 1, false, false⟩, .outside :: rest, .working, 1, [], []⟩
  let s2 : Sys := ⟨⟨f1, 0, size + 1, false, false⟩, .running 0 :: rest, .working, 1, [], []⟩
  let s3 : Sys := ⟨⟨f2, 1, size + 1, false, false⟩, .running 0 :: rest, .working, 2, [], []⟩
  let s4 : Sys := ⟨⟨f2, 1, size + 1, false, true⟩, .running 0 :: rest, .closing, 2, [], []⟩
  let s5 : Sys := ⟨⟨f2, 1, size + 1, false, true⟩, .outside :: rest, .closing, 2, [0], []⟩
  let s6 : Sys := ⟨⟨f2, 0, size + 1, false, true⟩, .running 1 :: rest, .closing, 2, [0], []⟩
  have e1 : step c s0 .push = some s1 := by
    simp [step, pushed, accept, c, s0, s1, start, List.replicate_succ, Thread.notify, rest, f1]
  have e2 : step c s1 (.work 0) = some s2 := by simp [step, work, c, s1, s2, f1]
  have e3 : step c s2 .push = some s3 := by
    simp [step, pushed, accept, c, s2, s3, Thread.notify, hm, f2]
  have e4 : step c s3 (.shutdown true) = some s4 := by simp [step, s3, s4, Thread.notify, hm]
  have e5 : step c s4 (.finish 0) = some s5 := by simp [step, c, s4, s5]
  have e6 : step c s5 (.work 0) = some s6 := by simp [step, work, c, s5, s6, f2]
  have r4 : Reachable c (size + 1) (size + 1) s4 := .tail _ (.tail _ (.tail _ (.tail _ (.refl _) e1) e2) e3) e4
  have := h s4 s6 r4 rfl (.tail _ (.tail _ (.refl _) e5) e6) 1 (by simp [inWork, s6, Thread.job])
  have hr : ∀ m, (List.replicate m Thread.outside).filterMap Thread.job = [] := by
    intro m
    induction m with
    | zero => rfl
    | succ m ih => rw [List.replicate_succ]; exact ih
  have hw : inWork s4 ++ s4.finished = [0] := by
    show (0 :: rest.filterMap Thread.job) ++ [] = [0]
    rw [hr]; rfl
  rw [hw] at this
  simp at this

/-- What holds of both: a thread that waits for work when `destroy` is called never works on a job again. -/
theorem C156_partial {c : Cfg} {n created : Nat} {s t : Sys} {i : Nat} (hk : created ≤ n) (h : Reachable c n created s)
    (hn : s.pool.stopNow = true) (hi : s.threads[i]? = some .asleep ∨ s.threads[i]? = some .woken) (ht : Steps c s t) :
    ∃ x, t.threads[i]? = some x ∧ x.job = none := by
  have v := reachable_inv hk h
  have := idle_micros (steps_micros v ht).1 (i := i) ⟨hn, by
    rcases hi with h | h
    · exact Or.inl h
    · exact Or.inr (Or.inl h)⟩
  rcases this.2 with h | h | h
  · exact ⟨_, h, rfl⟩
  · exact ⟨_, h, rfl⟩
  · exact ⟨_, h, rfl⟩

/-- When `destroy` or `stop_and_destroy` returns all threads have returned, so that the mutex is not used any more. -/
theorem C157_quiet {c : Cfg} {n created : Nat} {s : Sys} (hk : created ≤ n) (h : Reachable c n created s) (hc : s.phase = .closed) :
    AllExited s :=
  (reachable_inv hk h).allExited hc

/-- Full statement of C157: `destroy` and `stop_and_destroy` can always return, if jobs end. -/
def C157_full (c : Cfg) (n created : Nat) : Prop :=
  ∀ s, Reachable c n created s → s.phase = .closing → ∃ t, Steps c s t ∧ t.phase = .closed

/-- The fixed pool does so, if all threads could be made. -/
theorem C157_fixed (cap n : Nat) : C157_full ⟨true, cap⟩ n n := by
  intro s h hp
  have v : Inv ⟨true, cap⟩ 0 s := by have := reachable_inv (Nat.le_refl n) h; rwa [Nat.sub_self] at this
  exact shutdown_ends _ s v ⟨hp, v.flags.2 (by rw [hp]; simp), Or.inl rfl⟩ rfl

/-- Neither pool does if a thread could not be made: `init` then does not fail, it hangs. -/
theorem C157_init_fails (c : Cfg) {n created : Nat} (hk : created < n) : ¬ C157_full c n created := by
  intro h
  have h1 : step c (start n created) (.shutdown true) = some _ := rfl
  obtain ⟨t, ht, hc⟩ := h _ (.tail (.shutdown true) (.refl _) h1) rfl
  have v : Inv c (n - created) t := reachable_inv (Nat.le_of_lt hk) ((Steps.tail _ (.refl _) h1).trans ht)
  have := v.count
  rw [v.closed hc] at this
  omega

/-- `ThreadPool` does not either: jobs that push jobs can wait for each other. -/
theorem C157_fails : ¬ C157_full ⟨false, 1⟩ 1 1 := by
  intro h
  have hr : ∃ s, run ⟨false, 1⟩ (start 1 1) [.push, .work 0, .push, .call 0, .shutdown false] = some s ∧ s.phase = .closing ∧
      s.pool.qindex = 1 ∧ s.pool.numThreads = 1 ∧ s.threads = [.pushing 0] := ⟨_, rfl, rfl, rfl, rfl, rfl⟩
  obtain ⟨s, hs, h1, h2, h3, h4⟩ := hr
  obtain ⟨t, ht, hc⟩ := h s (run_steps hs) h1
  have : Stuck ⟨false, 1⟩ s := ⟨rfl, h2, by rw [h1]; simp, by omega, by rw [h4]; simp⟩
  exact (stuck_steps this ht).1.2.2.1 hc

/-- In general: when the jobs of all threads are in `push` and the queue is full, `ThreadPool` stands still for ever. -/
theorem C157_deadlock {size : Nat} {s t : Sys} (hq : s.pool.qindex = size) (ho : s.phase ≠ .closed) (hn : s.pool.numThreads ≠ 0)
    (ht : ∀ x ∈ s.threads, ∃ j, x = Thread.pushing j) (h : Steps ⟨false, size⟩ s t) :
    t.phase ≠ .closed ∧ t.threads = s.threads ∧ t.finished = s.finished := by
  have := stuck_steps (c := ⟨false, size⟩) ⟨rfl, hq, ho, hn, ht⟩ h
  exact ⟨this.1.2.2.1, this.2⟩

/-- What holds of `ThreadPool`: it can return if no job is in a call of `push`. -/
theorem C157_partial {c : Cfg} {n : Nat} {s : Sys} (h : Reachable c n n s) (hp : s.phase = .closing)
    (hf : ∀ t ∈ s.threads, ∀ j, t ≠ .pushing j) : ∃ t, Steps c s t ∧ t.phase = .closed := by
  have v : Inv c 0 s := by have := reachable_inv (Nat.le_refl n) h; rwa [Nat.sub_self] at this
  exact shutdown_ends _ s v ⟨hp, v.flags.2 (by rw [hp]; simp), Or.inr hf⟩ rfl

/-- The arguments of every job pushed to the fixed pool are freed exactly once: when the pool is gone all are, and none twice. -/
theorem C158_freed {cap n created : Nat} {s : Sys} (hk : created ≤ n) (h : Reachable ⟨true, cap⟩ n created s) (hc : s.phase = .closed) :
    s.freed.Perm (List.range s.next) := by
  have v := reachable_inv hk h
  have ha := v.allExited hc
  have hq : s.pool.qindex = 0 := by
    have key : ∀ {a b : Sys}, Steps ⟨true, cap⟩ a b → (a.phase = .closed → a.pool.qindex = 0) →
        (∀ x, Steps ⟨true, cap⟩ a x → x.phase = .closed → AllExited x) → b.phase = .closed → b.pool.qindex = 0 := by
      intro a b hab
      induction hab with
      | refl => intro h1 _; exact h1
      | tail e hst hs ih =>
        rename_i t u
        intro h1 h2 hcu
        have hi := ih h1 h2
        have h3 := h2 t hst
        cases e with
        | push =>
          simp only [step] at hs
          split at hs
          · simp at hs
          · rename_i hne
            unfold pushed at hs
            split at hs
            · have : t = u := by simpa using hs
              rw [← this] at hcu; exact absurd hcu hne
            · have := Option.some.inj hs
              rw [← this] at hcu; exact absurd hcu hne
        | callPush i =>
          simp only [step] at hs
          split at hs
          · rename_i j hg
            have hnc : t.phase ≠ .closed := fun hx => by
              have := h3 hx _ (List.mem_of_getElem? hg); simp at this
            unfold pushed at hs
            split at hs
            · rename_i w hw
              split at hw
              · simp at hw
              · rw [← Option.some.inj hs, ← Option.some.inj hw] at hcu; exact absurd hcu hnc
            · split at hs
              · rw [← Option.some.inj hs] at hcu; exact absurd hcu hnc
              · rw [← Option.some.inj hs] at hcu; exact absurd hcu hnc
          · simp at hs
        | call i =>
          simp only [step] at hs
          split at hs
          · rw [← Option.some.inj hs] at hcu ⊢; exact hi hcu
          · simp at hs
        | work i =>
          simp only [step] at hs
          split at hs
          · rename_i hg
            have hnc : t.phase ≠ .closed := fun hx => by
              have := h3 hx _ (List.mem_of_getElem? hg); simp at this
            rw [← Option.some.inj hs] at hcu; exact absurd hcu hnc
          · rename_i hg
            have hnc : t.phase ≠ .closed := fun hx => by
              have := h3 hx _ (List.mem_of_getElem? hg); simp at this
            rw [← Option.some.inj hs] at hcu; exact absurd hcu hnc
          · simp at hs
        | finish i =>
          simp only [step] at hs
          split at hs
          · rw [← Option.some.inj hs] at hcu ⊢; exact hi hcu
          · simp at hs
        | wake i =>
          simp only [step] at hs
          split at hs
          · rw [← Option.some.inj hs] at hcu ⊢; exact hi hcu
          · simp at hs
        | shutdown now =>
          simp only [step] at hs
          split at hs
          · rw [← Option.some.inj hs] at hcu; simp at hcu
          · simp at hs
        | poll i =>
          simp only [step] at hs
          split at hs
          · rename_i hcl
            split at hs
            · rw [← Option.some.inj hs]; rfl
            · cases i with
              | none =>
                simp only at hs
                split at hs
                · simp at hs
                · rw [← Option.some.inj hs, hcl] at hcu; simp at hcu
              | some i =>
                simp only at hs
                split at hs
                · rw [← Option.some.inj hs] at hcu
                  have : t.phase = .closed := hcu
                  rw [hcl] at this; simp at this
                · simp at hs
          · simp at hs
    exact key h (fun h => by simp [start] at h) (fun x hx hxc => (reachable_inv hk hx).allExited hxc) hc
  rw [List.perm_iff_count]
  intro j
  have := v.freed rfl j
  rw [hq, total_has_zero ha j] at this
  have e : (queued s.pool.slots 0).count j = 0 := rfl
  rw [List.count_range]
  omega

/-- And not before the job has ended: until `destroy` returns the freed ones are those of the jobs that are done. -/
theorem C158_not_early {cap n created : Nat} {s : Sys} (hk : created ≤ n) (h : Reachable ⟨true, cap⟩ n created s) (ho : s.phase ≠ .closed) :
    s.freed = s.finished :=
  (reachable_inv hk h).same ho rfl

/-! Cases that meet the hypotheses. -/

/-- C153, C154: two threads, three jobs: one done, one in work, one waiting. -/
example : ∃ s, Reachable ⟨false, 2⟩ 2 2 s ∧ s.phase = .working ∧ waiting s = [2] ∧ inWork s = [0] ∧ s.finished = [1] ∧
    s.pool.stopNow = false ∧ s.threads[1]? = some .woken :=
  ⟨_, run_steps (l := [.push, .push, .work 0, .finish 0, .work 0, .work 1, .push]) rfl, rfl, rfl, rfl, rfl, rfl, rfl⟩

/-- C155: a job pushes another one during `stop_and_destroy`. -/
example : ∃ s t u, Reachable ⟨true, 2⟩ 1 1 s ∧ step ⟨true, 2⟩ s (.callPush 0) = some t ∧ t.next = s.next + 1 ∧ ¬ AllExited s ∧
    Steps ⟨true, 2⟩ t u ∧ u.phase = .closed ∧ u.pool.stopNow = false ∧ u.finished = [0, 1] :=
  ⟨_, _, _, run_steps (l := [.push, .work 0, .shutdown false, .call 0]) rfl, rfl, rfl,
    fun h => by have := h (.pushing 0) (List.mem_cons_self ..); simp at this,
    run_steps (l := [.finish 0, .work 0, .finish 0, .work 0, .poll none]) rfl, rfl, rfl, rfl⟩

/-- C156: the fixed pool is destroyed while job 0 runs and job 1 waits. -/
example : ∃ s t, Reachable ⟨true, 2⟩ 2 2 s ∧ s.pool.stopNow = true ∧ s.threads[1]? = some .woken ∧ Steps ⟨true, 2⟩ s t ∧
    t.phase = .closed ∧ t.finished = [0] ∧ t.freed = [0, 1] :=
  ⟨_, _, run_steps (l := [.work 1, .push, .work 0, .push, .shutdown true]) rfl, rfl, rfl,
    run_steps (l := [.work 1, .finish 0, .work 0, .poll none]) rfl, rfl, rfl, rfl⟩

/-- C157, C158: a pool that is closed. -/
example : ∃ s, Reachable ⟨true, 2⟩ 1 1 s ∧ s.phase = .closed ∧ s.freed = [0, 2, 1] :=
  ⟨_, run_steps (l := [.push, .work 0, .push, .push, .finish 0, .shutdown true, .work 0, .poll none]) rfl, rfl, rfl⟩

/-- C157: a pool that is shut down and not yet closed. -/
example : ∃ s, Reachable ⟨false, 2⟩ 1 1 s ∧ s.phase = .closing ∧ s.threads = [.running 0] ∧ waiting s = [1] :=
  ⟨_, run_steps (l := [.push, .work 0, .push, .shutdown false]) rfl, rfl, rfl, rfl⟩

/-- C157_deadlock: two threads. -/
example : ∃ s, Reachable ⟨false, 2⟩ 2 2 s ∧ s.pool.qindex = 2 ∧ s.phase = .working ∧ s.pool.numThreads = 2 ∧
    s.threads = [.pushing 1, .pushing 0] :=
  ⟨_, run_steps (l := [.push, .push, .work 0, .work 1, .push, .push, .call 0, .call 1]) rfl, rfl, rfl, rfl, rfl⟩

end C3.Pool
