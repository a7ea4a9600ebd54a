import Verif.TaskQueue.Lemmas

/-! # C22: every task is run exactly once, whatever the schedule -/

set_option autoImplicit false

namespace C3.TaskQueue

variable {α : Type}

/-- C22: when `taskqueue_run` returns, the tasks that have been started are those of the list, each as
often as it occurs there, and all of them have finished; in whatever order the threads moved. -/
theorem C22_exactly_once (n : Nat) (tasks : List α) (k : Nat) (s : State α) (hn : 0 < n) (h : Exec (init n tasks) k s)
    (hr : s.main = .returned) : s.started.Perm tasks ∧ s.finished.Perm tasks := by
  have hi := inv_exec n tasks k s h
  have he : ∀ p ∈ s.pcs, p = .exited := by
    intro p hp
    obtain ⟨i, hil, hip⟩ := List.getElem_of_mem hp
    have := hi.returned hr i (by rw [← hi.len]; exact hil)
    rw [List.getElem?_eq_getElem hil, hip] at this
    simpa using this
  have hf : ∀ f : PC α → List α, f .exited = [] → s.pcs.flatMap f = [] := by
    intro f hf
    rw [List.flatMap_eq_nil_iff]
    intro p hp
    rw [he p hp, hf]
  have hq : s.queue = [] := hi.empty 0 (Or.inr (hi.returned hr 0 hn))
  have h1 := hi.once
  rw [hq, hf _ rfl] at h1
  have h2 := hi.ended
  rw [hf _ rfl, List.append_nil] at h2
  have h1' : s.started.Perm tasks := by simpa using h1
  exact ⟨h1', h2.trans h1'⟩

/-- C22: at no time has a task been started more often than it occurs in the list, and only started tasks
have finished. -/
theorem C22_never_twice (n : Nat) (tasks : List α) (k : Nat) (s : State α) (h : Exec (init n tasks) k s) :
    (∃ waiting, (s.started ++ waiting).Perm tasks) ∧ ∃ running, (s.finished ++ running).Perm s.started := by
  have hi := inv_exec n tasks k s h
  exact ⟨⟨_, List.perm_append_comm.trans hi.once⟩, ⟨_, hi.ended⟩⟩

/-- C22: no two workers are ever between lock and unlock, where alone the queue is accessed; no access is
outside the vector and no assertion fails. -/
theorem C22_exclusive (n : Nat) (tasks : List α) (k : Nat) (s : State α) (h : Exec (init n tasks) k s) :
    s.fault = false ∧ ∀ (i j : Nat) p q, s.pcs[i]? = some p → s.pcs[j]? = some q → p.critical = true → q.critical = true → i = j := by
  have hi := inv_exec n tasks k s h
  exact ⟨hi.noFault, fun i j p q hp hq h1 h2 => hi.alone hp hq h1 h2⟩

/-- C22: as long as the call has not returned some thread can move. -/
theorem C22_no_deadlock (n : Nat) (tasks : List α) (k : Nat) (s : State α) (h : Exec (init n tasks) k s) (hr : s.main ≠ .returned) :
    ∃ t, Step s t := progress n tasks s (inv_exec n tasks k s h) hr

/-- C22: no schedule is longer than `6 * tasks + 6 * threads + 2` steps, so together with
`C22_no_deadlock` every maximal one ends with the call returned. -/
theorem C22_terminates (n : Nat) (tasks : List α) (k : Nat) (s : State α) (h : Exec (init n tasks) k s) :
    k ≤ 6 * tasks.length + 6 * n + 2 := by
  have := exec_measure n tasks k s h
  have hs : (List.map PC.weight (List.replicate n (PC.notCreated (α := α)))).sum = 4 * n := by
    rw [List.map_replicate, List.sum_replicate_nat]; simp [PC.weight, Nat.mul_comm]
  simp only [measure, init, Main.weight, List.length_replicate, hs] at this
  omega

/-- A complete execution with one worker and one task. -/
example : ∃ k s, Exec (init 1 [7]) k s ∧ s.main = .returned ∧ s.finished = [7] := by
  refine ⟨13, ⟨.returned, [.exited], none, [], [7], [7], false⟩, ?_, rfl, rfl⟩
  refine .step (t := ⟨.joining 1, [.exited], none, [], [7], [7], false⟩) ?_ (.joined _ rfl)
  refine .step (t := ⟨.joining 0, [.exited], none, [], [7], [7], false⟩) ?_ (.join _ 0 rfl rfl)
  refine .step (t := ⟨.joining 0, [.leaving], some 0, [], [7], [7], false⟩) ?_ (.leave _ 0 rfl)
  refine .step (t := ⟨.joining 0, [.counting], some 0, [], [7], [7], false⟩) ?_ (.countEmpty _ 0 rfl rfl)
  refine .step (t := ⟨.joining 0, [.locking], none, [], [7], [7], false⟩) ?_ (.lock _ 0 rfl rfl)
  refine .step (t := ⟨.joining 0, [.running 7], none, [], [7], [], false⟩) ?_ (.finish _ 0 7 rfl)
  refine .step (t := ⟨.joining 0, [.unlocking 7], some 0, [], [], [], false⟩) ?_ (.unlock _ 0 7 rfl)
  refine .step (t := ⟨.joining 0, [.popping 7], some 0, [7], [], [], false⟩) ?_ (.pop _ 0 7 rfl (by simp))
  refine .step (t := ⟨.joining 0, [.reading 1], some 0, [7], [], [], false⟩) ?_ (.read _ 0 1 7 rfl rfl)
  refine .step (t := ⟨.joining 0, [.counting], some 0, [7], [], [], false⟩) ?_ (.count _ 0 rfl (by simp))
  refine .step (t := ⟨.joining 0, [.locking], none, [7], [], [], false⟩) ?_ (.lock _ 0 rfl rfl)
  refine .step (t := ⟨.creating 1, [.locking], none, [7], [], [], false⟩) ?_ (.created _ rfl)
  exact .step (.refl _) (.create (init 1 [7]) 0 rfl (by simp [init]))

/-- C22 on Windows, for at most 64 threads. -/
theorem C22_windows_partial (n : Nat) (tasks : List α) (s : State α) (hn : 0 < n) (hle : n ≤ 64) (h : ExecWin (init n tasks) s)
    (hr : s.main = .returned) : s.started.Perm tasks ∧ s.finished.Perm tasks := by
  obtain ⟨k, hk⟩ := win_sim n tasks s hle h
  exact C22_exactly_once n tasks k s hn hk hr

/-- C22 fails on Windows for more than 64 threads: the call may return although no task has even been
started. -/
theorem C22_windows_many (n : Nat) (tasks : List α) (hn : 64 < n) :
    ∃ s, ExecWin (init n tasks) s ∧ s.main = .returned ∧ s.started = [] ∧ s.queue = tasks := by
  have h := win_created n tasks n (Nat.le_refl n)
  rw [Nat.sub_self, List.replicate_zero, List.append_nil] at h
  refine ⟨⟨.returned, List.replicate n .locking, none, tasks, [], [], false⟩, ?_, rfl, rfl, rfl⟩
  exact (h.step (.other _ _ (.created _ (by simp)) (fun _ hk => by simp at hk))).step (.waitFailed _ rfl (by simpa using hn))

example : 64 < 65 := by decide

end C3.TaskQueue
