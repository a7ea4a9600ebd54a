import Verif.Pool.Lemmas

set_option autoImplicit false

namespace C3.Pool

theorem exists_alive {l : List Thread} (h : total alive l ≠ 0) : ∃ (i : Nat) (a : Thread), l[i]? = some a ∧ a ≠ .exited := by
  induction l with
  | nil => exact absurd rfl h
  | cons x l ih =>
    by_cases hx : x = .exited
    · have : total alive l ≠ 0 := by
        intro e
        apply h
        subst hx
        have e' : alive Thread.exited = 0 := rfl
        simp [total, e'] at e ⊢; exact e
      obtain ⟨i, a, h1, h2⟩ := ih this
      exact ⟨i + 1, a, by simpa using h1, h2⟩
    · exact ⟨0, x, rfl, hx⟩

theorem not_allExited {s : Sys} (h : ¬ AllExited s) : ∃ t ∈ s.threads, t ≠ .exited :=
  Classical.byContradiction fun hn => h fun t ht => Classical.byContradiction fun h1 => hn ⟨t, ht, h1⟩

theorem mem_set_self {l : List Thread} {i : Nat} {a b : Thread} (h : l[i]? = some a) : b ∈ l.set i b := by
  have hi : i < l.length := by
    rcases Nat.lt_or_ge i l.length with h1 | h1
    · exact h1
    · rw [List.getElem?_eq_none h1] at h; simp at h
  exact List.mem_of_getElem? (i := i) (by simp [hi])

theorem mem_map_notify {l : List Thread} {t : Thread} (h : t ∈ l) (hn : t ≠ .exited) : ∃ u ∈ l.map Thread.notify, u ≠ .exited :=
  ⟨t.notify, List.mem_map_of_mem h, by cases t <;> simp_all [Thread.notify]⟩

/-- Jobs are not left behind by the last thread, unless it was told to. -/
def Served (j : Nat) (s : Sys) : Prop := j < s.next ∧ ((∃ t ∈ s.threads, t ≠ .exited) ∨ j ∈ s.finished)

theorem stopNow_mono {c : Cfg} {s t : Sys} (m : Micro c s t) (h : t.pool.stopNow = false) : s.pool.stopNow = false := by
  cases m with
  | push p hp ha => obtain ⟨_, rfl⟩ := accept_eq ha; exact h
  | shutdown now hw =>
    cases now
    · exact h
    · simp at h
  | close hc hn =>
    unfold close at h
    split at h <;> exact h
  | _ => exact h

theorem served_micro {c : Cfg} {extra j : Nat} {s t : Sys} (v : Inv c extra s) (m : Micro c s t) (hn : t.pool.stopNow = false)
    (h : Served j s) : Served j t := by
  obtain ⟨hj, h⟩ := h
  cases m with
  | push p hp ha =>
    refine ⟨Nat.lt_succ_of_lt hj, ?_⟩
    rcases h with ⟨t, ht, hx⟩ | h
    · exact Or.inl (mem_map_notify ht hx)
    · exact Or.inr h
  | move i a b hi _ _ hb _ _ => exact ⟨hj, Or.inl ⟨b, mem_set_self hi, hb⟩⟩
  | exit i w hi hr =>
    have hopen := not_exited_open v hi (ite_ne w)
    have hs : s.pool.qindex = 0 ∧ s.pool.stop = true := by
      rcases hr with h | h
      · have hn' : s.pool.stopNow = false := hn
        rw [hn'] at h; simp at h
      · exact h
    refine ⟨hj, ?_⟩
    apply Classical.byContradiction
    intro hc
    rw [not_or] at hc
    have hall : ∀ t ∈ s.threads.set i .exited, t = .exited := by
      intro t ht
      exact Classical.byContradiction fun hx => hc.1 ⟨t, ht, hx⟩
    have h0 := total_has_zero hall j
    have h1 := total_set (f := has j) .exited hi
    rw [ite_zero_thread] at h1
    have h2 : has j Thread.exited = 0 := rfl
    have h3 := v.once hopen j
    rw [if_pos hj, hs.1] at h3
    have h4 : (queued s.pool.slots 0).count j = 0 := rfl
    have h5 : s.finished.count j = 0 := List.count_eq_zero.2 hc.2
    omega
  | sleep i w hi _ _ _ => exact ⟨hj, Or.inl ⟨.asleep, mem_set_self hi, by simp⟩⟩
  | take i w hi _ _ => exact ⟨hj, Or.inl ⟨_, mem_set_self hi, by simp⟩⟩
  | finish i k hi => exact ⟨hj, Or.inl ⟨.outside, mem_set_self hi, by simp⟩⟩
  | shutdown now hw =>
    refine ⟨hj, ?_⟩
    rcases h with ⟨t, ht, hx⟩ | h
    · exact Or.inl (mem_map_notify ht hx)
    · exact Or.inr h
  | close hc hn' =>
    unfold close
    split
    · exact ⟨hj, h⟩
    · exact ⟨hj, h⟩

theorem stopNow_monos {c : Cfg} {s t : Sys} (m : Micros c s t) (h : t.pool.stopNow = false) : s.pool.stopNow = false := by
  induction m with
  | refl => exact h
  | tail _ m ih => exact ih (stopNow_mono m h)

theorem served_micros {c : Cfg} {extra j : Nat} {s t : Sys} (v : Inv c extra s) (m : Micros c s t) (hn : t.pool.stopNow = false)
    (h : Served j s) : Served j t := by
  induction m with
  | refl => exact h
  | tail ms m ih => exact served_micro (inv_micros v ms) m hn (ih (stopNow_mono m hn))

/-- Only `push` accepts jobs. -/
theorem step_next {c : Cfg} {s t : Sys} {e : Event} (h : step c s e = some t) (hn : t.next = s.next + 1)
    (ha : ∃ x ∈ s.threads, x ≠ .exited) : ∃ x ∈ t.threads, x ≠ .exited := by
  have bad : ∀ {u : Sys}, t = u → u.next = s.next → False := by
    intro u ht hu; rw [ht, hu] at hn; omega
  cases e with
  | push =>
    simp only [step] at h
    split at h
    · simp at h
    · unfold pushed at h
      split at h
      · have : t = s := by simpa using h.symm
        exact (bad this rfl).elim
      · have : t = _ := (Option.some.inj h).symm
        rw [this]
        obtain ⟨x, hx, hy⟩ := ha
        exact mem_map_notify hx hy
  | callPush i =>
    simp only [step] at h
    split at h
    · rename_i j hi
      split at h
      · rename_i u hu
        have : t = _ := (Option.some.inj h).symm
        rw [this]
        have hi' : u.threads[i]? = some (.pushing j) := by
          unfold pushed at hu
          split at hu
          · simp at hu
          · have : u = _ := (Option.some.inj hu).symm
            rw [this]
            simp [hi, Thread.notify]
        exact ⟨_, mem_set_self hi', by simp⟩
      · split at h
        · exact (bad (Option.some.inj h).symm rfl).elim
        · exact (bad (Option.some.inj h).symm rfl).elim
    · simp at h
  | call i =>
    simp only [step] at h
    split at h
    · exact (bad (Option.some.inj h).symm rfl).elim
    · simp at h
  | work i =>
    simp only [step] at h
    split at h
    · exact (bad (Option.some.inj h).symm rfl).elim
    · exact (bad (Option.some.inj h).symm rfl).elim
    · simp at h
  | finish i =>
    simp only [step] at h
    split at h
    · exact (bad (Option.some.inj h).symm rfl).elim
    · simp at h
  | wake i =>
    simp only [step] at h
    split at h
    · exact (bad (Option.some.inj h).symm rfl).elim
    · simp at h
  | shutdown now =>
    simp only [step] at h
    split at h
    · exact (bad (Option.some.inj h).symm rfl).elim
    · simp at h
  | poll i =>
    simp only [step] at h
    split at h
    · split at h
      · refine (bad (Option.some.inj h).symm ?_).elim
        unfold close; split <;> rfl
      · cases i with
        | none =>
          simp only at h
          split at h
          · simp at h
          · exact (bad (Option.some.inj h).symm rfl).elim
        | some i =>
          simp only at h
          split at h
          · exact (bad (Option.some.inj h).symm rfl).elim
          · simp at h
    · simp at h

/-- After `stop_now` no thread of the fixed pool takes a job. -/
theorem now_micro {c : Cfg} {s t : Sys} (hf : c.fixed = true) (hn : s.pool.stopNow = true) (m : Micro c s t) :
    t.pool.stopNow = true ∧ ∀ j, total (has j) t.threads + t.finished.count j = total (has j) s.threads + s.finished.count j := by
  cases m with
  | push p hp ha =>
    obtain ⟨_, rfl⟩ := accept_eq ha
    refine ⟨hn, fun j => ?_⟩
    show total (has j) (s.threads.map Thread.notify) + _ = _
    rw [total_map (has_notify j)]
  | move i a b hi hj _ _ _ _ =>
    refine ⟨hn, fun j => ?_⟩
    have := total_set (f := has j) b hi
    have e : has j a = has j b := by unfold has; rw [hj]
    show total (has j) (s.threads.set i b) + s.finished.count j = _
    omega
  | exit i w hi _ =>
    refine ⟨hn, fun j => ?_⟩
    have := total_set (f := has j) .exited hi
    rw [ite_zero_thread] at this
    have e : has j Thread.exited = 0 := rfl
    show total (has j) (s.threads.set i .exited) + s.finished.count j = _
    omega
  | sleep i w hi _ _ _ =>
    refine ⟨hn, fun j => ?_⟩
    have := total_set (f := has j) .asleep hi
    rw [ite_zero_thread] at this
    have e : has j Thread.asleep = 0 := rfl
    show total (has j) (s.threads.set i .asleep) + s.finished.count j = _
    omega
  | take i w hi hq h => exact absurd ⟨by simp [hf], hn⟩ h
  | finish i k hi =>
    refine ⟨hn, fun j => ?_⟩
    have := total_set (f := has j) .outside hi
    have e : has j Thread.outside = 0 := rfl
    have e2 : has j (.running k) = if k = j then 1 else 0 := by unfold has Thread.job; simp
    show total (has j) (s.threads.set i .outside) + (s.finished ++ [k]).count j = _
    rw [List.count_append, List.count_singleton]
    have e0 : (if (k == j) = true then 1 else 0 : Nat) = if k = j then 1 else 0 := by simp
    omega
  | shutdown now hw =>
    refine ⟨?_, fun j => ?_⟩
    · cases now
      · exact hn
      · rfl
    · show total (has j) (s.threads.map Thread.notify) + _ = _
      rw [total_map (has_notify j)]
  | close hc _ =>
    unfold close
    split
    · exact ⟨hn, fun _ => rfl⟩
    · exact ⟨hn, fun _ => rfl⟩

theorem now_micros {c : Cfg} {s t : Sys} (hf : c.fixed = true) (hn : s.pool.stopNow = true) (m : Micros c s t) :
    t.pool.stopNow = true ∧ ∀ j, total (has j) t.threads + t.finished.count j = total (has j) s.threads + s.finished.count j := by
  induction m with
  | refl => exact ⟨hn, fun _ => rfl⟩
  | tail _ m ih =>
    have := now_micro hf ih.1 m
    exact ⟨this.1, fun j => (this.2 j).trans (ih.2 j)⟩

/-- A thread that sleeps, is woken, or has returned. -/
def Idle (i : Nat) (s : Sys) : Prop :=
  s.pool.stopNow = true ∧ (s.threads[i]? = some .asleep ∨ s.threads[i]? = some .woken ∨ s.threads[i]? = some .exited)

theorem idle_set {l : List Thread} {i k : Nat} {b : Thread} (hb : b = .asleep ∨ b = .woken ∨ b = .exited ∨ i ≠ k)
    (h : l[i]? = some .asleep ∨ l[i]? = some .woken ∨ l[i]? = some .exited) :
    (l.set k b)[i]? = some .asleep ∨ (l.set k b)[i]? = some .woken ∨ (l.set k b)[i]? = some .exited := by
  by_cases e : i = k
  · subst e
    have hi : i < l.length := by
      rcases Nat.lt_or_ge i l.length with h1 | h1
      · exact h1
      · rw [List.getElem?_eq_none h1] at h; simp at h
    have : (l.set i b)[i]? = some b := by simp [hi]
    rw [this]
    rcases hb with rfl | rfl | rfl | hb
    · simp
    · simp
    · simp
    · exact absurd rfl hb
  · rw [List.getElem?_set_ne (fun h => e h.symm)]; exact h

theorem idle_notify {l : List Thread} {i : Nat} (h : l[i]? = some .asleep ∨ l[i]? = some .woken ∨ l[i]? = some .exited) :
    (l.map Thread.notify)[i]? = some .asleep ∨ (l.map Thread.notify)[i]? = some .woken ∨ (l.map Thread.notify)[i]? = some .exited := by
  rw [List.getElem?_map]
  rcases h with h | h | h <;> rw [h] <;> simp [Thread.notify]

theorem idle_micro {c : Cfg} {i : Nat} {s t : Sys} (m : Micro c s t) (h : Idle i s) : Idle i t := by
  obtain ⟨hn, h⟩ := h
  cases m with
  | push p hp ha =>
    obtain ⟨_, rfl⟩ := accept_eq ha
    exact ⟨hn, idle_notify h⟩
  | move k a b hk hj he hb _ hw =>
    refine ⟨hn, idle_set ?_ h⟩
    by_cases e : i = k
    · subst e
      have : a.job = none := by
        rw [hk] at h
        rcases h with h | h | h <;> (rw [Option.some.inj h]; rfl)
      exact Or.inr (Or.inl (hw this).2)
    · exact Or.inr (Or.inr (Or.inr e))
  | exit k w hk _ => exact ⟨hn, idle_set (by simp) h⟩
  | sleep k w hk _ _ _ => exact ⟨hn, idle_set (by simp) h⟩
  | take k w hk hq hx =>
    refine ⟨hn, idle_set (Or.inr (Or.inr (Or.inr ?_))) h⟩
    rintro rfl
    cases w
    · rw [hk] at h; simp at h
    · exact hx ⟨rfl, hn⟩
  | finish k j hk =>
    refine ⟨hn, idle_set (Or.inr (Or.inr (Or.inr ?_))) h⟩
    rintro rfl
    rw [hk] at h; simp at h
  | shutdown now hw =>
    refine ⟨?_, idle_notify h⟩
    cases now
    · exact hn
    · rfl
  | close hc _ =>
    unfold close
    split
    · exact ⟨hn, h⟩
    · exact ⟨hn, h⟩

theorem idle_micros {c : Cfg} {i : Nat} {s t : Sys} (m : Micros c s t) (h : Idle i s) : Idle i t := by
  induction m with
  | refl => exact h
  | tail _ m ih => exact idle_micro m ih

/-! Shutting down comes to an end. -/

/-- The pool is being shut down, and no job is in a call of `push` that may never return. -/
structure Good (c : Cfg) (s : Sys) : Prop where
  phase : s.phase = .closing
  flag : s.pool.stop = true ∨ s.pool.stopNow = true
  free : c.fixed = true ∨ ∀ t ∈ s.threads, ∀ j, t ≠ .pushing j

theorem free_set {c : Cfg} {l : List Thread} {i : Nat} {b : Thread} (hb : ∀ j, b ≠ .pushing j)
    (h : c.fixed = true ∨ ∀ t ∈ l, ∀ j, t ≠ .pushing j) : c.fixed = true ∨ ∀ t ∈ l.set i b, ∀ j, t ≠ .pushing j := by
  rcases h with h | h
  · exact Or.inl h
  · refine Or.inr fun t ht j => ?_
    rcases mem_set ht with ht | ht
    · exact h t ht j
    · rw [ht]; exact hb j

theorem get_set {l : List Thread} {i : Nat} {a b : Thread} (h : l[i]? = some a) : (l.set i b)[i]? = some b := by
  have hi : i < l.length := by
    rcases Nat.lt_or_ge i l.length with h1 | h1
    · exact h1
    · rw [List.getElem?_eq_none h1] at h; simp at h
  simp [hi]

theorem alive_set {l : List Thread} {i : Nat} {a b : Thread} (h : l[i]? = some a) (ha : a ≠ .exited) (hb : b ≠ .exited) :
    total alive (l.set i b) = total alive l := by
  have := total_set (f := alive) b h
  rw [alive_one ha, alive_one hb] at this
  omega

theorem alive_exit {l : List Thread} {i : Nat} {a : Thread} (h : l[i]? = some a) (ha : a ≠ .exited) :
    total alive (l.set i .exited) + 1 = total alive l := by
  have := total_set (f := alive) .exited h
  rw [alive_one ha] at this
  have e : alive Thread.exited = 0 := rfl
  omega

/-- A thread that may take the mutex can be brought to its end. -/
theorem drive (c : Cfg) (q : Nat) : ∀ (s : Sys) (i : Nat) (w : Bool), s.pool.qindex = q → Good c s →
    s.threads[i]? = some (if w then .woken else .outside) →
    ∃ t, Steps c s t ∧ Good c t ∧ total alive t.threads + 1 = total alive s.threads := by
  induction q with
  | zero =>
    intro s i w hq g hi
    have hstep : ∃ e, step c s e = some { s with pool := (work c w s.pool).1, threads := s.threads.set i (work c w s.pool).2 } := by
      refine ⟨.work i, ?_⟩
      cases w
      · simp only [step]; rw [hi]; rfl
      · simp only [step]; rw [hi]; rfl
    obtain ⟨e, he⟩ := hstep
    by_cases h1 : ((w || c.fixed) && s.pool.stopNow) = true
    · have e1 : work c w s.pool = ({ s.pool with numThreads := s.pool.numThreads - 1 }, .exited) := by
        unfold work; rw [if_pos h1]
      rw [e1] at he
      exact ⟨_, .tail e (.refl s) he, ⟨g.phase, g.flag, free_set (by simp) g.free⟩, alive_exit hi (ite_ne w)⟩
    · cases h2 : s.pool.stop
      · have e1 : work c w s.pool = (s.pool, .asleep) := by
          unfold work; rw [if_neg h1, if_pos hq, if_neg (by rw [h2]; simp)]
        rw [e1] at he
        have hn : s.pool.stopNow = true := by
          rcases g.flag with h | h
          · rw [h2] at h; simp at h
          · exact h
        refine ⟨{ s with pool := { s.pool with numThreads := s.pool.numThreads - 1 },
                         threads := ((s.threads.set i .asleep).set i .woken).set i .exited }, ?_, ⟨g.phase, g.flag, ?_⟩, ?_⟩
        · refine .tail (.work i) (.tail (.wake i) (.tail e (.refl s) he)
            (u := { s with threads := (s.threads.set i .asleep).set i .woken }) ?_) ?_
          · simp only [step]
            rw [get_set hi]
          · simp only [step]
            rw [get_set (get_set hi)]
            have : work c true s.pool = ({ s.pool with numThreads := s.pool.numThreads - 1 }, .exited) := by
              unfold work; rw [if_pos (by rw [hn]; simp)]
            rw [this]
        · exact free_set (by simp) (free_set (by simp) (free_set (by simp) g.free))
        · show total alive (((s.threads.set i .asleep).set i .woken).set i .exited) + 1 = _
          rw [alive_exit (get_set (get_set hi)) (by simp), alive_set (get_set hi) (by simp) (by simp), alive_set hi (ite_ne w) (by simp)]
      · have e1 : work c w s.pool = ({ s.pool with numThreads := s.pool.numThreads - 1 }, .exited) := by
          unfold work; rw [if_neg h1, if_pos hq, if_pos h2]
        rw [e1] at he
        exact ⟨_, .tail e (.refl s) he, ⟨g.phase, g.flag, free_set (by simp) g.free⟩, alive_exit hi (ite_ne w)⟩
  | succ q ih =>
    intro s i w hq g hi
    have hstep : ∃ e, step c s e = some { s with pool := (work c w s.pool).1, threads := s.threads.set i (work c w s.pool).2 } := by
      refine ⟨.work i, ?_⟩
      cases w
      · simp only [step]; rw [hi]; rfl
      · simp only [step]; rw [hi]; rfl
    obtain ⟨e, he⟩ := hstep
    by_cases h1 : ((w || c.fixed) && s.pool.stopNow) = true
    · have e1 : work c w s.pool = ({ s.pool with numThreads := s.pool.numThreads - 1 }, .exited) := by
        unfold work; rw [if_pos h1]
      rw [e1] at he
      exact ⟨_, .tail e (.refl s) he, ⟨g.phase, g.flag, free_set (by simp) g.free⟩, alive_exit hi (ite_ne w)⟩
    · have e1 : work c w s.pool = ({ s.pool with qindex := s.pool.qindex - 1 }, .running (s.pool.slots (s.pool.qindex - 1))) := by
        unfold work; rw [if_neg h1, if_neg (by omega)]
      rw [e1] at he
      let j := s.pool.slots (s.pool.qindex - 1)
      let u : Sys := { s with pool := { s.pool with qindex := s.pool.qindex - 1 },
                              threads := (s.threads.set i (.running j)).set i .outside, finished := s.finished ++ [j],
                              freed := if c.fixed then s.freed ++ [j] else s.freed }
      have hu : Steps c s u := by
        refine .tail (.finish i) (.tail e (.refl s) he) ?_
        simp only [step]
        rw [get_set hi]
      have gu : Good c u := ⟨g.phase, g.flag, free_set (by simp) (free_set (by simp) g.free)⟩
      obtain ⟨t, ht, gt, ha⟩ := ih u i false (show s.pool.qindex - 1 = q by omega) gu (get_set (get_set hi))
      refine ⟨t, hu.trans ht, gt, ?_⟩
      rw [ha]
      show total alive ((s.threads.set i (.running j)).set i .outside) = _
      rw [alive_set (get_set hi) (by simp) (by simp), alive_set hi (ite_ne w) (by simp)]

/-- Any thread can. -/
theorem drive_any {c : Cfg} {s : Sys} {i : Nat} {a : Thread} (g : Good c s) (hi : s.threads[i]? = some a) (ha : a ≠ .exited) :
    ∃ t, Steps c s t ∧ Good c t ∧ total alive t.threads + 1 = total alive s.threads := by
  have run : ∀ (s : Sys) (j : Nat), Good c s → s.threads[i]? = some (.running j) →
      ∃ t, Steps c s t ∧ Good c t ∧ total alive t.threads + 1 = total alive s.threads := by
    intro s j g hi
    let u : Sys := { s with threads := s.threads.set i .outside, finished := s.finished ++ [j],
                            freed := if c.fixed then s.freed ++ [j] else s.freed }
    have hu : Steps c s u := by
      refine .tail (.finish i) (.refl s) ?_
      simp only [step]
      rw [hi]
    obtain ⟨t, ht, gt, h⟩ := drive c _ u i false rfl ⟨g.phase, g.flag, free_set (by simp) g.free⟩ (get_set hi)
    refine ⟨t, hu.trans ht, gt, ?_⟩
    rw [h]
    exact alive_set hi (by simp) (by simp)
  cases a with
  | outside => exact drive c _ s i false rfl g hi
  | woken => exact drive c _ s i true rfl g hi
  | asleep =>
    let u : Sys := { s with threads := s.threads.set i .woken }
    have hu : Steps c s u := by
      refine .tail (.wake i) (.refl s) ?_
      simp only [step]
      rw [hi]
    obtain ⟨t, ht, gt, h⟩ := drive c _ u i true rfl ⟨g.phase, g.flag, free_set (by simp) g.free⟩ (get_set hi)
    refine ⟨t, hu.trans ht, gt, ?_⟩
    rw [h]
    exact alive_set hi (by simp) (by simp)
  | running j => exact run s j g hi
  | pushing j =>
    have hf : c.fixed = true := by
      rcases g.free with h | h
      · exact h
      · exact absurd rfl (h _ (List.mem_of_getElem? hi) j)
    cases hp : pushed c s with
    | none =>
      let u : Sys := { s with threads := s.threads.set i (.running j) }
      have hu : Steps c s u := by
        refine .tail (.callPush i) (.refl s) ?_
        simp only [step]
        rw [hi]
        simp only [hp, if_pos hf]
        rfl
      obtain ⟨t, ht, gt, h⟩ := run u j ⟨g.phase, g.flag, Or.inl hf⟩ (get_set hi)
      refine ⟨t, hu.trans ht, gt, ?_⟩
      rw [h]
      exact alive_set hi (by simp) (by simp)
    | some v =>
      have hv : v.phase = s.phase ∧ v.pool.stop = s.pool.stop ∧ v.pool.stopNow = s.pool.stopNow ∧
          v.threads = s.threads.map Thread.notify := by
        unfold pushed at hp
        cases hac : accept c s.pool s.next with
        | none => rw [hac] at hp; simp at hp
        | some p =>
          rw [hac] at hp
          obtain ⟨_, rfl⟩ := accept_eq hac
          have := (Option.some.inj hp).symm
          rw [this]; exact ⟨rfl, rfl, rfl, rfl⟩
      have hvi : v.threads[i]? = some (.pushing j) := by rw [hv.2.2.2, List.getElem?_map, hi]; rfl
      let u : Sys := { v with threads := v.threads.set i (.running j) }
      have hu : Steps c s u := by
        refine .tail (.callPush i) (.refl s) ?_
        simp only [step]
        rw [hi]
        simp only [hp]
        rfl
      have gu : Good c u := ⟨hv.1.trans g.phase, by
        show v.pool.stop = true ∨ v.pool.stopNow = true
        rw [hv.2.1, hv.2.2.1]; exact g.flag, Or.inl hf⟩
      obtain ⟨t, ht, gt, h⟩ := run u j gu (get_set hvi)
      refine ⟨t, hu.trans ht, gt, ?_⟩
      rw [h]
      show total alive (v.threads.set i (.running j)) = _
      rw [alive_set hvi (by simp) (by simp), hv.2.2.2, total_map alive_notify]
  | exited => exact absurd rfl ha

theorem shutdown_ends {c : Cfg} (n : Nat) : ∀ s : Sys, Inv c 0 s → Good c s → total alive s.threads = n →
    ∃ t, Steps c s t ∧ t.phase = .closed := by
  induction n with
  | zero =>
    intro s v g hn
    refine ⟨close c s, .tail (.poll none) (.refl s) ?_, ?_⟩
    · have : s.pool.numThreads = 0 := by rw [v.count, hn]
      simp only [step]
      rw [if_pos g.phase, if_pos this]
    · unfold close; split <;> rfl
  | succ n ih =>
    intro s v g hn
    obtain ⟨i, a, hi, ha⟩ := exists_alive (l := s.threads) (by omega)
    obtain ⟨t, ht, gt, hd⟩ := drive_any g hi ha
    obtain ⟨u, hu, hc⟩ := ih t (steps_micros v ht).2 gt (by omega)
    exact ⟨u, ht.trans hu, hc⟩

/-- All threads in a call of `push`, the queue full: nothing happens any more. -/
def Stuck (c : Cfg) (s : Sys) : Prop :=
  c.fixed = false ∧ s.pool.qindex = c.cap ∧ s.phase ≠ .closed ∧ s.pool.numThreads ≠ 0 ∧ ∀ t ∈ s.threads, ∃ j, t = Thread.pushing j

theorem stuck_step {c : Cfg} {s t : Sys} {e : Event} (k : Stuck c s) (h : step c s e = some t) :
    Stuck c t ∧ t.threads = s.threads ∧ t.finished = s.finished := by
  obtain ⟨hf, hq, hp, hn, ht⟩ := k
  have hpu : pushed c s = none := by
    have : accept c s.pool s.next = none := if_neg (by omega)
    unfold pushed; rw [this]
  have hth : ∀ i x, s.threads[i]? = some x → ∃ j, x = Thread.pushing j := fun i x hx => ht x (List.mem_of_getElem? hx)
  cases e with
  | push =>
    simp only [step] at h
    rw [if_neg hp, hpu] at h
    have : s = t := by simpa using h
    rw [← this]; exact ⟨⟨hf, hq, hp, hn, ht⟩, rfl, rfl⟩
  | callPush i =>
    simp only [step, hpu] at h
    split at h
    · rw [if_neg (by rw [hf]; simp)] at h
      have : s = t := by simpa using h
      rw [← this]; exact ⟨⟨hf, hq, hp, hn, ht⟩, rfl, rfl⟩
    · simp at h
  | call i =>
    simp only [step] at h
    split at h
    · rename_i hi; obtain ⟨_, hx⟩ := hth i _ hi; simp at hx
    · simp at h
  | work i =>
    simp only [step] at h
    split at h
    · rename_i hi; obtain ⟨_, hx⟩ := hth i _ hi; simp at hx
    · rename_i hi; obtain ⟨_, hx⟩ := hth i _ hi; simp at hx
    · simp at h
  | finish i =>
    simp only [step] at h
    split at h
    · rename_i hi; obtain ⟨_, hx⟩ := hth i _ hi; simp at hx
    · simp at h
  | wake i =>
    simp only [step] at h
    split at h
    · rename_i hi; obtain ⟨_, hx⟩ := hth i _ hi; simp at hx
    · simp at h
  | shutdown now =>
    simp only [step] at h
    split at h
    · have hm : s.threads.map Thread.notify = s.threads := by
        have : s.threads.map Thread.notify = s.threads.map id := by
          apply List.map_congr_left
          intro x hx
          obtain ⟨j, rfl⟩ := ht x hx
          rfl
        rw [this, List.map_id]
      have : t = _ := (Option.some.inj h).symm
      rw [this]
      refine ⟨⟨hf, ?_, by simp, ?_, ?_⟩, hm, rfl⟩
      · cases now <;> exact hq
      · cases now <;> exact hn
      · show ∀ t ∈ s.threads.map Thread.notify, _
        rw [hm]; exact ht
    · simp at h
  | poll i =>
    simp only [step] at h
    split at h
    · try rw [if_neg hn] at h
      cases i with
      | none =>
        simp only at h
        split at h
        · simp at h
        · have : s = t := by simpa using h
          rw [← this]; exact ⟨⟨hf, hq, hp, hn, ht⟩, rfl, rfl⟩
      | some i =>
        simp only at h
        split at h
        · rename_i hi; obtain ⟨_, hx⟩ := hth i _ hi; simp at hx
        · simp at h
    · simp at h

theorem stuck_steps {c : Cfg} {s t : Sys} (k : Stuck c s) (h : Steps c s t) :
    Stuck c t ∧ t.threads = s.threads ∧ t.finished = s.finished := by
  induction h with
  | refl => exact ⟨k, rfl, rfl⟩
  | tail e _ hs ih =>
    have := stuck_step ih.1 hs
    exact ⟨this.1, this.2.1.trans ih.2.1, this.2.2.trans ih.2.2⟩

end C3.Pool
