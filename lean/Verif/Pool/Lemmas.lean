import Verif.Pool.Spec

set_option autoImplicit false

namespace C3.Pool

/-- The events, taken apart. -/
inductive Micro (c : Cfg) (s : Sys) : Sys → Prop where
  | push (p : Pool) : s.phase ≠ .closed → accept c s.pool s.next = some p →
      Micro c s { s with pool := p, threads := s.threads.map Thread.notify, next := s.next + 1 }
  | move (i : Nat) (a b : Thread) : s.threads[i]? = some a → a.job = b.job → a ≠ .exited → b ≠ .exited → b ≠ .asleep →
      (a.job = none → a = .asleep ∧ b = .woken) →
      Micro c s { s with threads := s.threads.set i b }
  | exit (i : Nat) (w : Bool) : s.threads[i]? = some (if w then .woken else .outside) →
      ((w || c.fixed) = true ∧ s.pool.stopNow = true ∨ s.pool.qindex = 0 ∧ s.pool.stop = true) →
      Micro c s { s with pool := { s.pool with numThreads := s.pool.numThreads - 1 }, threads := s.threads.set i .exited }
  | sleep (i : Nat) (w : Bool) : s.threads[i]? = some (if w then .woken else .outside) → s.pool.qindex = 0 → s.pool.stop = false →
      ¬ ((w || c.fixed) = true ∧ s.pool.stopNow = true) → Micro c s { s with threads := s.threads.set i .asleep }
  | take (i : Nat) (w : Bool) : s.threads[i]? = some (if w then .woken else .outside) → s.pool.qindex ≠ 0 →
      ¬ ((w || c.fixed) = true ∧ s.pool.stopNow = true) →
      Micro c s { s with pool := { s.pool with qindex := s.pool.qindex - 1 },
                         threads := s.threads.set i (.running (s.pool.slots (s.pool.qindex - 1))) }
  | finish (i j : Nat) : s.threads[i]? = some (.running j) →
      Micro c s { s with threads := s.threads.set i .outside, finished := s.finished ++ [j],
                         freed := if c.fixed then s.freed ++ [j] else s.freed }
  | shutdown (now : Bool) : s.phase = .working →
      Micro c s { s with pool := if now then { s.pool with stopNow := true } else { s.pool with stop := true },
                         threads := s.threads.map Thread.notify, phase := .closing }
  | close : s.phase = .closing → s.pool.numThreads = 0 → Micro c s (close c s)

inductive Micros (c : Cfg) : Sys → Sys → Prop where
  | refl (s : Sys) : Micros c s s
  | tail {s t u : Sys} : Micros c s t → Micro c t u → Micros c s u

theorem Micros.one {c : Cfg} {s t : Sys} (m : Micro c s t) : Micros c s t := .tail (.refl s) m

theorem Micros.trans {c : Cfg} {s t u : Sys} (a : Micros c s t) (b : Micros c t u) : Micros c s u := by
  induction b with
  | refl => exact a
  | tail _ m ih => exact .tail ih m

theorem work_micro {c : Cfg} {s : Sys} {i : Nat} {w : Bool} (h : s.threads[i]? = some (if w then .woken else .outside)) :
    Micro c s { s with pool := (work c w s.pool).1, threads := s.threads.set i (work c w s.pool).2 } := by
  by_cases h1 : (w || c.fixed) = true ∧ s.pool.stopNow = true
  · have e : work c w s.pool = ({ s.pool with numThreads := s.pool.numThreads - 1 }, .exited) := by
      unfold work; rw [if_pos (by simp only [h1, Bool.and_self])]
    rw [e]; exact .exit i w h (Or.inl h1)
  · have e1 : ¬ ((w || c.fixed) && s.pool.stopNow) = true := by rw [Bool.and_eq_true]; exact h1
    by_cases h2 : s.pool.qindex = 0
    · cases h3 : s.pool.stop
      · have e : work c w s.pool = (s.pool, .asleep) := by
          unfold work; rw [if_neg e1, if_pos h2, h3]; rfl
        rw [e]; exact .sleep i w h h2 h3 h1
      · have e : work c w s.pool = ({ s.pool with numThreads := s.pool.numThreads - 1 }, .exited) := by
          unfold work; rw [if_neg e1, if_pos h2, if_pos h3]
        rw [e]; exact .exit i w h (Or.inr ⟨h2, h3⟩)
    · have e : work c w s.pool = ({ s.pool with qindex := s.pool.qindex - 1 }, .running (s.pool.slots (s.pool.qindex - 1))) := by
        unfold work; rw [if_neg e1, if_neg h2]
      rw [e]; exact .take i w h h2 h1

theorem pushed_micro {c : Cfg} {s t : Sys} (hp : s.phase ≠ .closed) (h : pushed c s = some t) : Micro c s t := by
  unfold pushed at h
  cases ha : accept c s.pool s.next with
  | none => rw [ha] at h; simp at h
  | some p =>
    rw [ha] at h
    have : t = { s with pool := p, threads := s.threads.map Thread.notify, next := s.next + 1 } := by
      simpa using h.symm
    rw [this]; exact .push p hp ha

/-- An event is none or a few of the parts; in a closed pool no thread may be in work (else nothing is said). -/
theorem step_micros {c : Cfg} {s t : Sys} {e : Event} (hc : s.phase = .closed → AllExited s) (h : step c s e = some t) :
    Micros c s t := by
  cases e with
  | push =>
    simp only [step] at h
    split at h
    · simp at h
    · rename_i hp
      cases hq : pushed c s with
      | none =>
        rw [hq] at h
        have : s = t := by simpa using h
        rw [this]; exact .refl t
      | some u =>
        rw [hq] at h
        have : u = t := by simpa using h
        rw [← this]; exact .one (pushed_micro hp hq)
  | call i =>
    simp only [step] at h
    split at h
    · rename_i j hi
      have : t = _ := (Option.some.inj h).symm
      rw [this]
      exact .one (.move i (.running j) (.pushing j) hi rfl (by simp) (by simp) (by simp) (by simp [Thread.job]))
    · simp at h
  | callPush i =>
    simp only [step] at h
    split at h
    · rename_i j hi
      split at h
      · rename_i u hu
        have : t = _ := (Option.some.inj h).symm
        rw [this]
        have hp : s.phase ≠ .closed := fun hp => by
          have := hc hp _ (List.mem_of_getElem? hi)
          simp at this
        have m1 := pushed_micro hp hu
        have hi' : u.threads[i]? = some (.pushing j) := by
          unfold pushed at hu
          split at hu
          · simp at hu
          · have : u = _ := (Option.some.inj hu).symm
            rw [this]
            simp [hi, Thread.notify]
        exact .tail (.one m1) (.move i (.pushing j) (.running j) hi' rfl (by simp) (by simp) (by simp) (by simp [Thread.job]))
      · split at h
        · have : t = _ := (Option.some.inj h).symm
          rw [this]
          exact .one (.move i (.pushing j) (.running j) hi rfl (by simp) (by simp) (by simp) (by simp [Thread.job]))
        · have : s = t := by simpa using h
          rw [this]; exact .refl t
    · simp at h
  | work i =>
    simp only [step] at h
    split at h
    · rename_i hi
      have : t = _ := (Option.some.inj h).symm
      rw [this]; exact .one (work_micro (w := false) hi)
    · rename_i hi
      have : t = _ := (Option.some.inj h).symm
      rw [this]; exact .one (work_micro (w := true) hi)
    · simp at h
  | finish i =>
    simp only [step] at h
    split at h
    · rename_i j hi
      have : t = _ := (Option.some.inj h).symm
      rw [this]; exact .one (.finish i j hi)
    · simp at h
  | wake i =>
    simp only [step] at h
    split at h
    · rename_i hi
      have : t = _ := (Option.some.inj h).symm
      rw [this]
      exact .one (.move i .asleep .woken hi rfl (by simp) (by simp) (by simp) (by simp))
    · simp at h
  | shutdown now =>
    simp only [step] at h
    by_cases hw : s.phase = .working
    · rw [if_pos hw] at h
      have : t = _ := (Option.some.inj h).symm
      rw [this]; exact .one (.shutdown now hw)
    · rw [if_neg hw] at h; simp at h
  | poll i =>
    simp only [step] at h
    by_cases hw : s.phase = .closing
    · rw [if_pos hw] at h
      by_cases hn : s.pool.numThreads = 0
      · rw [if_pos hn] at h
        have : t = _ := (Option.some.inj h).symm
        rw [this]; exact .one (.close hw hn)
      · rw [if_neg hn] at h
        cases i with
        | none =>
          simp only at h
          split at h
          · simp at h
          · have : s = t := by simpa using h
            rw [this]; exact .refl t
        | some i =>
          simp only at h
          split at h
          · rename_i hi
            have : t = _ := (Option.some.inj h).symm
            rw [this]
            exact .one (.move i .asleep .woken hi rfl (by simp) (by simp) (by simp) (by simp))
          · simp at h
    · rw [if_neg hw] at h; simp at h

/-- A sum over the threads. -/
def total (f : Thread → Nat) (l : List Thread) : Nat := (l.map f).sum

theorem total_set {f : Thread → Nat} {l : List Thread} {i : Nat} {a : Thread} (b : Thread) (h : l[i]? = some a) :
    total f (l.set i b) + f a = total f l + f b := by
  induction l generalizing i with
  | nil => simp at h
  | cons x l ih =>
    cases i with
    | zero =>
      have : x = a := by simpa using h
      subst this
      simp [total]; omega
    | succ i =>
      have := ih (i := i) (by simpa using h)
      simp [total] at this ⊢; omega

theorem total_map {f : Thread → Nat} (hf : ∀ t, f t.notify = f t) (l : List Thread) : total f (l.map Thread.notify) = total f l := by
  induction l with
  | nil => rfl
  | cons x l ih => simp [total, hf] at ih ⊢; omega

theorem total_zero {f : Thread → Nat} {l : List Thread} (h : total f l = 0) : ∀ t ∈ l, f t = 0 := by
  induction l with
  | nil => simp
  | cons x l ih =>
    simp [total] at h
    intro t ht
    rcases List.mem_cons.1 ht with rfl | ht
    · omega
    · exact ih (by simp [total]; exact h.2) t ht

def alive (t : Thread) : Nat := if t = .exited then 0 else 1

def has (j : Nat) (t : Thread) : Nat := if t.job = some j then 1 else 0

theorem alive_notify (t : Thread) : alive t.notify = alive t := by cases t <;> rfl

theorem has_notify (j : Nat) (t : Thread) : has j t.notify = has j t := by cases t <;> rfl

theorem count_inWork (j : Nat) (l : List Thread) : (l.filterMap Thread.job).count j = total (has j) l := by
  induction l with
  | nil => rfl
  | cons x l ih =>
    cases h : x.job with
    | none => simp [h, total, has, ih]
    | some k =>
      by_cases e : k = j
      · subst e
        simp [h, total, has] at ih ⊢; omega
      · simp [h, total, has, e] at ih ⊢; exact ih

def queued (slots : Nat → Nat) (q : Nat) : List Nat := (List.range q).map slots

theorem queued_push (slots : Nat → Nat) (q j : Nat) :
    queued (fun i => if i = q then j else slots i) (q + 1) = queued slots q ++ [j] := by
  simp only [queued, List.range_succ, List.map_append, List.map_cons, List.map_nil, if_true]
  congr 1
  apply List.map_congr_left
  intro i hi
  rw [if_neg]
  have := List.mem_range.1 hi
  omega

theorem queued_take (slots : Nat → Nat) (q : Nat) (h : q ≠ 0) : queued slots q = queued slots (q - 1) ++ [slots (q - 1)] := by
  obtain ⟨n, rfl⟩ : ∃ n, q = n + 1 := ⟨q - 1, by omega⟩
  simp [queued, List.range_succ]

theorem accept_eq {c : Cfg} {p q : Pool} {j : Nat} (h : accept c p j = some q) :
    p.qindex < c.cap ∧ q = { p with slots := fun i => if i = p.qindex then j else p.slots i, qindex := p.qindex + 1 } := by
  unfold accept at h
  by_cases hc : p.qindex < c.cap
  · rw [if_pos hc] at h
    exact ⟨hc, (Option.some.inj h).symm⟩
  · rw [if_neg hc] at h; simp at h

/-- The invariant; `extra` threads could not be made. -/
structure Inv (c : Cfg) (extra : Nat) (s : Sys) : Prop where
  count : s.pool.numThreads = total alive s.threads + extra
  closed : s.phase = .closed → s.pool.numThreads = 0
  awake : s.pool.qindex ≠ 0 → Thread.asleep ∉ s.threads
  flags : (s.pool.stop = true ∨ s.pool.stopNow = true) ↔ s.phase ≠ .working
  exited : Thread.exited ∈ s.threads → s.pool.stop = true ∨ s.pool.stopNow = true
  cap : s.pool.qindex ≤ c.cap
  once : s.phase ≠ .closed → ∀ j, (queued s.pool.slots s.pool.qindex).count j + total (has j) s.threads + s.finished.count j = if j < s.next then 1 else 0
  most : ∀ j, total (has j) s.threads + s.finished.count j ≤ if j < s.next then 1 else 0
  freed : c.fixed = true → ∀ j, (queued s.pool.slots s.pool.qindex).count j + total (has j) s.threads + s.freed.count j = if j < s.next then 1 else 0
  same : s.phase ≠ .closed → c.fixed = true → s.freed = s.finished

theorem mem_set {l : List Thread} {i : Nat} {b t : Thread} (h : t ∈ l.set i b) : t ∈ l ∨ t = b := List.mem_or_eq_of_mem_set h

theorem mem_notify {l : List Thread} {t : Thread} (h : t ∈ l.map Thread.notify) : t ≠ .asleep ∧ (t = .woken ∨ t ∈ l) := by
  obtain ⟨x, hx, rfl⟩ := List.mem_map.1 h
  cases x <;> simp [Thread.notify] <;> exact hx

theorem total_has_zero {l : List Thread} (h : ∀ t ∈ l, t = .exited) (j : Nat) : total (has j) l = 0 := by
  induction l with
  | nil => rfl
  | cons x l ih =>
    have hx := h x (by simp)
    subst hx
    have := ih (fun t ht => h t (List.mem_cons_of_mem _ ht))
    simp [total, has, Thread.job] at this ⊢
    exact this

theorem Inv.allExited {c : Cfg} {extra : Nat} {s : Sys} (v : Inv c extra s) (h : s.phase = .closed) : AllExited s := by
  intro t ht
  have h0 := v.count
  rw [v.closed h] at h0
  have := total_zero (show total alive s.threads = 0 by omega) t ht
  unfold alive at this
  by_cases e : t = .exited
  · exact e
  · rw [if_neg e] at this; omega

theorem alive_one {t : Thread} (h : t ≠ .exited) : alive t = 1 := if_neg h

theorem not_exited_open {c : Cfg} {extra : Nat} {s : Sys} (v : Inv c extra s) {i : Nat} {a : Thread} (h : s.threads[i]? = some a)
    (ha : a ≠ .exited) : s.phase ≠ .closed := fun hp => ha (v.allExited hp a (List.mem_of_getElem? h))

theorem ite_zero_thread (w : Bool) (j : Nat) : has j (if w then .woken else .outside) = 0 := by cases w <;> rfl

theorem ite_alive_thread (w : Bool) : alive (if w then .woken else .outside) = 1 := by cases w <;> rfl

theorem ite_ne (w : Bool) : (if w then Thread.woken else .outside) ≠ .exited := by cases w <;> simp

theorem inv_micro {c : Cfg} {extra : Nat} {s t : Sys} (v : Inv c extra s) (m : Micro c s t) : Inv c extra t := by
  cases m with
  | push p hp ha =>
    obtain ⟨hc, rfl⟩ := accept_eq ha
    refine ⟨?_, fun h => v.closed h, ?_, v.flags, ?_, ?_, ?_, ?_, ?_, v.same⟩
    · show s.pool.numThreads = _
      rw [total_map alive_notify]; exact v.count
    · exact fun _ h => (mem_notify h).1 rfl
    · intro h
      rcases (mem_notify h).2 with h | h
      · simp at h
      · exact v.exited h
    · show s.pool.qindex + 1 ≤ _
      omega
    · intro _ j
      have h := v.once hp j
      show (queued (fun i => if i = s.pool.qindex then s.next else s.pool.slots i) (s.pool.qindex + 1)).count j + total (has j) (s.threads.map Thread.notify) + s.finished.count j = if j < s.next + 1 then 1 else 0
      rw [queued_push, total_map (has_notify j), List.count_append, List.count_singleton]
      have e0 : (if (s.next == j) = true then 1 else 0 : Nat) = if s.next = j then 1 else 0 := by simp
      rw [e0]
      split at h <;> split <;> split <;> omega
    · intro j
      have h := v.most j
      show total (has j) (s.threads.map Thread.notify) + s.finished.count j ≤ if j < s.next + 1 then 1 else 0
      rw [total_map (has_notify j)]
      by_cases e2 : j < s.next
      · rw [if_pos e2] at h; rw [if_pos (by omega)]; exact h
      · rw [if_neg e2] at h; omega
    · intro hf j
      have h := v.freed hf j
      show (queued (fun i => if i = s.pool.qindex then s.next else s.pool.slots i) (s.pool.qindex + 1)).count j + total (has j) (s.threads.map Thread.notify) + s.freed.count j = if j < s.next + 1 then 1 else 0
      rw [queued_push, total_map (has_notify j), List.count_append, List.count_singleton]
      have e0 : (if (s.next == j) = true then 1 else 0 : Nat) = if s.next = j then 1 else 0 := by simp
      rw [e0]
      split at h <;> split <;> split <;> omega
  | move i a b hi hj ha hb hs _ =>
    have ht : ∀ j, total (has j) (s.threads.set i b) = total (has j) s.threads := by
      intro j
      have := total_set (f := has j) b hi
      have e : has j a = has j b := by unfold has; rw [hj]
      omega
    refine ⟨?_, v.closed, ?_, v.flags, ?_, v.cap, ?_, ?_, ?_, v.same⟩
    · have := total_set (f := alive) b hi
      rw [alive_one ha, alive_one hb] at this
      have hc := v.count
      show s.pool.numThreads = total alive (s.threads.set i b) + extra
      omega
    · intro hq h
      rcases mem_set h with h | h
      · exact v.awake hq h
      · exact hs h.symm
    · intro h
      rcases mem_set h with h | h
      · exact v.exited h
      · exact absurd h.symm hb
    · intro hp j
      show _ + total (has j) (s.threads.set i b) + _ = _
      rw [ht j]; exact v.once hp j
    · intro j
      show total (has j) (s.threads.set i b) + _ ≤ _
      rw [ht j]; exact v.most j
    · intro hf j
      show _ + total (has j) (s.threads.set i b) + _ = _
      rw [ht j]; exact v.freed hf j
  | exit i w hi hr =>
    have hopen := not_exited_open v hi (ite_ne w)
    have ht : ∀ j, total (has j) (s.threads.set i .exited) = total (has j) s.threads := by
      intro j
      have := total_set (f := has j) .exited hi
      rw [ite_zero_thread] at this
      have e : has j Thread.exited = 0 := rfl
      omega
    refine ⟨?_, fun h => absurd h hopen, ?_, v.flags, ?_, v.cap, ?_, ?_, ?_, v.same⟩
    · have := total_set (f := alive) .exited hi
      rw [ite_alive_thread] at this
      have e : alive Thread.exited = 0 := rfl
      have hc := v.count
      show s.pool.numThreads - 1 = total alive (s.threads.set i .exited) + extra
      omega
    · intro hq h
      rcases mem_set h with h | h
      · exact v.awake hq h
      · simp at h
    · intro _
      show s.pool.stop = true ∨ s.pool.stopNow = true
      rcases hr with h | h
      · exact Or.inr h.2
      · exact Or.inl h.2
    · intro hp j
      show _ + total (has j) (s.threads.set i .exited) + _ = _
      rw [ht j]; exact v.once hp j
    · intro j
      show total (has j) (s.threads.set i .exited) + _ ≤ _
      rw [ht j]; exact v.most j
    · intro hf j
      show _ + total (has j) (s.threads.set i .exited) + _ = _
      rw [ht j]; exact v.freed hf j
  | sleep i w hi hq hs hn =>
    have ht : ∀ j, total (has j) (s.threads.set i .asleep) = total (has j) s.threads := by
      intro j
      have := total_set (f := has j) .asleep hi
      rw [ite_zero_thread] at this
      have e : has j Thread.asleep = 0 := rfl
      omega
    refine ⟨?_, v.closed, fun h => absurd hq h, v.flags, ?_, v.cap, ?_, ?_, ?_, v.same⟩
    · have := total_set (f := alive) .asleep hi
      rw [ite_alive_thread] at this
      have e : alive Thread.asleep = 1 := rfl
      have hc := v.count
      show s.pool.numThreads = total alive (s.threads.set i .asleep) + extra
      omega
    · intro h
      rcases mem_set h with h | h
      · exact v.exited h
      · simp at h
    · intro hp j
      show _ + total (has j) (s.threads.set i .asleep) + _ = _
      rw [ht j]; exact v.once hp j
    · intro j
      show total (has j) (s.threads.set i .asleep) + _ ≤ _
      rw [ht j]; exact v.most j
    · intro hf j
      show _ + total (has j) (s.threads.set i .asleep) + _ = _
      rw [ht j]; exact v.freed hf j
  | take i w hi hq hn =>
    have hopen := not_exited_open v hi (ite_ne w)
    have hqt := queued_take s.pool.slots s.pool.qindex hq
    have ht : ∀ j, (queued s.pool.slots (s.pool.qindex - 1)).count j +
        total (has j) (s.threads.set i (.running (s.pool.slots (s.pool.qindex - 1)))) =
        (queued s.pool.slots s.pool.qindex).count j + total (has j) s.threads := by
      intro j
      have := total_set (f := has j) (.running (s.pool.slots (s.pool.qindex - 1))) hi
      rw [ite_zero_thread] at this
      rw [hqt, List.count_append, List.count_singleton]
      have e : has j (.running (s.pool.slots (s.pool.qindex - 1))) = if s.pool.slots (s.pool.qindex - 1) == j then 1 else 0 := by
        unfold has Thread.job; simp
      omega
    refine ⟨?_, v.closed, ?_, v.flags, ?_, ?_, ?_, ?_, ?_, v.same⟩
    · have := total_set (f := alive) (.running (s.pool.slots (s.pool.qindex - 1))) hi
      rw [ite_alive_thread, alive_one (by simp)] at this
      have hc := v.count
      show s.pool.numThreads = total alive (s.threads.set i _) + extra
      omega
    · intro _ h
      rcases mem_set h with h | h
      · exact v.awake hq h
      · simp at h
    · intro h
      rcases mem_set h with h | h
      · exact v.exited h
      · simp at h
    · have := v.cap
      show s.pool.qindex - 1 ≤ _
      omega
    · intro hp j
      have := v.once hp j
      have := ht j
      show (queued s.pool.slots (s.pool.qindex - 1)).count j + total (has j) (s.threads.set i _) + s.finished.count j = if j < s.next then 1 else 0
      omega
    · intro j
      have := v.once hopen j
      have := ht j
      show total (has j) (s.threads.set i _) + s.finished.count j ≤ if j < s.next then 1 else 0
      omega
    · intro hf j
      have := v.freed hf j
      have := ht j
      show (queued s.pool.slots (s.pool.qindex - 1)).count j + total (has j) (s.threads.set i _) + s.freed.count j = if j < s.next then 1 else 0
      omega
  | finish i j hi =>
    have hopen := not_exited_open v hi (by simp)
    have ht : ∀ k, total (has k) (s.threads.set i .outside) + (if j = k then 1 else 0) = total (has k) s.threads := by
      intro k
      have := total_set (f := has k) .outside hi
      have e : has k Thread.outside = 0 := rfl
      have e2 : has k (.running j) = if j = k then 1 else 0 := by unfold has Thread.job; simp
      omega
    have hc1 : ∀ k (l : List Nat), (l ++ [j]).count k = l.count k + if j = k then 1 else 0 := by
      intro k l
      rw [List.count_append, List.count_singleton]; simp
    refine ⟨?_, v.closed, ?_, v.flags, ?_, v.cap, ?_, ?_, ?_, ?_⟩
    · have := total_set (f := alive) .outside hi
      rw [alive_one (by simp), alive_one (by simp)] at this
      have hc := v.count
      show s.pool.numThreads = total alive (s.threads.set i .outside) + extra
      omega
    · intro hq h
      rcases mem_set h with h | h
      · exact v.awake hq h
      · simp at h
    · intro h
      rcases mem_set h with h | h
      · exact v.exited h
      · simp at h
    · intro hp k
      have := v.once hp k
      have := ht k
      show _ + total (has k) (s.threads.set i .outside) + (s.finished ++ [j]).count k = if k < s.next then 1 else 0
      rw [hc1]
      show (queued s.pool.slots s.pool.qindex).count k + _ + _ = _
      omega
    · intro k
      have := v.most k
      have := ht k
      show total (has k) (s.threads.set i .outside) + (s.finished ++ [j]).count k ≤ if k < s.next then 1 else 0
      rw [hc1]
      omega
    · intro hf k
      have := v.freed hf k
      have := ht k
      show _ + total (has k) (s.threads.set i .outside) + (if c.fixed then s.freed ++ [j] else s.freed).count k = if k < s.next then 1 else 0
      rw [if_pos hf, hc1]
      show (queued s.pool.slots s.pool.qindex).count k + _ + _ = _
      omega
    · intro hp hf
      show (if c.fixed then s.freed ++ [j] else s.freed) = s.finished ++ [j]
      rw [if_pos hf, v.same hp hf]
  | shutdown now hw =>
    have hnc : s.phase ≠ .closed := by rw [hw]; simp
    have hq : (if now then { s.pool with stopNow := true } else { s.pool with stop := true } : Pool).qindex = s.pool.qindex := by
      cases now <;> rfl
    have hqd : queued (if now then { s.pool with stopNow := true } else { s.pool with stop := true } : Pool).slots (if now then { s.pool with stopNow := true } else { s.pool with stop := true } : Pool).qindex = queued s.pool.slots s.pool.qindex := by
      cases now <;> rfl
    have hn : (if now then { s.pool with stopNow := true } else { s.pool with stop := true } : Pool).numThreads = s.pool.numThreads := by
      cases now <;> rfl
    have hfl : (if now then { s.pool with stopNow := true } else { s.pool with stop := true } : Pool).stop = true ∨
        (if now then { s.pool with stopNow := true } else { s.pool with stop := true } : Pool).stopNow = true := by
      cases now
      · exact Or.inl rfl
      · exact Or.inr rfl
    refine ⟨?_, fun h => by simp at h, ?_, ?_, fun _ => hfl, ?_, ?_, ?_, ?_, fun _ hf => v.same hnc hf⟩
    · show (if now then _ else _ : Pool).numThreads = total alive (s.threads.map Thread.notify) + extra
      rw [hn, total_map alive_notify]; exact v.count
    · exact fun _ h => (mem_notify h).1 rfl
    · exact ⟨fun _ => by simp, fun _ => hfl⟩
    · show (if now then _ else _ : Pool).qindex ≤ _
      rw [hq]; exact v.cap
    · intro _ j
      show (queued (if now then _ else _ : Pool).slots (if now then _ else _ : Pool).qindex).count j + total (has j) (s.threads.map Thread.notify) + _ = _
      rw [hqd, total_map (has_notify j)]; exact v.once hnc j
    · intro j
      show total (has j) (s.threads.map Thread.notify) + _ ≤ _
      rw [total_map (has_notify j)]; exact v.most j
    · intro hf j
      show (queued (if now then _ else _ : Pool).slots (if now then _ else _ : Pool).qindex).count j + total (has j) (s.threads.map Thread.notify) + _ = _
      rw [hqd, total_map (has_notify j)]; exact v.freed hf j
  | close hc hn =>
    have hopen : s.phase ≠ .closed := by rw [hc]; simp
    unfold close
    by_cases hf : c.fixed = true
    · rw [if_pos hf]
      refine ⟨v.count, fun _ => hn, fun h => absurd rfl h, ?_, v.exited, Nat.zero_le _, fun h => absurd rfl h, v.most, ?_, fun h => absurd rfl h⟩
      · exact ⟨fun _ => by simp, fun _ => v.flags.2 (by rw [hc]; simp)⟩
      · intro _ j
        have := v.freed hf j
        have e : (List.map s.pool.slots (List.range s.pool.qindex).reverse).count j = (queued s.pool.slots s.pool.qindex).count j := by
          rw [List.map_reverse, List.count_reverse]; rfl
        show (queued s.pool.slots 0).count j + _ + (s.freed ++ _).count j = _
        rw [List.count_append, e]
        have e0 : (queued s.pool.slots 0).count j = 0 := rfl
        show _ + total (has j) s.threads + _ = if j < s.next then 1 else 0
        omega
    · rw [if_neg hf]
      refine ⟨v.count, fun _ => hn, v.awake, ?_, v.exited, v.cap, fun h => absurd rfl h, v.most, fun h => absurd h hf, fun h => absurd rfl h⟩
      exact ⟨fun _ => by simp, fun _ => v.flags.2 (by rw [hc]; simp)⟩

theorem inv_micros {c : Cfg} {extra : Nat} {s t : Sys} (v : Inv c extra s) (m : Micros c s t) : Inv c extra t := by
  induction m with
  | refl => exact v
  | tail _ m ih => exact inv_micro ih m

theorem total_start (k : Nat) : total alive (List.replicate k .outside) = k := by
  induction k with
  | zero => rfl
  | succ k ih =>
    have e : alive Thread.outside = 1 := rfl
    simp [List.replicate_succ, total, e] at ih ⊢; omega

theorem total_has_start (j k : Nat) : total (has j) (List.replicate k .outside) = 0 := by
  induction k with
  | zero => rfl
  | succ k ih =>
    have e : has j Thread.outside = 0 := rfl
    simp [List.replicate_succ, total, e]

theorem inv_start (c : Cfg) {n k : Nat} (h : k ≤ n) : Inv c (n - k) (start n k) := by
  refine ⟨?_, fun h => by simp [start] at h, fun h => absurd rfl h, ?_, ?_, Nat.zero_le _, ?_, ?_, ?_, fun _ _ => rfl⟩
  · show n = total alive (List.replicate k .outside) + (n - k)
    rw [total_start]; omega
  · simp [start]
  · intro h
    have : Thread.exited = .outside := List.eq_of_mem_replicate h
    simp at this
  · intro _ j
    show 0 + total (has j) (List.replicate k .outside) + 0 = if j < 0 then 1 else 0
    rw [total_has_start]; simp
  · intro j
    show total (has j) (List.replicate k .outside) + 0 ≤ _
    rw [total_has_start]; simp
  · intro _ j
    show 0 + total (has j) (List.replicate k .outside) + 0 = if j < 0 then 1 else 0
    rw [total_has_start]; simp

/-- What steps are made of, and the invariant. -/
theorem steps_micros {c : Cfg} {extra : Nat} {s t : Sys} (v : Inv c extra s) (h : Steps c s t) : Micros c s t ∧ Inv c extra t := by
  induction h with
  | refl => exact ⟨.refl s, v⟩
  | tail e _ hs ih =>
    have m := step_micros (fun hp => ih.2.allExited hp) hs
    exact ⟨ih.1.trans m, inv_micros ih.2 m⟩

theorem reachable_inv {c : Cfg} {n k : Nat} {s : Sys} (hk : k ≤ n) (h : Reachable c n k s) : Inv c (n - k) s :=
  (steps_micros (inv_start c hk) h).2

theorem Steps.trans {c : Cfg} {s t u : Sys} (a : Steps c s t) (b : Steps c t u) : Steps c s u := by
  induction b with
  | refl => exact a
  | tail e _ h ih => exact .tail e ih h

end C3.Pool
