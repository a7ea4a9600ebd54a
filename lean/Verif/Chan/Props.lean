import Verif.Chan.LemmasGo

/-! # Properties of `BufferedChannel` -/

set_option autoImplicit false

namespace C3.Chan

variable {V : Type}

/-! ## C89: the channel is a queue -/

/-- **C89**: whatever the threads do and in whatever order they do it, the results
of the calls are those of a queue of at most `size` values: values come out in the
order they went in, none is lost and none comes out twice, `push` is refused when
the channel is closed only, and `pop` when it is closed and empty only. -/
theorem C89_queue (size : Nat) (v : V) (n : Nat) (es : List (Event V)) (s : State V)
    (h : Run size v n es s) : ∃ a, Accepts size es a := by
  obtain ⟨q, _, h2⟩ := run_inv h
  exact ⟨_, h2⟩

/-- What has come out is the first part of what has gone in, and at most `size`
values are still inside. -/
theorem C89_order (size : Nat) (v : V) (n : Nat) (es : List (Event V)) (s : State V)
    (h : Run size v n es s) : ∃ inside, ins es = outs es ++ inside ∧ inside.length ≤ size := by
  obtain ⟨q, _, h2⟩ := run_inv h
  obtain ⟨h3, h4, _⟩ := accepts_queue h2
  exact ⟨q, h3, h4⟩

/-- The bodies never touch memory outside the buffer: a thread that has the mutex
always comes to the end of what it does. -/
theorem C89_no_stop (size : Nat) (v : V) (n : Nat) (es : List (Event V)) (s : State V)
    (h : Run size v n es s) (x : V) : pushBody s.chan x ≠ none ∧ popBody s.chan ≠ none := by
  obtain ⟨q, h1, _⟩ := run_inv h
  constructor
  · rcases pushBody_cases x h1.holds with ⟨_, _, h3⟩ | ⟨_, h3⟩ | ⟨_, _, c', h3, _⟩ <;> rw [h3] <;> simp
  · rcases popBody_cases h1.holds with ⟨_, _, h3⟩ | ⟨_, _, h3⟩ | ⟨_, _, c', _, h3, _⟩ <;> rw [h3] <;> simp

/-- A run in which one thread puts 7 in and another one, that slept, takes it. -/
theorem exRun : ∃ s, Run 1 0 2 [Event.pushed 0 7, Event.popped 1 7] s := by
  have h0 : Run 1 0 2 [] ⟨init 1 0, none, [.idle, .idle]⟩ := Run.start
  have h1 := Run.silent h0 (Step.callPop (t := 1) rfl)
  have h2 := Run.silent h1 (Step.lockPop (t := 1) rfl rfl)
  have h3 := Run.silent h2 (Step.popWait (t := 1) rfl rfl rfl)
  have h4 := Run.silent h3 (Step.callPush (t := 0) (v := 7) rfl)
  have h5 := Run.silent h4 (Step.lockPush (t := 0) rfl rfl)
  have h6 := Run.event h5 (Step.pushSignal (t := 0) (v := 7) rfl rfl rfl (SignalRead.one (u := 1) rfl))
  have h7 := Run.silent h6 (Step.wakePop (t := 1) rfl rfl)
  have h8 := Run.event h7 (Step.popDone (t := 1) (v := 7) rfl rfl rfl)
  exact ⟨_, h8⟩

example : ∃ a, Accepts 1 [Event.pushed 0 7, Event.popped 1 7] a := by
  obtain ⟨s, h⟩ := exRun
  exact C89_queue _ _ _ _ _ h

/-- What is not a queue is not accepted: a value that did not go in. -/
example : ¬ ∃ a, Accepts 1 [Event.popped 1 7] a := by
  rintro ⟨a, h⟩
  have h1 := (accepts_queue h).1
  simp [ins, outs] at h1

/-! ## C90: no wake-up is lost -/

/-- **C90**: while a `pop` sleeps, there is nothing in the channel, or as many
calls of `pop` are awake as there are values, or more. -/
theorem C90_pop_sleeps (size : Nat) (v : V) (n : Nat) (es : List (Event V)) (s : State V)
    (h : Run size v n es s) (hp : ∃ p ∈ s.pcs, PopSleeps p) :
    (ins es).length - (outs es).length ≤ s.pcs.countP (fun p => match p with
      | .popIn | .popWoken => true | _ => false) := by
  obtain ⟨q, h1, h2⟩ := run_inv h
  obtain ⟨h3, _, _⟩ := accepts_queue h2
  obtain ⟨p, hpm, hps⟩ := hp
  have h4 : 0 < s.pcs.countP kPopSleep := List.countP_pos_iff.2 ⟨p, hpm, by rw [show p = _ from hps]; rfl⟩
  have h5 := h1.wait.readers h4
  have h6 : ∀ l : List (Pc V), l.countP kPopWoken + l.countP kPopIn = l.countP (fun p => match p with
      | .popIn | .popWoken => true | _ => false) := by
    intro l
    induction l with
    | nil => rfl
    | cons x l ih =>
      simp only [List.countP_cons]
      rw [← ih]
      cases x <;> simp [kPopWoken, kPopIn] <;> omega
  rw [h6, h1.holds.elems] at h5
  rw [h3, List.length_append]
  simp only at h5 ⊢
  omega

/-- While a `push` sleeps, the channel is full, or as many calls of `push` are awake
as there is room, or more. -/
theorem C90_push_sleeps (size : Nat) (v : V) (n : Nat) (es : List (Event V)) (s : State V)
    (h : Run size v n es s) (hp : ∃ p ∈ s.pcs, PushSleeps p) :
    size - ((ins es).length - (outs es).length) ≤ s.pcs.countP (fun p => match p with
      | .pushIn _ | .pushWoken _ => true | _ => false) := by
  obtain ⟨q, h1, h2⟩ := run_inv h
  obtain ⟨h3, _, _⟩ := accepts_queue h2
  obtain ⟨p, hpm, x, hps⟩ := hp
  have h4 : 0 < s.pcs.countP kPushSleep := List.countP_pos_iff.2 ⟨p, hpm, by rw [hps]; rfl⟩
  have h5 := h1.wait.senders h4
  have h6 : ∀ l : List (Pc V), l.countP kPushWoken + l.countP kPushIn = l.countP (fun p => match p with
      | .pushIn _ | .pushWoken _ => true | _ => false) := by
    intro l
    induction l with
    | nil => rfl
    | cons x l ih =>
      simp only [List.countP_cons]
      rw [← ih]
      cases x <;> simp [kPushWoken, kPushIn] <;> omega
  rw [h6, h1.holds.elems, h1.size] at h5
  rw [h3, List.length_append]
  simp only at h5 ⊢
  omega

/-- After a `close` nobody sleeps. -/
theorem C90_closed (size : Nat) (v : V) (n : Nat) (es : List (Event V)) (s : State V)
    (h : Run size v n es s) (hc : ∃ t, Event.closed t ∈ es) :
    ∀ p ∈ s.pcs, ¬ PopSleeps p ∧ ¬ PushSleeps p := by
  obtain ⟨q, h1, h2⟩ := run_inv h
  obtain ⟨_, _, h4⟩ := accepts_queue h2
  obtain ⟨h5, h6⟩ := h1.wait.open' (h4.2 hc)
  rw [List.countP_eq_zero] at h5 h6
  intro p hp
  refine ⟨fun hs => ?_, fun hs => ?_⟩
  · apply h5 p hp
    rw [show p = _ from hs]; rfl
  · obtain ⟨x, hx⟩ := hs
    apply h6 p hp
    rw [hx]; rfl

/-- As long as a thread is in a call and does not sleep, one of these can go on:
the channel is never in a deadlock. -/
theorem C90_goes (size : Nat) (v : V) (n : Nat) (es : List (Event V)) (s : State V)
    (h : Run size v n es s) (ha : ∃ p ∈ s.pcs, Awake p) : ∃ s', Goes s s' := by
  obtain ⟨q, h1, _⟩ := run_inv h
  exact awake_goes h1 ha

/-- When no calls are made and no wait ends without a signal, the threads come to
rest, after a number of steps that depends on the number of threads only. -/
theorem C90_ends (size : Nat) (v : V) (n k : Nat) (es : List (Event V)) (s s' : State V)
    (h : Run size v n es s) (hg : GoesOn k s s') : k ≤ (2 * n + 4) * n := by
  have hl := run_length h
  obtain ⟨_, h2⟩ := goesOn_total hg
  have h3 := total_le s.pcs.length s.pcs
  rw [hl] at h2 h3
  omega

/-- And when they are at rest, each of them has its result or sleeps; a `pop` sleeps
when all that went in has come out only, and a `push` sleeps when the channel is
full only.  So not both sleep, but for a channel of size 0. -/
theorem C90_rest (size : Nat) (v : V) (n : Nat) (es : List (Event V)) (s : State V)
    (h : Run size v n es s) (hr : ¬ ∃ s', Goes s s') :
    (∀ p ∈ s.pcs, p = .idle ∨ PopSleeps p ∨ PushSleeps p) ∧
    ((∃ p ∈ s.pcs, PopSleeps p) → ins es = outs es) ∧
    ((∃ p ∈ s.pcs, PushSleeps p) → (ins es).length = (outs es).length + size) := by
  have hna : ∀ p ∈ s.pcs, ¬ Awake p := fun p hp ha => hr (C90_goes size v n es s h ⟨p, hp, ha⟩)
  obtain ⟨inside, h1, h2⟩ := C89_order size v n es s h
  refine ⟨?_, ?_, ?_⟩
  · intro p hp
    have := hna p hp
    cases p with
    | idle => exact Or.inl rfl
    | popSleep => exact Or.inr (Or.inl rfl)
    | pushSleep v => exact Or.inr (Or.inr ⟨v, rfl⟩)
    | pushLock v => exact absurd (Or.inr (Or.inl ⟨v, Or.inl rfl⟩)) this
    | pushIn v => exact absurd (Or.inr (Or.inl ⟨v, Or.inr (Or.inl rfl)⟩)) this
    | pushWoken v => exact absurd (Or.inr (Or.inl ⟨v, Or.inr (Or.inr rfl)⟩)) this
    | popLock => exact absurd (Or.inl (Or.inl rfl)) this
    | popIn => exact absurd (Or.inl (Or.inr (Or.inl rfl))) this
    | popWoken => exact absurd (Or.inl (Or.inr (Or.inr rfl))) this
    | closeLock => exact absurd (Or.inr (Or.inr (Or.inl rfl))) this
    | closeIn => exact absurd (Or.inr (Or.inr (Or.inr rfl))) this
  · intro hp
    have h3 := C90_pop_sleeps size v n es s h hp
    rw [countP_zero_of] at h3
    · rw [h1, List.length_append] at h3
      have : inside = [] := List.length_eq_zero_iff.1 (by omega)
      rw [h1, this, List.append_nil]
    · intro p hpm
      have := hna p hpm
      cases p with
      | popIn => exact absurd (Or.inl (Or.inr (Or.inl rfl))) this
      | popWoken => exact absurd (Or.inl (Or.inr (Or.inr rfl))) this
      | _ => rfl
  · intro hp
    have h3 := C90_push_sleeps size v n es s h hp
    rw [countP_zero_of] at h3
    · rw [h1, List.length_append] at h3 ⊢
      omega
    · intro p hpm
      have := hna p hpm
      cases p with
      | pushIn v => exact absurd (Or.inr (Or.inl ⟨v, Or.inr (Or.inl rfl)⟩)) this
      | pushWoken v => exact absurd (Or.inr (Or.inl ⟨v, Or.inr (Or.inr rfl)⟩)) this
      | _ => rfl

/-- A channel of size 0 lets nothing through: no `push` has a result before the
channel is closed. -/
theorem C90_size_zero (v : V) (n : Nat) (es : List (Event V)) (s : State V) (h : Run 0 v n es s) :
    ins es = [] := by
  have h1 : ∀ (es : List (Event V)) (a : List V × Bool), Accepts 0 es a → ins es = [] := by
    intro es a ha
    induction ha with
    | nil => rfl
    | snoc _ hs ih =>
      rw [ins_append, ih]
      cases hs with
      | pushed hl => exact absurd hl (Nat.not_lt_zero _)
      | _ => rfl
  obtain ⟨a, ha⟩ := C89_queue 0 v n es s h
  exact h1 es a ha

/-- A state at rest with a thread that sleeps: a `pop` of an empty channel. -/
example : ∃ s, Run 1 (0 : Nat) 1 [] s ∧ s.pcs = [.popSleep] := by
  have h0 : Run 1 (0 : Nat) 1 [] ⟨init 1 0, none, [.idle]⟩ := Run.start
  have h1 := Run.silent h0 (Step.callPop (t := 0) rfl)
  have h2 := Run.silent h1 (Step.lockPop (t := 0) rfl rfl)
  have h3 := Run.silent h2 (Step.popWait (t := 0) rfl rfl rfl)
  exact ⟨_, h3, rfl⟩

end C3.Chan
