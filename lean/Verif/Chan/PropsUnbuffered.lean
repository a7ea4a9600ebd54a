import Verif.Chan.LemmasPair

/-! # Properties of `UnbufferedChannel` -/

set_option autoImplicit false

namespace C3.Chan.Unbuf

variable {V : Type}

/-! ## C91: can the threads always go on? -/

/-- **C91**, the full claim: a channel never comes into a state from which on no
call ever ends, whatever the threads do. -/
def C91_full : Prop :=
  ∀ (n : Nat) (es : List (Event Nat)) (s : State Nat), Steps anyCall True (start 0 false n) es s → ¬ Stuck s

/-- While a `push` waits for its value to be taken, a second thread that calls
`push` and gets the mutex brings everything to a stop: `pop`, `push` and `close`
never end again, in no thread. -/
theorem C91_two_senders (g : V) (old : Bool) (n : Nat) (es : List (Event V)) (s : State V)
    (h : Steps anyCall True (start g old n) es s) (t₁ t₂ : Nat) (v w : V)
    (h1 : s.pcs[t₁]? = some (.pushSleep v)) (h2 : s.pcs[t₂]? = some (.pushLock w)) (hm : s.mu = none) :
    ∃ s', Step anyCall True s none s' ∧ Stuck s' := by
  have hs := Step.lockPush (may := anyCall) (spur := True) h2 hm
  refine ⟨_, hs, stuck_of (P := Senders) (fun _ _ _ hp hs => senders_step hp hs) ?_⟩
  refine ⟨own_step (own_steps (own_start g old n) h) hs, t₁, t₂, v, w, Or.inl ?_, get_set_self h2⟩
  show (s.pcs.set t₂ _)[t₁]? = _
  rw [List.getElem?_set_ne]
  · exact h1
  · rintro rfl
    rw [h1] at h2; cases h2

/-- While a `pop` waits for a value, a second thread that calls `pop` and gets the
mutex brings everything to a stop as well. -/
theorem C91_two_receivers (g : V) (old : Bool) (n : Nat) (es : List (Event V)) (s : State V)
    (h : Steps anyCall True (start g old n) es s) (t₁ t₂ : Nat)
    (h1 : s.pcs[t₁]? = some .popSleep) (h2 : s.pcs[t₂]? = some .popLock) (hm : s.mu = none) :
    ∃ s', Step anyCall True s none s' ∧ Stuck s' := by
  have hs := Step.lockPop (may := anyCall) (spur := True) h2 hm
  refine ⟨_, hs, stuck_of (P := Receivers) (fun _ _ _ hp hs => receivers_step hp hs) ?_⟩
  refine ⟨own_step (own_steps (own_start g old n) h) hs, t₁, t₂, Or.inl ?_, get_set_self h2⟩
  show (s.pcs.set t₂ _)[t₁]? = _
  rw [List.getElem?_set_ne]
  · exact h1
  · rintro rfl
    rw [h1] at h2; cases h2

/-- Two threads in `push` and one that is about to call `pop`. -/
theorem exTwo : ∃ s, Steps anyCall True (start (0 : Nat) false 3) [] s ∧
    s.pcs = [.pushSleep 7, .pushLock 8, .idle] ∧ s.mu = none := by
  have h0 : Steps anyCall True (start (0 : Nat) false 3) [] _ := Steps.start
  have h1 := Steps.silent h0 (Step.callPush (t := 0) (v := 7) trivial rfl)
  have h2 := Steps.silent h1 (Step.lockPush (t := 0) rfl rfl)
  have h3 := Steps.silent h2 (Step.lockSend (t := 0) rfl rfl)
  have h4 := Steps.silent h3 (Step.pushWait (t := 0) rfl rfl rfl)
  have h5 := Steps.silent h4 (Step.callPush (t := 1) (v := 8) trivial rfl)
  exact ⟨_, h5, rfl, rfl⟩

/-- The full claim does not hold. -/
theorem C91_fails : ¬ C91_full := by
  intro h
  obtain ⟨s, h1, h2, h3⟩ := exTwo
  obtain ⟨s', h4, h5⟩ := C91_two_senders 0 false 3 [] s h1 0 1 7 8 (by rw [h2]; rfl) (by rw [h2]; rfl) h3
  exact h 3 [] s' (Steps.silent h1 h4) h5

/-- **C91**, the part that holds: with one thread that sends and one that receives, a
thread that is in a call and does not sleep can go on or the other one can.  Missing:
more threads, `close`, and waits that end without a signal. -/
theorem C91_goes_partial (g : V) (es : List (Event V)) (s : State V)
    (h : Steps pair False (start g false 2) es s) (ha : ∃ p ∈ s.pcs, Awake p) : ∃ s', Goes pair False s s' := by
  obtain ⟨o, h1, _⟩ := pair_steps h
  exact pair_goes h1 ha

/-- And the two never sleep both. -/
theorem C91_sleep_partial (g : V) (es : List (Event V)) (s : State V)
    (h : Steps pair False (start g false 2) es s) :
    ¬ ((∃ v, Pc.pushSleep v ∈ s.pcs) ∧ Pc.popSleep ∈ s.pcs) := by
  obtain ⟨o, ⟨b, p, q, rfl, hg, _⟩, _⟩ := pair_steps h
  rintro ⟨⟨v, h1⟩, h2⟩
  have e1 : p = .pushSleep v := by
    rcases List.mem_cons.1 h1 with h | h
    · exact h.symm
    · have := List.mem_singleton.1 h
      have h4 := hg.recv
      rw [← this] at h4; cases h4
  have e2 : q = .popSleep := by
    rcases List.mem_cons.1 h2 with h | h
    · have h4 := hg.send
      rw [← h] at h4; cases h4
    · exact (List.mem_singleton.1 h).symm
  have := hg.sleep e2
  rw [e1] at this; cases this

/-! ## C92: does a value go from hand to hand? -/

/-- How many calls of `push` have ended without a fault. -/
def sent {V : Type} (es : List (Event V)) : Nat :=
  es.countP fun e => match e with | .pushed .. => true | _ => false

/-- How many calls of `pop` have ended without a fault. -/
def received {V : Type} (es : List (Event V)) : Nat :=
  es.countP fun e => match e with | .popped .. => true | _ => false

/-- **C92**, the full claim: when a `push` ends without a fault, its value has been
received, and when it ends with one, it has not. -/
def C92_full : Prop :=
  ∀ (n : Nat) (es : List (Event Nat)) (s : State Nat), Steps anyCall True (start 0 false n) es s →
    sent es ≤ received es ∧ ∀ t v, Event.pushClosed t v ∈ es → ∀ u, Event.popped u v ∉ es

/-- A wait may end without a signal, and `push` does not look whether its value has
been taken: the call ends though nobody receives anything.  The next value is
written over the first one, that is lost, and is then received twice. -/
theorem C92_lost_and_twice : ∃ s, Steps anyCall True (start (0 : Nat) false 2)
    [.pushed 0 7, .popped 1 8, .pushed 0 8, .popped 1 8] s := by
  have h0 : Steps anyCall True (start (0 : Nat) false 2) [] _ := Steps.start
  have h1 := Steps.silent h0 (Step.callPush (t := 0) (v := 7) trivial rfl)
  have h2 := Steps.silent h1 (Step.lockPush (t := 0) rfl rfl)
  have h3 := Steps.silent h2 (Step.lockSend (t := 0) rfl rfl)
  have h4 := Steps.silent h3 (Step.pushWait (t := 0) rfl rfl rfl)
  have h5 := Steps.silent h4 (Step.spurious (t := 0) trivial rfl)
  have h6 := Steps.silent h5 (Step.wakePush (t := 0) (v := 7) rfl rfl)
  have h7 := Steps.event h6 (Step.pushDone (t := 0) rfl rfl)
  have h8 := Steps.silent h7 (Step.unlockSend (t := 0) rfl)
  have g1 := Steps.silent h8 (Step.callPush (t := 0) (v := 8) trivial rfl)
  have g2 := Steps.silent g1 (Step.lockPush (t := 0) rfl rfl)
  have g3 := Steps.silent g2 (Step.lockSend (t := 0) rfl rfl)
  have g4 := Steps.silent g3 (Step.pushWait (t := 0) rfl rfl rfl)
  have k1 := Steps.silent g4 (Step.callPop (t := 1) trivial rfl)
  have k2 := Steps.silent k1 (Step.lockPop (t := 1) rfl rfl)
  have k3 := Steps.silent k2 (Step.lockRead (t := 1) rfl rfl)
  have k4 := Steps.event k3 (Step.popDone (t := 1) rfl rfl (Nat.zero_lt_succ _) (SignalSend.one (u := 0) (v := 8) rfl))
  have k5 := Steps.silent k4 (Step.unlockRead (t := 1) rfl)
  have l1 := Steps.silent k5 (Step.wakePush (t := 0) (v := 8) rfl rfl)
  have l2 := Steps.event l1 (Step.pushDone (t := 0) rfl rfl)
  have m1 := Steps.silent l2 (Step.callPop (t := 1) trivial rfl)
  have m2 := Steps.silent m1 (Step.lockPop (t := 1) rfl rfl)
  have m3 := Steps.silent m2 (Step.lockRead (t := 1) rfl rfl)
  have m4 := Steps.event m3 (Step.popDone (t := 1) rfl rfl (Nat.zero_lt_succ _) (SignalSend.none (by
    intro p hp v
    simp [start] at hp
    rcases hp with rfl | rfl <;> simp)))
  exact ⟨_, m4⟩

/-- When the channel is closed after the value was taken and before the sender has
the mutex again, `push` ends with the fault though the value was received. -/
theorem C92_closed_but_received : ∃ s, Steps anyCall False (start (0 : Nat) false 3)
    [.popped 1 7, .closed 2, .pushClosed 0 7] s := by
  have h0 : Steps anyCall False (start (0 : Nat) false 3) [] _ := Steps.start
  have h1 := Steps.silent h0 (Step.callPush (t := 0) (v := 7) trivial rfl)
  have h2 := Steps.silent h1 (Step.lockPush (t := 0) rfl rfl)
  have h3 := Steps.silent h2 (Step.lockSend (t := 0) rfl rfl)
  have h4 := Steps.silent h3 (Step.pushWait (t := 0) rfl rfl rfl)
  have k1 := Steps.silent h4 (Step.callPop (t := 1) trivial rfl)
  have k2 := Steps.silent k1 (Step.lockPop (t := 1) rfl rfl)
  have k3 := Steps.silent k2 (Step.lockRead (t := 1) rfl rfl)
  have k4 := Steps.event k3 (Step.popDone (t := 1) rfl rfl (Nat.zero_lt_succ _) (SignalSend.one (u := 0) (v := 7) rfl))
  have l1 := Steps.silent k4 (Step.callClose (t := 2) trivial rfl)
  have l2 := Steps.silent l1 (Step.lockClose (t := 2) rfl rfl)
  have l3 := Steps.event l2 (Step.close (t := 2) rfl)
  have m1 := Steps.silent l3 (Step.wakePush (t := 0) (v := 7) rfl rfl)
  have m2 := Steps.event m1 (Step.pushClosed (t := 0) rfl rfl)
  exact ⟨_, m2⟩

/-- `init` does not set `closed`: when the memory it gets has another value there, the
first `push` is refused though nobody has closed the channel. -/
theorem C92_init_closed (g v : V) : ∃ s, Steps anyCall False (start g true 1) [.pushClosed 0 v] s := by
  have h0 : Steps anyCall False (start g true 1) [] _ := Steps.start
  have h1 := Steps.silent h0 (Step.callPush (t := 0) (v := v) trivial rfl)
  have h2 := Steps.silent h1 (Step.lockPush (t := 0) rfl rfl)
  have h3 := Steps.silent h2 (Step.lockSend (t := 0) rfl rfl)
  have h4 := Steps.event h3 (Step.pushRefused (t := 0) rfl rfl)
  exact ⟨_, h4⟩

/-- The full claim does not hold. -/
theorem C92_fails : ¬ C92_full := by
  intro h
  have h0 : Steps anyCall True (start (0 : Nat) false 1) [] _ := Steps.start
  have h1 := Steps.silent h0 (Step.callPush (t := 0) (v := 7) trivial rfl)
  have h2 := Steps.silent h1 (Step.lockPush (t := 0) rfl rfl)
  have h3 := Steps.silent h2 (Step.lockSend (t := 0) rfl rfl)
  have h4 := Steps.silent h3 (Step.pushWait (t := 0) rfl rfl rfl)
  have h5 := Steps.silent h4 (Step.spurious (t := 0) trivial rfl)
  have h6 := Steps.silent h5 (Step.wakePush (t := 0) (v := 7) rfl rfl)
  have h7 := Steps.event h6 (Step.pushDone (t := 0) rfl rfl)
  have := (h 1 _ _ h7).1
  exact absurd this (by decide)

/-- **C92**, the part that holds: with one thread that sends and one that receives,
with no `close`, with waits that end with a signal only, and with a channel that is
open at first, the events are pairs: a value is received, then the `push` of this
value ends.  Missing: more threads (see C91), `close`, other waits. -/
theorem C92_meets_partial (g : V) (es : List (Event V)) (s : State V)
    (h : Steps pair False (start g false 2) es s) : ∃ o, Meets es o := by
  obtain ⟨o, _, h2⟩ := pair_steps h
  exact ⟨o, h2⟩

/-- What a list of such pairs is: no event is missing, and values are not mixed up. -/
example : Meets [Event.popped 1 7, .pushed 0 7, .popped 1 8] (some 8) :=
  Meets.popped (es := [_, _]) (Meets.pushed (es := [_]) (Meets.popped (es := []) Meets.nil))

/-- A run of the two threads in which 7 goes from one to the other. -/
example : ∃ s, Steps pair False (start (0 : Nat) false 2) [.popped 1 7, .pushed 0 7] s := by
  have h0 : Steps pair False (start (0 : Nat) false 2) [] _ := Steps.start
  have k1 := Steps.silent h0 (Step.callPop (t := 1) trivial rfl)
  have k2 := Steps.silent k1 (Step.lockPop (t := 1) rfl rfl)
  have k3 := Steps.silent k2 (Step.lockRead (t := 1) rfl rfl)
  have k4 := Steps.silent k3 (Step.popWait (t := 1) rfl rfl rfl)
  have h1 := Steps.silent k4 (Step.callPush (t := 0) (v := 7) trivial rfl)
  have h2 := Steps.silent h1 (Step.lockPush (t := 0) rfl rfl)
  have h3 := Steps.silent h2 (Step.lockSend (t := 0) rfl rfl)
  have h4 := Steps.silent h3 (Step.pushSignal (t := 0) rfl rfl (Nat.zero_lt_succ _) (SignalRead.one (u := 1) rfl))
  have k5 := Steps.silent h4 (Step.wakePop (t := 1) rfl rfl)
  have k6 := Steps.event k5 (Step.popDone (t := 1) rfl rfl (Nat.zero_lt_succ _) (SignalSend.one (u := 0) (v := 7) rfl))
  have l1 := Steps.silent k6 (Step.wakePush (t := 0) (v := 7) rfl rfl)
  have l2 := Steps.event l1 (Step.pushDone (t := 0) rfl rfl)
  exact ⟨_, l2⟩

end C3.Chan.Unbuf
