/-! # `UnbufferedChannel` of `lib/std/threads/unbuffered_channel.c3`

As for `BufferedChannel`: what a thread does between two locks, waits or unlocks is
one step, and locks, waits and signals do not fail.  Here there are three mutexes,
and a thread keeps `send_mu` or `read_mu` while it sleeps. -/

set_option autoImplicit false

namespace C3.Chan.Unbuf

/-- `UnbufferedChannelImpl`, `unbuffered_channel.c3:5-19`, without the allocator, the
mutexes and the condition variables. -/
structure Chan (V : Type) where
  buf : V
  closed : Bool
  sendWaiting : Nat
  readWaiting : Nat

/-- `UnbufferedChannel.init`, `unbuffered_channel.c3:21-41`.  The memory comes from
`allocator::alloc` (`mem_allocator.c3:206-209`), that does not clear it, and neither
`buf` nor `closed` is set: they are what `garbage` and `old` are. -/
def init {V : Type} (garbage : V) (old : Bool) : Chan V := ⟨garbage, old, 0, 0⟩

/-- Where a thread is. -/
inductive Pc (V : Type) where
  | idle
  /-- Before `mu.lock()`, line 63. -/
  | pushLock (v : V)
  /-- Has `mu`, before `send_mu.lock()`, line 65. -/
  | pushSendLock (v : V)
  /-- Has `mu` and `send_mu`, line 68. -/
  | pushIn (v : V)
  /-- In `send_cond.wait(&mu)`, line 85; has `send_mu`. -/
  | pushSleep (v : V)
  /-- Woken, before `wait` has `mu` again. -/
  | pushWoken (v : V)
  /-- Has `mu` and `send_mu`, line 87. -/
  | pushAfter (v : V)
  /-- Before `send_mu.unlock()`, line 90. -/
  | pushUnlock
  /-- Before `mu.lock()`, line 97. -/
  | popLock
  /-- Has `mu`, before `read_mu.lock()`, line 99. -/
  | popReadLock
  /-- Has `mu` and `read_mu`, line 103. -/
  | popIn
  /-- In `read_cond.wait(&mu)`, line 106; has `read_mu`. -/
  | popSleep
  /-- Woken, before `wait` has `mu` again. -/
  | popWoken
  /-- Before `read_mu.unlock()`, line 120. -/
  | popUnlock
  | closeLock
  | closeIn

/-- The channel, who has the mutexes, and where the threads are. -/
structure State (V : Type) where
  chan : Chan V
  mu : Option Nat
  sendMu : Option Nat
  readMu : Option Nat
  pcs : List (Pc V)

/-- A wake-up of a thread that sleeps in `read_cond`. -/
def Pc.wakeRead {V : Type} : Pc V → Pc V
  | .popSleep => .popWoken
  | p => p

/-- A wake-up of a thread that sleeps in `send_cond`. -/
def Pc.wakeSend {V : Type} : Pc V → Pc V
  | .pushSleep v => .pushWoken v
  | p => p

/-- `read_cond.signal()`. -/
inductive SignalRead {V : Type} : List (Pc V) → List (Pc V) → Prop
  | one {ps : List (Pc V)} {u : Nat} : ps[u]? = some .popSleep → SignalRead ps (ps.set u .popWoken)
  | none {ps : List (Pc V)} : (∀ p ∈ ps, p ≠ .popSleep) → SignalRead ps ps

/-- `send_cond.signal()`. -/
inductive SignalSend {V : Type} : List (Pc V) → List (Pc V) → Prop
  | one {ps : List (Pc V)} {u : Nat} {v : V} : ps[u]? = some (.pushSleep v) →
    SignalSend ps (ps.set u (.pushWoken v))
  | none {ps : List (Pc V)} : (∀ p ∈ ps, ∀ v, p ≠ .pushSleep v) → SignalSend ps ps

/-- The end of a call. -/
inductive Event (V : Type) where
  | pushed (t : Nat) (v : V)
  | pushClosed (t : Nat) (v : V)
  | popped (t : Nat) (v : V)
  | popClosed (t : Nat)
  | closed (t : Nat)

/-- The functions of a channel. -/
inductive Call where
  | push
  | pop
  | close

/-- The steps of the threads, when thread `t` may make the calls `may t` and waits end
without a signal if `spur`.  Where a call ends in the fault `CHANNEL_CLOSED`, the
second mutex is unlocked before `mu`, which nobody can see. -/
inductive Step {V : Type} (may : Nat → Call → Prop) (spur : Prop) :
    State V → Option (Event V) → State V → Prop
  | callPush {s : State V} {t : Nat} {v : V} : may t .push → s.pcs[t]? = some .idle →
    Step may spur s none { s with pcs := s.pcs.set t (.pushLock v) }
  | callPop {s : State V} {t : Nat} : may t .pop → s.pcs[t]? = some .idle →
    Step may spur s none { s with pcs := s.pcs.set t .popLock }
  | callClose {s : State V} {t : Nat} : may t .close → s.pcs[t]? = some .idle →
    Step may spur s none { s with pcs := s.pcs.set t .closeLock }
  /-- `UnbufferedChannel.push`, `unbuffered_channel.c3:63`. -/
  | lockPush {s : State V} {t : Nat} {v : V} : s.pcs[t]? = some (.pushLock v) → s.mu = none →
    Step may spur s none { s with mu := some t, pcs := s.pcs.set t (.pushSendLock v) }
  /-- Line 65. -/
  | lockSend {s : State V} {t : Nat} {v : V} : s.pcs[t]? = some (.pushSendLock v) → s.sendMu = none →
    Step may spur s none { s with sendMu := some t, pcs := s.pcs.set t (.pushIn v) }
  /-- Lines 68–71. -/
  | pushRefused {s : State V} {t : Nat} {v : V} : s.pcs[t]? = some (.pushIn v) → s.chan.closed = true →
    Step may spur s (some (.pushClosed t v)) { s with mu := none, sendMu := none, pcs := s.pcs.set t .idle }
  /-- Lines 74–85, when no reader waits. -/
  | pushWait {s : State V} {t : Nat} {v : V} : s.pcs[t]? = some (.pushIn v) → s.chan.closed = false →
    s.chan.readWaiting = 0 →
    Step may spur s none { s with chan := { s.chan with buf := v, sendWaiting := s.chan.sendWaiting + 1 },
                                  mu := none, pcs := s.pcs.set t (.pushSleep v) }
  /-- Lines 74–85, when a reader waits. -/
  | pushSignal {s : State V} {t : Nat} {v : V} {ps : List (Pc V)} : s.pcs[t]? = some (.pushIn v) →
    s.chan.closed = false → s.chan.readWaiting > 0 → SignalRead (s.pcs.set t (.pushSleep v)) ps →
    Step may spur s none { s with chan := { s.chan with buf := v, sendWaiting := s.chan.sendWaiting + 1 },
                                  mu := none, pcs := ps }
  /-- The end of `wait`, line 85. -/
  | wakePush {s : State V} {t : Nat} {v : V} : s.pcs[t]? = some (.pushWoken v) → s.mu = none →
    Step may spur s none { s with mu := some t, pcs := s.pcs.set t (.pushAfter v) }
  /-- Line 87. -/
  | pushClosed {s : State V} {t : Nat} {v : V} : s.pcs[t]? = some (.pushAfter v) → s.chan.closed = true →
    Step may spur s (some (.pushClosed t v)) { s with mu := none, sendMu := none, pcs := s.pcs.set t .idle }
  /-- Line 89. -/
  | pushDone {s : State V} {t : Nat} {v : V} : s.pcs[t]? = some (.pushAfter v) → s.chan.closed = false →
    Step may spur s (some (.pushed t v)) { s with mu := none, pcs := s.pcs.set t .pushUnlock }
  /-- Line 90. -/
  | unlockSend {s : State V} {t : Nat} : s.pcs[t]? = some .pushUnlock →
    Step may spur s none { s with sendMu := none, pcs := s.pcs.set t .idle }
  /-- `UnbufferedChannel.pop`, `unbuffered_channel.c3:97`. -/
  | lockPop {s : State V} {t : Nat} : s.pcs[t]? = some .popLock → s.mu = none →
    Step may spur s none { s with mu := some t, pcs := s.pcs.set t .popReadLock }
  /-- Line 99. -/
  | lockRead {s : State V} {t : Nat} : s.pcs[t]? = some .popReadLock → s.readMu = none →
    Step may spur s none { s with readMu := some t, pcs := s.pcs.set t .popIn }
  /-- Lines 103–106. -/
  | popWait {s : State V} {t : Nat} : s.pcs[t]? = some .popIn → s.chan.closed = false → s.chan.sendWaiting = 0 →
    Step may spur s none { s with chan := { s.chan with readWaiting := s.chan.readWaiting + 1 },
                                  mu := none, pcs := s.pcs.set t .popSleep }
  /-- The end of `wait`, lines 106–107. -/
  | wakePop {s : State V} {t : Nat} : s.pcs[t]? = some .popWoken → s.mu = none →
    Step may spur s none { s with chan := { s.chan with readWaiting := s.chan.readWaiting - 1 },
                                  mu := some t, pcs := s.pcs.set t .popIn }
  /-- Line 110. -/
  | popClosed {s : State V} {t : Nat} : s.pcs[t]? = some .popIn → s.chan.closed = true →
    Step may spur s (some (.popClosed t)) { s with mu := none, readMu := none, pcs := s.pcs.set t .idle }
  /-- Lines 113–119. -/
  | popDone {s : State V} {t : Nat} {ps : List (Pc V)} : s.pcs[t]? = some .popIn → s.chan.closed = false →
    s.chan.sendWaiting > 0 → SignalSend (s.pcs.set t .popUnlock) ps →
    Step may spur s (some (.popped t s.chan.buf))
      { s with chan := { s.chan with sendWaiting := s.chan.sendWaiting - 1 }, mu := none, pcs := ps }
  /-- Line 120. -/
  | unlockRead {s : State V} {t : Nat} : s.pcs[t]? = some .popUnlock →
    Step may spur s none { s with readMu := none, pcs := s.pcs.set t .idle }
  /-- `UnbufferedChannel.close`, `unbuffered_channel.c3:129`. -/
  | lockClose {s : State V} {t : Nat} : s.pcs[t]? = some .closeLock → s.mu = none →
    Step may spur s none { s with mu := some t, pcs := s.pcs.set t .closeIn }
  /-- Lines 131–135. -/
  | close {s : State V} {t : Nat} : s.pcs[t]? = some .closeIn →
    Step may spur s (some (.closed t)) { s with chan := { s.chan with closed := true }, mu := none,
                                                pcs := (s.pcs.set t .idle).map fun p => p.wakeRead.wakeSend }
  /-- A wait that ends without a signal. -/
  | spurious {s : State V} {t : Nat} {p : Pc V} : spur → s.pcs[t]? = some p →
    Step may spur s none { s with pcs := s.pcs.set t p.wakeRead.wakeSend }

/-- Steps one after another, and the events of them. -/
inductive Steps {V : Type} (may : Nat → Call → Prop) (spur : Prop) (s₀ : State V) :
    List (Event V) → State V → Prop
  | start : Steps may spur s₀ [] s₀
  | silent {es : List (Event V)} {s s' : State V} : Steps may spur s₀ es s → Step may spur s none s' →
    Steps may spur s₀ es s'
  | event {es : List (Event V)} {s s' : State V} {e : Event V} : Steps may spur s₀ es s →
    Step may spur s (some e) s' → Steps may spur s₀ (es ++ [e]) s'

/-- A new channel and `n` threads. -/
def start {V : Type} (garbage : V) (old : Bool) (n : Nat) : State V :=
  ⟨init garbage old, none, none, none, List.replicate n .idle⟩

end C3.Chan.Unbuf
