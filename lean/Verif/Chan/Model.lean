/-! # `BufferedChannel` of `lib/std/threads/buffered_channel.c3`

Threads call `push`, `pop` and `close`.  What a thread does between getting the
mutex `mu` and giving it back, or going to sleep in a condition variable, is one
step: all fields are read and written with `mu` held only.  Locks, waits and
signals are taken not to fail.  A wait may end at any time without a signal. -/

set_option autoImplicit false

namespace C3.Chan

/-- `BufferedChannelImpl`, `buffered_channel.c3:5-22`, without the allocator, the
mutex and the condition variables.  The numbers are `usz`; none of them comes
near its end. -/
structure Chan (V : Type) where
  closed : Bool
  size : Nat
  elems : Nat
  sendx : Nat
  sendWaiting : Nat
  readx : Nat
  readWaiting : Nat
  buf : List V

/-- `BufferedChannel.init`, `buffered_channel.c3:24-45`: `new_with_padding` clears
the memory, so that `closed` is false; `v` is a value of cleared memory. -/
def init {V : Type} (size : Nat) (v : V) : Chan V :=
  ⟨false, size, 0, 0, 0, 0, 0, List.replicate size v⟩

/-- Where a thread is.  `Lock`: before `mu.lock()`.  `In`: has the mutex, before
the condition of the loop.  `Sleep`: in the condition variable.  `Woken`: before
`wait` has the mutex again. -/
inductive Pc (V : Type) where
  | idle
  | pushLock (v : V)
  | pushIn (v : V)
  | pushSleep (v : V)
  | pushWoken (v : V)
  | popLock
  | popIn
  | popSleep
  | popWoken
  | closeLock
  | closeIn

/-- How the body of `push` or `pop` ends: in a wait, with the fault
`CHANNEL_CLOSED`, or with a result and perhaps a signal to the other side. -/
inductive Out (R : Type) where
  | wait
  | closed
  | done (r : R) (signal : Bool)

/-- `BufferedChannel.push` with the mutex held, `buffered_channel.c3:68-98`.
`none` is an index that is not in the buffer. -/
def pushBody {V : Type} (c : Chan V) (v : V) : Option (Chan V × Out Unit) :=
  if c.elems == c.size && !c.closed then
    some ({ c with sendWaiting := c.sendWaiting + 1 }, .wait)
  else if c.closed then some (c, .closed)
  else if c.sendx < c.buf.length then
    let sendx := c.sendx + 1
    some ({ c with buf := c.buf.set c.sendx v,
                   sendx := if sendx == c.size then 0 else sendx,
                   elems := c.elems + 1 }, .done () (decide (c.readWaiting > 0)))
  else none

/-- `BufferedChannel.pop` with the mutex held, `buffered_channel.c3:108-143`. -/
def popBody {V : Type} (c : Chan V) : Option (Chan V × Out V) :=
  if c.elems == 0 && !c.closed then
    some ({ c with readWaiting := c.readWaiting + 1 }, .wait)
  else if c.closed && c.elems == 0 then some (c, .closed)
  else
    match c.buf[c.readx]? with
    | none => none
    | some ret =>
      let readx := c.readx + 1
      some ({ c with readx := if readx == c.size then 0 else readx,
                     elems := c.elems - 1 }, .done ret (decide (c.sendWaiting > 0)))

/-- All there is: the channel, who has the mutex, and where the threads are. -/
structure State (V : Type) where
  chan : Chan V
  mu : Option Nat
  pcs : List (Pc V)

/-- A wake-up of a thread that sleeps in `read_cond`. -/
def Pc.wakeRead {V : Type} : Pc V → Pc V
  | .popSleep => .popWoken
  | p => p

/-- A wake-up of a thread that sleeps in `send_cond`. -/
def Pc.wakeSend {V : Type} : Pc V → Pc V
  | .pushSleep v => .pushWoken v
  | p => p

/-- `read_cond.signal()`: one of the threads that sleep, if there are any, wakes up. -/
inductive SignalRead {V : Type} : List (Pc V) → List (Pc V) → Prop
  | one {ps : List (Pc V)} {u : Nat} : ps[u]? = some .popSleep → SignalRead ps (ps.set u .popWoken)
  | none {ps : List (Pc V)} : (∀ p ∈ ps, p ≠ .popSleep) → SignalRead ps ps

/-- `send_cond.signal()`. -/
inductive SignalSend {V : Type} : List (Pc V) → List (Pc V) → Prop
  | one {ps : List (Pc V)} {u : Nat} {v : V} : ps[u]? = some (.pushSleep v) →
    SignalSend ps (ps.set u (.pushWoken v))
  | none {ps : List (Pc V)} : (∀ p ∈ ps, ∀ v, p ≠ .pushSleep v) → SignalSend ps ps

/-- What can be seen of a call: that it is over, and its result. -/
inductive Event (V : Type) where
  | pushed (t : Nat) (v : V)
  | pushClosed (t : Nat) (v : V)
  | popped (t : Nat) (v : V)
  | popClosed (t : Nat)
  | closed (t : Nat)

/-- The steps of the threads. -/
inductive Step {V : Type} : State V → Option (Event V) → State V → Prop
  /-- Calls. -/
  | callPush {s : State V} {t : Nat} {v : V} : s.pcs[t]? = some .idle →
    Step s none { s with pcs := s.pcs.set t (.pushLock v) }
  | callPop {s : State V} {t : Nat} : s.pcs[t]? = some .idle →
    Step s none { s with pcs := s.pcs.set t .popLock }
  | callClose {s : State V} {t : Nat} : s.pcs[t]? = some .idle →
    Step s none { s with pcs := s.pcs.set t .closeLock }
  /-- `mu.lock()`, lines 65, 105, 150. -/
  | lockPush {s : State V} {t : Nat} {v : V} : s.pcs[t]? = some (.pushLock v) → s.mu = none →
    Step s none { s with mu := some t, pcs := s.pcs.set t (.pushIn v) }
  | lockPop {s : State V} {t : Nat} : s.pcs[t]? = some .popLock → s.mu = none →
    Step s none { s with mu := some t, pcs := s.pcs.set t .popIn }
  | lockClose {s : State V} {t : Nat} : s.pcs[t]? = some .closeLock → s.mu = none →
    Step s none { s with mu := some t, pcs := s.pcs.set t .closeIn }
  /-- The end of `wait`, and lines 73, 113. -/
  | wakePush {s : State V} {t : Nat} {v : V} : s.pcs[t]? = some (.pushWoken v) → s.mu = none →
    Step s none { chan := { s.chan with sendWaiting := s.chan.sendWaiting - 1 }, mu := some t,
                  pcs := s.pcs.set t (.pushIn v) }
  | wakePop {s : State V} {t : Nat} : s.pcs[t]? = some .popWoken → s.mu = none →
    Step s none { chan := { s.chan with readWaiting := s.chan.readWaiting - 1 }, mu := some t,
                  pcs := s.pcs.set t .popIn }
  /-- The bodies. -/
  | pushWait {s : State V} {t : Nat} {v : V} {c : Chan V} : s.pcs[t]? = some (.pushIn v) → s.mu = some t →
    pushBody s.chan v = some (c, .wait) →
    Step s none { chan := c, mu := none, pcs := s.pcs.set t (.pushSleep v) }
  | pushClosed {s : State V} {t : Nat} {v : V} {c : Chan V} : s.pcs[t]? = some (.pushIn v) → s.mu = some t →
    pushBody s.chan v = some (c, .closed) →
    Step s (some (.pushClosed t v)) { chan := c, mu := none, pcs := s.pcs.set t .idle }
  | pushDone {s : State V} {t : Nat} {v : V} {c : Chan V} : s.pcs[t]? = some (.pushIn v) → s.mu = some t →
    pushBody s.chan v = some (c, .done () false) →
    Step s (some (.pushed t v)) { chan := c, mu := none, pcs := s.pcs.set t .idle }
  | pushSignal {s : State V} {t : Nat} {v : V} {c : Chan V} {ps : List (Pc V)} :
    s.pcs[t]? = some (.pushIn v) → s.mu = some t →
    pushBody s.chan v = some (c, .done () true) → SignalRead (s.pcs.set t .idle) ps →
    Step s (some (.pushed t v)) { chan := c, mu := none, pcs := ps }
  | popWait {s : State V} {t : Nat} {c : Chan V} : s.pcs[t]? = some .popIn → s.mu = some t →
    popBody s.chan = some (c, .wait) →
    Step s none { chan := c, mu := none, pcs := s.pcs.set t .popSleep }
  | popClosed {s : State V} {t : Nat} {c : Chan V} : s.pcs[t]? = some .popIn → s.mu = some t →
    popBody s.chan = some (c, .closed) →
    Step s (some (.popClosed t)) { chan := c, mu := none, pcs := s.pcs.set t .idle }
  | popDone {s : State V} {t : Nat} {v : V} {c : Chan V} : s.pcs[t]? = some .popIn → s.mu = some t →
    popBody s.chan = some (c, .done v false) →
    Step s (some (.popped t v)) { chan := c, mu := none, pcs := s.pcs.set t .idle }
  | popSignal {s : State V} {t : Nat} {v : V} {c : Chan V} {ps : List (Pc V)} :
    s.pcs[t]? = some .popIn → s.mu = some t →
    popBody s.chan = some (c, .done v true) → SignalSend (s.pcs.set t .idle) ps →
    Step s (some (.popped t v)) { chan := c, mu := none, pcs := ps }
  /-- `BufferedChannel.close` with the mutex held, `buffered_channel.c3:152-156`. -/
  | close {s : State V} {t : Nat} : s.pcs[t]? = some .closeIn → s.mu = some t →
    Step s (some (.closed t)) { chan := { s.chan with closed := true }, mu := none,
                                pcs := (s.pcs.set t .idle).map fun p => p.wakeRead.wakeSend }
  /-- A wait that ends without a signal. -/
  | spurious {s : State V} {t : Nat} {p : Pc V} : s.pcs[t]? = some p →
    Step s none { s with pcs := s.pcs.set t p.wakeRead.wakeSend }

/-- A run from a new channel with `n` threads, and the events of it. -/
inductive Run {V : Type} (size : Nat) (v : V) (n : Nat) : List (Event V) → State V → Prop
  | start : Run size v n [] ⟨init size v, none, List.replicate n .idle⟩
  | silent {es : List (Event V)} {s s' : State V} : Run size v n es s → Step s none s' → Run size v n es s'
  | event {es : List (Event V)} {s s' : State V} {e : Event V} : Run size v n es s → Step s (some e) s' →
    Run size v n (es ++ [e]) s'

end C3.Chan
