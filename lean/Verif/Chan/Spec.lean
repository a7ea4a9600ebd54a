import Verif.Chan.Model

/-! # What a channel with a buffer should do

A queue of at most `size` values, that can be closed. -/

set_option autoImplicit false

namespace C3.Chan

/-- The queue after an event, if the event may happen: a value goes in at the end
when there is room and the queue is open, a value comes out at the front, a `push`
is refused when the queue is closed only, and a `pop` when it is closed and empty
only. -/
inductive Allowed {V : Type} (size : Nat) : List V × Bool → Event V → List V × Bool → Prop
  | pushed {q : List V} {t : Nat} {v : V} : q.length < size →
    Allowed size (q, false) (.pushed t v) (q ++ [v], false)
  | pushClosed {q : List V} {t : Nat} {v : V} : Allowed size (q, true) (.pushClosed t v) (q, true)
  | popped {q : List V} {b : Bool} {t : Nat} {v : V} : Allowed size (v :: q, b) (.popped t v) (q, b)
  | popClosed {t : Nat} : Allowed size ([], true) (.popClosed t) ([], true)
  | closed {q : List V} {b : Bool} {t : Nat} : Allowed size (q, b) (.closed t) (q, true)

/-- The queue after a list of events, if they may happen in that order. -/
inductive Accepts {V : Type} (size : Nat) : List (Event V) → List V × Bool → Prop
  | nil : Accepts size [] ([], false)
  | snoc {es : List (Event V)} {a b : List V × Bool} {e : Event V} : Accepts size es a →
    Allowed size a e b → Accepts size (es ++ [e]) b

/-- The values that went in, in order. -/
def ins {V : Type} : List (Event V) → List V
  | [] => []
  | .pushed _ v :: es => v :: ins es
  | _ :: es => ins es

/-- The values that came out, in order. -/
def outs {V : Type} : List (Event V) → List V
  | [] => []
  | .popped _ v :: es => v :: outs es
  | _ :: es => outs es

/-- A thread that is in a `pop` that sleeps. -/
def PopSleeps {V : Type} (p : Pc V) : Prop := p = .popSleep

/-- A thread that is in a `push` that sleeps. -/
def PushSleeps {V : Type} (p : Pc V) : Prop := ∃ v, p = .pushSleep v

/-- A thread that is in a `pop` and does not sleep. -/
def PopAwake {V : Type} (p : Pc V) : Prop := p = .popLock ∨ p = .popIn ∨ p = .popWoken

/-- A thread that is in a `push` and does not sleep. -/
def PushAwake {V : Type} (p : Pc V) : Prop := ∃ v, p = .pushLock v ∨ p = .pushIn v ∨ p = .pushWoken v

/-- A thread that is in a `close`. -/
def Closing {V : Type} (p : Pc V) : Prop := p = .closeLock ∨ p = .closeIn

/-- A thread that is in a call and does not sleep. -/
def Awake {V : Type} (p : Pc V) : Prop := PopAwake p ∨ PushAwake p ∨ Closing p

/-- A step of a thread that is in a call and does not sleep: no call starts, and no
wait ends without a signal. -/
def Goes {V : Type} (s s' : State V) : Prop :=
  ∃ e, Step s e s' ∧ ∃ (t : Nat) (p p' : Pc V), s.pcs[t]? = some p ∧ Awake p ∧ s'.pcs[t]? = some p' ∧ p' ≠ p

/-- `k` such steps. -/
inductive GoesOn {V : Type} : Nat → State V → State V → Prop
  | zero {s : State V} : GoesOn 0 s s
  | succ {k : Nat} {s s' s'' : State V} : GoesOn k s s' → Goes s' s'' → GoesOn (k + 1) s s''

end C3.Chan
