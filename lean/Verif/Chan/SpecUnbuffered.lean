import Verif.Chan.ModelUnbuffered

/-! # What a channel without a buffer should do -/

set_option autoImplicit false

namespace C3.Chan.Unbuf

/-- Any thread may make any call. -/
def anyCall : Nat → Call → Prop := fun _ _ => True

/-- Thread 0 sends, and thread 1 receives. -/
def pair : Nat → Call → Prop
  | 0, .push => True
  | 1, .pop => True
  | _, _ => False

/-- Whatever happens from now on, no call ever ends. -/
def Stuck {V : Type} (s : State V) : Prop :=
  ∀ (es : List (Event V)) (s' : State V), Steps anyCall True s es s' → es = []

/-- The values of a list of events go from hand to hand: a value is received, and
then the call that sent it ends.  The second argument is a value that has been
received while the call that sent it has not ended. -/
inductive Meets {V : Type} : List (Event V) → Option V → Prop
  | nil : Meets [] none
  | popped {es : List (Event V)} {t : Nat} {v : V} : Meets es none → Meets (es ++ [.popped t v]) (some v)
  | pushed {es : List (Event V)} {t : Nat} {v : V} : Meets es (some v) → Meets (es ++ [.pushed t v]) none

/-- A thread that is in a call and does not sleep. -/
def Awake {V : Type} : Pc V → Prop
  | .idle => False
  | .pushSleep _ => False
  | .popSleep => False
  | _ => True

/-- A step of a thread that is in a call and does not sleep. -/
def Goes {V : Type} (may : Nat → Call → Prop) (spur : Prop) (s s' : State V) : Prop :=
  ∃ e, Step may spur s e s' ∧
    ∃ (t : Nat) (p p' : Pc V), s.pcs[t]? = some p ∧ Awake p ∧ s'.pcs[t]? = some p' ∧ p' ≠ p

end C3.Chan.Unbuf
