import Verif.Ring.Model

/-! # Specification vocabulary for ring buffers -/

set_option autoImplicit false

namespace C3.Ring

variable {α : Type}

/-- The last `n` elements of a sequence. -/
def lastN (n : Nat) (s : List α) : List α := s.drop (s.length - n)

/-- What a history does to a window of at most `n` elements, oldest first, and what it returns.
`none`: the history indexes past the window, or pops while the window is full (the case the code gets
wrong). -/
def specStep (n : Nat) (s : List α) : Op α → Option (List α × Res α)
  | .push x => some (lastN n (s ++ [x]), .unit)
  | .write xs => some (lastN n (s ++ xs), .unit)
  | .pop => if s.length < n then some (s.dropLast, .value s.getLast?) else none
  | .get i => (s[i]?).map fun v => (s, .value (some v))

/-- A history of calls on a window. -/
def specRun (n : Nat) : List α → List (Op α) → Option (List α × List (Res α))
  | s, [] => some (s, [])
  | s, op :: ops => do
    let (s1, x) ← specStep n s op
    let (s2, xs) ← specRun n s1 ops
    some (s2, x :: xs)

/-- The ring buffer is full: every slot has been written. -/
def Full (r : RingBuffer α) : Prop := r.written = r.buf.length

end C3.Ring
