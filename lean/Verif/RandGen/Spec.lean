/-! # Periods -/

set_option autoImplicit false

namespace C3.RandGen

variable {ρ σ : Type}

/-- The state after `n` calls. -/
def after (next : σ → ρ × σ) : Nat → σ → σ
  | 0, s => s
  | n + 1, s => after next n (next s).2

/-- From every state in `I`, the generator comes back to the state first after `p` calls, stays in `I`, and by then comes to
all states that are related to it by `R`. -/
def Period (I : σ → Prop) (R : σ → σ → Prop) (p : Nat) (next : σ → ρ × σ) : Prop :=
  ∀ s, I s → (∀ n, I (after next n s)) ∧ (∀ n, after next n s = s ↔ p ∣ n) ∧ ∀ t, I t → R s t → ∃ n, n < p ∧ after next n s = t

/-- In the first `p` calls, from any state, each value is given `q` times. -/
def Uniform [DecidableEq ρ] (p q : Nat) (next : σ → ρ × σ) : Prop :=
  ∀ s v, ((List.range p).filter fun n => (next (after next n s)).1 = v).length = q

end C3.RandGen
