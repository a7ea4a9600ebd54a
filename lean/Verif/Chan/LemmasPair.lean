import Verif.Chan.LemmasUnbuffered

set_option autoImplicit false

namespace C3.Chan.Unbuf

variable {V : Type}

/-! ## One sender and one receiver -/

def isSend : Pc V → Bool
  | .idle | .pushLock _ | .pushSendLock _ | .pushIn _ | .pushSleep _ | .pushWoken _ | .pushAfter _ | .pushUnlock => true
  | _ => false

def isRecv : Pc V → Bool
  | .idle | .popLock | .popReadLock | .popIn | .popSleep | .popWoken | .popUnlock => true
  | _ => false

def sw : Pc V → Nat
  | .pushSleep _ => 1
  | _ => 0

def rw' : Pc V → Nat
  | .popSleep | .popWoken => 1
  | _ => 0

def pend : Pc V → Option V
  | .pushWoken v | .pushAfter v => some v
  | _ => none

def muOf (p q : Pc V) : Option Nat := if hasMu p then some 0 else if hasMu q then some 1 else none
def sendOf (p : Pc V) : Option Nat := if hasSend p then some 0 else none
def readOf (p : Pc V) : Option Nat := if hasRead p then some 1 else none

def pairState (b : V) (p q : Pc V) : State V :=
  ⟨⟨b, false, sw p, rw' q⟩, muOf p q, sendOf p, readOf q, [p, q]⟩

structure Good (b : V) (p q : Pc V) : Prop where
  send : isSend p = true
  recv : isRecv q = true
  mu : (hasMu p && hasMu q) = false
  buf : ∀ v, p = .pushSleep v → b = v
  sleep : q = .popSleep → sw p = 0

def PairInv (s : State V) (o : Option V) : Prop :=
  ∃ (b : V) (p q : Pc V), s = pairState b p q ∧ Good b p q ∧ o = pend p

theorem get_pair {p q r : Pc V} {t : Nat} (h : [p, q][t]? = some r) : (t = 0 ∧ r = p) ∨ (t = 1 ∧ r = q) := by
  match t, h with
  | 0, h => exact Or.inl ⟨rfl, (Option.some.inj h).symm⟩
  | 1, h => exact Or.inr ⟨rfl, (Option.some.inj h).symm⟩
  | t + 2, h => simp at h

macro "fin" q:ident : tactic => `(tactic| (
  cases $q:ident <;> simp_all [pairState, muOf, sendOf, readOf, hasMu, hasSend, hasRead, sw, rw', isSend, isRecv]))

theorem pair_step {s s' : State V} {e : Option (Event V)} {o : Option V} (hi : PairInv s o)
    (hs : Step pair False s e s') :
    ∃ o', PairInv s' o' ∧ (e = none → o' = o) ∧
      (∀ (es : List (Event V)) (ev : Event V), e = some ev → Meets es o → Meets (es ++ [ev]) o') := by
  obtain ⟨b, p, q, rfl, ⟨g1, g2, g3, g4, g5⟩, rfl⟩ := hi
  cases hs with
  | @callPush t v hm hp =>
    rcases get_pair hp with ⟨rfl, rfl⟩ | ⟨rfl, rfl⟩
    · refine ⟨none, ⟨b, .pushLock v, q, ?_, ⟨rfl, g2, rfl, by simp, fun _ => rfl⟩, rfl⟩, fun _ => rfl, by simp⟩
      fin q
    · exact absurd hm (by simp [pair])
  | @callPop t hm hp =>
    rcases get_pair hp with ⟨rfl, rfl⟩ | ⟨rfl, rfl⟩
    · exact absurd hm (by simp [pair])
    · refine ⟨_, ⟨b, p, .popLock, ?_, ⟨g1, rfl, ?_, g4, by simp⟩, rfl⟩, fun _ => rfl, by simp⟩
      · fin p
      · fin p
  | @callClose t hm hp =>
    rcases get_pair hp with ⟨rfl, rfl⟩ | ⟨rfl, rfl⟩ <;> exact absurd hm (by simp [pair])
  | @lockPush t v hp hm =>
    rcases get_pair hp with ⟨rfl, rfl⟩ | ⟨rfl, rfl⟩
    · refine ⟨none, ⟨b, .pushSendLock v, q, ?_, ⟨rfl, g2, ?_, by simp, fun _ => rfl⟩, rfl⟩, fun _ => rfl, by simp⟩
      · fin q
      · fin q
    · cases g2
  | @lockSend t v hp hm =>
    rcases get_pair hp with ⟨rfl, rfl⟩ | ⟨rfl, rfl⟩
    · refine ⟨none, ⟨b, .pushIn v, q, ?_, ⟨rfl, g2, ?_, by simp, fun _ => rfl⟩, rfl⟩, fun _ => rfl, by simp⟩
      · fin q
      · fin q
    · cases g2
  | @pushRefused t v hp hc => cases hc
  | @pushWait t v hp hc hr =>
    rcases get_pair hp with ⟨rfl, rfl⟩ | ⟨rfl, rfl⟩
    · refine ⟨none, ⟨v, .pushSleep v, q, ?_, ⟨rfl, g2, rfl, ?_, ?_⟩, rfl⟩, fun _ => rfl, by simp⟩
      · fin q
      · intro w hw; cases hw; rfl
      · fin q
    · cases g2
  | @pushSignal t v ps hp hc hr hsig =>
    rcases get_pair hp with ⟨rfl, rfl⟩ | ⟨rfl, rfl⟩
    · cases hsig with
      | @one u hu =>
        rcases get_pair hu with ⟨rfl, h⟩ | ⟨rfl, h⟩
        · cases h
        · change Pc.popSleep = q at h
          subst h
          refine ⟨none, ⟨v, .pushSleep v, .popWoken, rfl, ⟨rfl, rfl, rfl, ?_, by simp⟩, rfl⟩, fun _ => rfl, by simp⟩
          intro w hw; cases hw; rfl
      | none hn =>
        refine ⟨none, ⟨v, .pushSleep v, q, ?_, ⟨rfl, g2, rfl, ?_, ?_⟩, rfl⟩, fun _ => rfl, by simp⟩
        · fin q
        · intro w hw; cases hw; rfl
        · intro h
          exact absurd h (hn q (by simp [pairState]))
    · cases g2
  | @wakePush t v hp hm =>
    rcases get_pair hp with ⟨rfl, rfl⟩ | ⟨rfl, rfl⟩
    · refine ⟨some v, ⟨b, .pushAfter v, q, ?_, ⟨rfl, g2, ?_, by simp, fun _ => rfl⟩, rfl⟩, fun _ => rfl, by simp⟩
      · fin q
      · fin q
    · cases g2
  | @pushClosed t v hp hc => cases hc
  | @pushDone t v hp hc =>
    rcases get_pair hp with ⟨rfl, rfl⟩ | ⟨rfl, rfl⟩
    · refine ⟨none, ⟨b, .pushUnlock, q, ?_, ⟨rfl, g2, rfl, by simp, fun _ => rfl⟩, rfl⟩, by simp, ?_⟩
      · fin q
      · intro es ev he hm
        cases he
        exact Meets.pushed hm
    · cases g2
  | @unlockSend t hp =>
    rcases get_pair hp with ⟨rfl, rfl⟩ | ⟨rfl, rfl⟩
    · refine ⟨none, ⟨b, .idle, q, ?_, ⟨rfl, g2, rfl, by simp, fun _ => rfl⟩, rfl⟩, fun _ => rfl, by simp⟩
      fin q
    · cases g2
  | @lockPop t hp hm =>
    rcases get_pair hp with ⟨rfl, rfl⟩ | ⟨rfl, rfl⟩
    · cases g1
    · refine ⟨_, ⟨b, p, .popReadLock, ?_, ⟨g1, rfl, ?_, g4, by simp⟩, rfl⟩, fun _ => rfl, by simp⟩
      · fin p
      · fin p
  | @lockRead t hp hm =>
    rcases get_pair hp with ⟨rfl, rfl⟩ | ⟨rfl, rfl⟩
    · cases g1
    · refine ⟨_, ⟨b, p, .popIn, ?_, ⟨g1, rfl, ?_, g4, by simp⟩, rfl⟩, fun _ => rfl, by simp⟩
      · fin p
      · fin p
  | @popWait t hp hc hw =>
    rcases get_pair hp with ⟨rfl, rfl⟩ | ⟨rfl, rfl⟩
    · cases g1
    · refine ⟨_, ⟨b, p, .popSleep, ?_, ⟨g1, rfl, ?_, g4, fun _ => hw⟩, rfl⟩, fun _ => rfl, by simp⟩
      · fin p
      · fin p
  | @wakePop t hp hm =>
    rcases get_pair hp with ⟨rfl, rfl⟩ | ⟨rfl, rfl⟩
    · cases g1
    · refine ⟨_, ⟨b, p, .popIn, ?_, ⟨g1, rfl, ?_, g4, by simp⟩, rfl⟩, fun _ => rfl, by simp⟩
      · fin p
      · fin p
  | @popClosed t hp hc => cases hc
  | @popDone t ps hp hc hw hsig =>
    rcases get_pair hp with ⟨rfl, rfl⟩ | ⟨rfl, rfl⟩
    · cases g1
    · cases p with
      | pushSleep v =>
        have hb := g4 v rfl
        subst hb
        cases hsig with
        | @one u w hu =>
          rcases get_pair hu with ⟨rfl, h⟩ | ⟨rfl, h⟩
          · cases h
            refine ⟨some b, ⟨b, .pushWoken b, .popUnlock, rfl, ⟨rfl, rfl, rfl, by simp, by simp⟩, rfl⟩, by simp, ?_⟩
            intro es ev he hm
            cases he
            exact Meets.popped hm
          · cases h
        | none hn => exact absurd rfl (hn (.pushSleep b) (by simp [pairState]) b)
      | _ => exact absurd hw (by simp [pairState, sw])
  | @unlockRead t hp =>
    rcases get_pair hp with ⟨rfl, rfl⟩ | ⟨rfl, rfl⟩
    · cases g1
    · refine ⟨_, ⟨b, p, .idle, ?_, ⟨g1, rfl, ?_, g4, by simp⟩, rfl⟩, fun _ => rfl, by simp⟩
      · fin p
      · fin p
  | @lockClose t hp hm =>
    rcases get_pair hp with ⟨rfl, rfl⟩ | ⟨rfl, rfl⟩
    · cases g1
    · cases g2
  | @close t hp =>
    rcases get_pair hp with ⟨rfl, rfl⟩ | ⟨rfl, rfl⟩
    · cases g1
    · cases g2
  | spurious h _ => exact h.elim

theorem pair_steps {g : V} {es : List (Event V)} {s : State V} (h : Steps pair False (start g false 2) es s) :
    ∃ o, PairInv s o ∧ Meets es o := by
  induction h with
  | start =>
    exact ⟨none, ⟨g, .idle, .idle, rfl, ⟨rfl, rfl, rfl, by simp, by simp⟩, rfl⟩, Meets.nil⟩
  | silent _ hs ih =>
    obtain ⟨o, h1, h2⟩ := ih
    obtain ⟨o', h3, h4, _⟩ := pair_step h1 hs
    have := h4 rfl
    subst this
    exact ⟨o', h3, h2⟩
  | event _ hs ih =>
    obtain ⟨o, h1, h2⟩ := ih
    obtain ⟨o', h3, _, h4⟩ := pair_step h1 hs
    exact ⟨o', h3, h4 _ _ rfl h2⟩

theorem pair_goes {s : State V} {o : Option V} (hi : PairInv s o) (ha : ∃ p ∈ s.pcs, Awake p) :
    ∃ s', Goes pair False s s' := by
  obtain ⟨b, p, q, rfl, ⟨g1, g2, g3, g4, g5⟩, rfl⟩ := hi
  have hp : (pairState b p q).pcs[0]? = some p := rfl
  have hq : (pairState b p q).pcs[1]? = some q := rfl
  cases p with
  | pushSendLock v =>
    exact ⟨_, _, Step.lockSend hp rfl, 0, _, _, hp, trivial, rfl, by simp⟩
  | pushIn v =>
    by_cases hr : rw' q = 0
    · exact ⟨_, _, Step.pushWait hp rfl hr, 0, _, _, hp, trivial, rfl, by simp⟩
    · cases q with
      | popSleep =>
        exact ⟨_, _, Step.pushSignal hp rfl (by simp [pairState, rw']) (SignalRead.one (u := 1) rfl), 0, _, _, hp,
          trivial, rfl, by simp⟩
      | popWoken =>
        refine ⟨_, _, Step.pushSignal hp rfl (by simp [pairState, rw']) (SignalRead.none ?_), 0, _, _, hp,
          trivial, rfl, by simp⟩
        simp [pairState]
      | _ => exact absurd rfl hr
  | pushAfter v => exact ⟨_, _, Step.pushDone hp rfl, 0, _, _, hp, trivial, rfl, by simp⟩
  | pushUnlock => exact ⟨_, _, Step.unlockSend hp, 0, _, _, hp, trivial, rfl, by simp⟩
  | popLock => cases g1
  | popReadLock => cases g1
  | popIn => cases g1
  | popSleep => cases g1
  | popWoken => cases g1
  | popUnlock => cases g1
  | closeLock => cases g1
  | closeIn => cases g1
  | pushLock v =>
    cases q with
    | popReadLock => exact ⟨_, _, Step.lockRead hq rfl, 1, _, _, hq, trivial, rfl, by simp⟩
    | popIn => exact ⟨_, _, Step.popWait hq rfl rfl, 1, _, _, hq, trivial, rfl, by simp⟩
    | closeIn => cases g2
    | pushSendLock w => cases g2
    | pushIn w => cases g2
    | pushAfter w => cases g2
    | _ => exact ⟨_, _, Step.lockPush hp rfl, 0, _, _, hp, trivial, rfl, by simp⟩
  | pushWoken v =>
    cases q with
    | popReadLock => exact ⟨_, _, Step.lockRead hq rfl, 1, _, _, hq, trivial, rfl, by simp⟩
    | popIn => exact ⟨_, _, Step.popWait hq rfl rfl, 1, _, _, hq, trivial, rfl, by simp⟩
    | closeIn => cases g2
    | pushSendLock w => cases g2
    | pushIn w => cases g2
    | pushAfter w => cases g2
    | _ => exact ⟨_, _, Step.wakePush hp rfl, 0, _, _, hp, trivial, rfl, by simp⟩
  | idle =>
    cases q with
    | popLock => exact ⟨_, _, Step.lockPop hq rfl, 1, _, _, hq, trivial, rfl, by simp⟩
    | popReadLock => exact ⟨_, _, Step.lockRead hq rfl, 1, _, _, hq, trivial, rfl, by simp⟩
    | popIn => exact ⟨_, _, Step.popWait hq rfl rfl, 1, _, _, hq, trivial, rfl, by simp⟩
    | popWoken => exact ⟨_, _, Step.wakePop hq rfl, 1, _, _, hq, trivial, rfl, by simp⟩
    | popUnlock => exact ⟨_, _, Step.unlockRead hq, 1, _, _, hq, trivial, rfl, by simp⟩
    | idle => simp [pairState, Awake] at ha
    | popSleep => simp [pairState, Awake] at ha
    | _ => cases g2
  | pushSleep v =>
    cases q with
    | popLock => exact ⟨_, _, Step.lockPop hq rfl, 1, _, _, hq, trivial, rfl, by simp⟩
    | popReadLock => exact ⟨_, _, Step.lockRead hq rfl, 1, _, _, hq, trivial, rfl, by simp⟩
    | popIn =>
      exact ⟨_, _, Step.popDone hq rfl (by simp [pairState, sw]) (SignalSend.one (u := 0) rfl), 1, _, _, hq, trivial,
        rfl, by simp⟩
    | popWoken => exact ⟨_, _, Step.wakePop hq rfl, 1, _, _, hq, trivial, rfl, by simp⟩
    | popUnlock => exact ⟨_, _, Step.unlockRead hq, 1, _, _, hq, trivial, rfl, by simp⟩
    | idle => simp [pairState, Awake] at ha
    | popSleep => simp [pairState, Awake] at ha
    | _ => cases g2

end C3.Chan.Unbuf
