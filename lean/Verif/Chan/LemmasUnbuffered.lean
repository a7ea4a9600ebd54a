import Verif.Chan.SpecUnbuffered

set_option autoImplicit false

namespace C3.Chan.Unbuf

variable {V : Type}

def hasMu : Pc V → Bool
  | .pushSendLock _ | .pushIn _ | .pushAfter _ | .popReadLock | .popIn | .closeIn => true
  | _ => false

def hasSend : Pc V → Bool
  | .pushIn _ | .pushSleep _ | .pushWoken _ | .pushAfter _ | .pushUnlock => true
  | _ => false

def hasRead : Pc V → Bool
  | .popIn | .popSleep | .popWoken | .popUnlock => true
  | _ => false

/-- Who has which mutex. -/
structure Own (s : State V) : Prop where
  mu : ∀ (t : Nat) (p : Pc V), s.pcs[t]? = some p → hasMu p = true → s.mu = some t
  send : ∀ (t : Nat) (p : Pc V), s.pcs[t]? = some p → hasSend p = true → s.sendMu = some t
  read : ∀ (t : Nat) (p : Pc V), s.pcs[t]? = some p → hasRead p = true → s.readMu = some t

theorem get_set {l : List (Pc V)} {t u : Nat} {a p : Pc V} (h : (l.set t a)[u]? = some p) :
    (u = t ∧ p = a) ∨ (u ≠ t ∧ l[u]? = some p) := by
  by_cases he : t = u
  · subst he
    have hlt : t < l.length := by
      have := (List.getElem?_eq_some_iff.1 h).1
      simpa using this
    rw [List.getElem?_set_self hlt] at h
    exact Or.inl ⟨rfl, (Option.some.inj h).symm⟩
  · rw [List.getElem?_set_ne he] at h
    exact Or.inr ⟨fun h => he h.symm, h⟩

theorem get_set_self {l : List (Pc V)} {t : Nat} {p a : Pc V} (h : l[t]? = some p) : (l.set t a)[t]? = some a := by
  obtain ⟨hlt, _⟩ := List.getElem?_eq_some_iff.1 h
  exact List.getElem?_set_self hlt

/-- Ownership after thread `t` moves from `p` to `a`, where each mutex is kept, taken or
given up as the places say. -/
theorem own_set {s : State V} {t : Nat} {p a : Pc V} {c : Chan V} {m m2 m3 : Option Nat} (ho : Own s)
    (hp : s.pcs[t]? = some p)
    (h1 : (hasMu a = true ∧ m = some t ∧ (hasMu p = true ∨ s.mu = none)) ∨
      (hasMu a = false ∧ (m = s.mu ∨ hasMu p = true)))
    (h2 : (hasSend a = true ∧ m2 = some t ∧ (hasSend p = true ∨ s.sendMu = none)) ∨
      (hasSend a = false ∧ (m2 = s.sendMu ∨ hasSend p = true)))
    (h3 : (hasRead a = true ∧ m3 = some t ∧ (hasRead p = true ∨ s.readMu = none)) ∨
      (hasRead a = false ∧ (m3 = s.readMu ∨ hasRead p = true))) :
    Own ⟨c, m, m2, m3, s.pcs.set t a⟩ := by
  have key : ∀ (has : Pc V → Bool) (old new : Option Nat),
      (∀ (t : Nat) (p : Pc V), s.pcs[t]? = some p → has p = true → old = some t) →
      ((has a = true ∧ new = some t ∧ (has p = true ∨ old = none)) ∨
        (has a = false ∧ (new = old ∨ has p = true))) →
      ∀ (u : Nat) (r : Pc V), (s.pcs.set t a)[u]? = some r → has r = true → new = some u := by
    intro has old new hown h u r hr hhas
    rcases get_set hr with ⟨rfl, rfl⟩ | ⟨hne, hr⟩
    · rcases h with ⟨_, h, _⟩ | ⟨h, _⟩
      · exact h
      · rw [h] at hhas; cases hhas
    · have hu := hown u r hr hhas
      rcases h with ⟨_, _, h⟩ | ⟨_, h⟩
      · rcases h with h | h
        · have ht := hown t p hp h
          rw [hu] at ht
          exact absurd (Option.some.inj ht) hne
        · rw [hu] at h; cases h
      · rcases h with h | h
        · rw [h]; exact hu
        · have ht := hown t p hp h
          rw [hu] at ht
          exact absurd (Option.some.inj ht) hne
  exact ⟨key hasMu _ _ ho.mu h1, key hasSend _ _ ho.send h2, key hasRead _ _ ho.read h3⟩

def wakeAll (p : Pc V) : Pc V := p.wakeRead.wakeSend

theorem wakeAll_has (p : Pc V) : hasMu (wakeAll p) = hasMu p ∧ hasSend (wakeAll p) = hasSend p ∧
    hasRead (wakeAll p) = hasRead p := by
  cases p <;> exact ⟨rfl, rfl, rfl⟩

theorem own_map {c : Chan V} {m m2 m3 : Option Nat} {ps : List (Pc V)} {c' : Chan V}
    (ho : Own ⟨c, m, m2, m3, ps⟩) : Own ⟨c', m, m2, m3, ps.map wakeAll⟩ := by
  refine ⟨?_, ?_, ?_⟩
  · intro t p hp hh
    simp only [List.getElem?_map, Option.map_eq_some_iff] at hp
    obtain ⟨r, hr, rfl⟩ := hp
    rw [(wakeAll_has r).1] at hh
    exact ho.mu t r hr hh
  · intro t p hp hh
    simp only [List.getElem?_map, Option.map_eq_some_iff] at hp
    obtain ⟨r, hr, rfl⟩ := hp
    rw [(wakeAll_has r).2.1] at hh
    exact ho.send t r hr hh
  · intro t p hp hh
    simp only [List.getElem?_map, Option.map_eq_some_iff] at hp
    obtain ⟨r, hr, rfl⟩ := hp
    rw [(wakeAll_has r).2.2] at hh
    exact ho.read t r hr hh

theorem own_wake {s : State V} {t : Nat} {p : Pc V} (ho : Own s) (hp : s.pcs[t]? = some p) :
    Own { s with pcs := s.pcs.set t p.wakeRead.wakeSend } := by
  obtain ⟨h1, h2, h3⟩ := wakeAll_has p
  apply own_set ho hp
  · cases h : hasMu p
    · exact Or.inr ⟨h1.trans h, Or.inl rfl⟩
    · exact Or.inl ⟨h1.trans h, ho.mu t p hp h, Or.inl rfl⟩
  · cases h : hasSend p
    · exact Or.inr ⟨h2.trans h, Or.inl rfl⟩
    · exact Or.inl ⟨h2.trans h, ho.send t p hp h, Or.inl rfl⟩
  · cases h : hasRead p
    · exact Or.inr ⟨h3.trans h, Or.inl rfl⟩
    · exact Or.inl ⟨h3.trans h, ho.read t p hp h, Or.inl rfl⟩

theorem own_signalRead {c : Chan V} {m m2 m3 : Option Nat} {ps ps' : List (Pc V)}
    (ho : Own ⟨c, m, m2, m3, ps⟩) (h : SignalRead ps ps') : Own ⟨c, m, m2, m3, ps'⟩ := by
  cases h with
  | one hu => exact own_wake (s := ⟨c, m, m2, m3, ps⟩) ho hu
  | none _ => exact ho

theorem own_signalSend {c : Chan V} {m m2 m3 : Option Nat} {ps ps' : List (Pc V)}
    (ho : Own ⟨c, m, m2, m3, ps⟩) (h : SignalSend ps ps') : Own ⟨c, m, m2, m3, ps'⟩ := by
  cases h with
  | one hu => exact own_wake (s := ⟨c, m, m2, m3, ps⟩) ho hu
  | none _ => exact ho

theorem own_step {may : Nat → Call → Prop} {spur : Prop} {s s' : State V} {e : Option (Event V)} (ho : Own s)
    (h : Step may spur s e s') : Own s' := by
  cases h with
  | callPush _ hp => exact own_set ho hp (Or.inr ⟨rfl, Or.inl rfl⟩) (Or.inr ⟨rfl, Or.inl rfl⟩) (Or.inr ⟨rfl, Or.inl rfl⟩)
  | callPop _ hp => exact own_set ho hp (Or.inr ⟨rfl, Or.inl rfl⟩) (Or.inr ⟨rfl, Or.inl rfl⟩) (Or.inr ⟨rfl, Or.inl rfl⟩)
  | callClose _ hp => exact own_set ho hp (Or.inr ⟨rfl, Or.inl rfl⟩) (Or.inr ⟨rfl, Or.inl rfl⟩) (Or.inr ⟨rfl, Or.inl rfl⟩)
  | lockPush hp hm =>
    exact own_set ho hp (Or.inl ⟨rfl, rfl, Or.inr hm⟩) (Or.inr ⟨rfl, Or.inl rfl⟩) (Or.inr ⟨rfl, Or.inl rfl⟩)
  | lockSend hp hm =>
    exact own_set ho hp (Or.inl ⟨rfl, ho.mu _ _ hp rfl, Or.inl rfl⟩) (Or.inl ⟨rfl, rfl, Or.inr hm⟩)
      (Or.inr ⟨rfl, Or.inl rfl⟩)
  | pushRefused hp _ =>
    exact own_set ho hp (Or.inr ⟨rfl, Or.inr rfl⟩) (Or.inr ⟨rfl, Or.inr rfl⟩) (Or.inr ⟨rfl, Or.inl rfl⟩)
  | pushWait hp _ _ =>
    exact own_set ho hp (Or.inr ⟨rfl, Or.inr rfl⟩) (Or.inl ⟨rfl, ho.send _ _ hp rfl, Or.inl rfl⟩)
      (Or.inr ⟨rfl, Or.inl rfl⟩)
  | pushSignal hp _ _ hs =>
    exact own_signalRead (own_set ho hp (Or.inr ⟨rfl, Or.inr rfl⟩) (Or.inl ⟨rfl, ho.send _ _ hp rfl, Or.inl rfl⟩)
      (Or.inr ⟨rfl, Or.inl rfl⟩)) hs
  | wakePush hp hm =>
    exact own_set ho hp (Or.inl ⟨rfl, rfl, Or.inr hm⟩) (Or.inl ⟨rfl, ho.send _ _ hp rfl, Or.inl rfl⟩)
      (Or.inr ⟨rfl, Or.inl rfl⟩)
  | pushClosed hp _ =>
    exact own_set ho hp (Or.inr ⟨rfl, Or.inr rfl⟩) (Or.inr ⟨rfl, Or.inr rfl⟩) (Or.inr ⟨rfl, Or.inl rfl⟩)
  | pushDone hp _ =>
    exact own_set ho hp (Or.inr ⟨rfl, Or.inr rfl⟩) (Or.inl ⟨rfl, ho.send _ _ hp rfl, Or.inl rfl⟩)
      (Or.inr ⟨rfl, Or.inl rfl⟩)
  | unlockSend hp =>
    exact own_set ho hp (Or.inr ⟨rfl, Or.inl rfl⟩) (Or.inr ⟨rfl, Or.inr rfl⟩) (Or.inr ⟨rfl, Or.inl rfl⟩)
  | lockPop hp hm =>
    exact own_set ho hp (Or.inl ⟨rfl, rfl, Or.inr hm⟩) (Or.inr ⟨rfl, Or.inl rfl⟩) (Or.inr ⟨rfl, Or.inl rfl⟩)
  | lockRead hp hm =>
    exact own_set ho hp (Or.inl ⟨rfl, ho.mu _ _ hp rfl, Or.inl rfl⟩) (Or.inr ⟨rfl, Or.inl rfl⟩)
      (Or.inl ⟨rfl, rfl, Or.inr hm⟩)
  | popWait hp _ _ =>
    exact own_set ho hp (Or.inr ⟨rfl, Or.inr rfl⟩) (Or.inr ⟨rfl, Or.inl rfl⟩)
      (Or.inl ⟨rfl, ho.read _ _ hp rfl, Or.inl rfl⟩)
  | wakePop hp hm =>
    exact own_set ho hp (Or.inl ⟨rfl, rfl, Or.inr hm⟩) (Or.inr ⟨rfl, Or.inl rfl⟩)
      (Or.inl ⟨rfl, ho.read _ _ hp rfl, Or.inl rfl⟩)
  | popClosed hp _ =>
    exact own_set ho hp (Or.inr ⟨rfl, Or.inr rfl⟩) (Or.inr ⟨rfl, Or.inl rfl⟩) (Or.inr ⟨rfl, Or.inr rfl⟩)
  | popDone hp _ _ hs =>
    exact own_signalSend (own_set ho hp (Or.inr ⟨rfl, Or.inr rfl⟩) (Or.inr ⟨rfl, Or.inl rfl⟩)
      (Or.inl ⟨rfl, ho.read _ _ hp rfl, Or.inl rfl⟩)) hs
  | unlockRead hp =>
    exact own_set ho hp (Or.inr ⟨rfl, Or.inl rfl⟩) (Or.inr ⟨rfl, Or.inl rfl⟩) (Or.inr ⟨rfl, Or.inr rfl⟩)
  | lockClose hp hm =>
    exact own_set ho hp (Or.inl ⟨rfl, rfl, Or.inr hm⟩) (Or.inr ⟨rfl, Or.inl rfl⟩) (Or.inr ⟨rfl, Or.inl rfl⟩)
  | close hp =>
    exact own_map (c := s.chan) (own_set ho hp (Or.inr ⟨rfl, Or.inr rfl⟩) (Or.inr ⟨rfl, Or.inl rfl⟩)
      (Or.inr ⟨rfl, Or.inl rfl⟩))
  | spurious _ hp => exact own_wake ho hp

theorem own_start (g : V) (old : Bool) (n : Nat) : Own (start g old n) := by
  have h : ∀ (t : Nat) (p : Pc V), (List.replicate n (Pc.idle (V := V)))[t]? = some p → p = .idle := by
    intro t p hp
    exact List.eq_of_mem_replicate (List.mem_of_getElem? hp)
  refine ⟨fun t p hp hh => ?_, fun t p hp hh => ?_, fun t p hp hh => ?_⟩ <;>
    (rw [h t p hp] at hh; cases hh)

theorem own_steps {may : Nat → Call → Prop} {spur : Prop} {s₀ s : State V} {es : List (Event V)} (ho : Own s₀)
    (h : Steps may spur s₀ es s) : Own s := by
  induction h with
  | start => exact ho
  | silent _ hs ih => exact own_step ih hs
  | event _ hs ih => exact own_step ih hs

/-! ## Two senders, two receivers -/

/-- One thread has `send_mu` and needs `mu` to go on; another one has `mu` and needs
`send_mu` to go on. -/
def Senders (s : State V) : Prop :=
  Own s ∧ ∃ (t₁ t₂ : Nat) (v w : V),
    (s.pcs[t₁]? = some (.pushSleep v) ∨ s.pcs[t₁]? = some (.pushWoken v)) ∧
    s.pcs[t₂]? = some (.pushSendLock w)

/-- The same with `read_mu`. -/
def Receivers (s : State V) : Prop :=
  Own s ∧ ∃ (t₁ t₂ : Nat),
    (s.pcs[t₁]? = some .popSleep ∨ s.pcs[t₁]? = some .popWoken) ∧
    s.pcs[t₂]? = some .popReadLock

/-- With `mu` held by a thread at `r`, no thread is at another place that has `mu`. -/
theorem mu_one {s : State V} (ho : Own s) {t u : Nat} {p r : Pc V} (hr : s.pcs[u]? = some r) (h1 : hasMu r = true)
    (hp : s.pcs[t]? = some p) (h2 : hasMu p = true) : p = r := by
  have e1 := ho.mu u r hr h1
  have e2 := ho.mu t p hp h2
  rw [e1] at e2
  have := Option.some.inj e2
  subst this
  rw [hr] at hp
  exact (Option.some.inj hp).symm

theorem senders_step {s s' : State V} {e : Option (Event V)} (h : Senders s) (hs : Step anyCall True s e s') :
    e = none ∧ Senders s' := by
  have ho' := own_step h.1 hs
  obtain ⟨ho, t₁, t₂, v, w, h1, h2⟩ := h
  have hmu : s.mu = some t₂ := ho.mu _ _ h2 rfl
  have hsend : s.sendMu = some t₁ := by
    rcases h1 with h1 | h1 <;> exact ho.send _ _ h1 rfl
  -- a thread elsewhere moves
  have keep : ∀ (t : Nat) (p a : Pc V), s.pcs[t]? = some p → (∀ v, p ≠ .pushSleep v) → (∀ v, p ≠ .pushWoken v) →
      (∀ v, p ≠ .pushSendLock v) → ∀ s'' : State V, s''.pcs = s.pcs.set t a → Own s'' → Senders s'' := by
    intro t p a hp n1 n2 n3 s'' hpcs ho''
    have e1 : t ≠ t₁ := by
      rintro rfl
      rcases h1 with h1 | h1
      · rw [h1] at hp; exact n1 v (Option.some.inj hp).symm
      · rw [h1] at hp; exact n2 v (Option.some.inj hp).symm
    have e2 : t ≠ t₂ := by
      rintro rfl
      rw [h2] at hp; exact n3 w (Option.some.inj hp).symm
    refine ⟨ho'', t₁, t₂, v, w, ?_, ?_⟩
    · rw [hpcs, List.getElem?_set_ne e1]; exact h1
    · rw [hpcs, List.getElem?_set_ne e2]; exact h2
  cases hs with
  | callPush _ hp => exact ⟨rfl, keep _ _ _ hp (by simp) (by simp) (by simp) _ rfl ho'⟩
  | callPop _ hp => exact ⟨rfl, keep _ _ _ hp (by simp) (by simp) (by simp) _ rfl ho'⟩
  | callClose _ hp => exact ⟨rfl, keep _ _ _ hp (by simp) (by simp) (by simp) _ rfl ho'⟩
  | lockPush _ hm => rw [hmu] at hm; cases hm
  | lockSend _ hm => rw [hsend] at hm; cases hm
  | pushRefused hp _ => cases mu_one ho h2 rfl hp rfl
  | pushWait hp _ _ => cases mu_one ho h2 rfl hp rfl
  | pushSignal hp _ _ _ => cases mu_one ho h2 rfl hp rfl
  | wakePush _ hm => rw [hmu] at hm; cases hm
  | pushClosed hp _ => cases mu_one ho h2 rfl hp rfl
  | pushDone hp _ => cases mu_one ho h2 rfl hp rfl
  | unlockSend hp => exact ⟨rfl, keep _ _ _ hp (by simp) (by simp) (by simp) _ rfl ho'⟩
  | lockPop _ hm => rw [hmu] at hm; cases hm
  | lockRead hp _ => cases mu_one ho h2 rfl hp rfl
  | popWait hp _ _ => cases mu_one ho h2 rfl hp rfl
  | wakePop _ hm => rw [hmu] at hm; cases hm
  | popClosed hp _ => cases mu_one ho h2 rfl hp rfl
  | popDone hp _ _ _ => cases mu_one ho h2 rfl hp rfl
  | unlockRead hp => exact ⟨rfl, keep _ _ _ hp (by simp) (by simp) (by simp) _ rfl ho'⟩
  | lockClose _ hm => rw [hmu] at hm; cases hm
  | close hp => cases mu_one ho h2 rfl hp rfl
  | @spurious t p _ hp =>
    refine ⟨rfl, ho', t₁, t₂, v, w, ?_, ?_⟩
    · show (s.pcs.set t _)[t₁]? = _ ∨ (s.pcs.set t _)[t₁]? = _
      by_cases he : t = t₁
      · subst he
        right
        rw [get_set_self hp]
        rcases h1 with h1 | h1 <;> (rw [h1] at hp; cases hp; rfl)
      · rw [List.getElem?_set_ne he]; exact h1
    · show (s.pcs.set t _)[t₂]? = _
      by_cases he : t = t₂
      · subst he
        rw [get_set_self hp]
        rw [h2] at hp; cases hp; rfl
      · rw [List.getElem?_set_ne he]; exact h2

theorem receivers_step {s s' : State V} {e : Option (Event V)} (h : Receivers s) (hs : Step anyCall True s e s') :
    e = none ∧ Receivers s' := by
  have ho' := own_step h.1 hs
  obtain ⟨ho, t₁, t₂, h1, h2⟩ := h
  have hmu : s.mu = some t₂ := ho.mu _ _ h2 rfl
  have hread : s.readMu = some t₁ := by
    rcases h1 with h1 | h1 <;> exact ho.read _ _ h1 rfl
  have keep : ∀ (t : Nat) (p a : Pc V), s.pcs[t]? = some p → p ≠ .popSleep → p ≠ .popWoken →
      p ≠ .popReadLock → ∀ s'' : State V, s''.pcs = s.pcs.set t a → Own s'' → Receivers s'' := by
    intro t p a hp n1 n2 n3 s'' hpcs ho''
    have e1 : t ≠ t₁ := by
      rintro rfl
      rcases h1 with h1 | h1
      · rw [h1] at hp; exact n1 (Option.some.inj hp).symm
      · rw [h1] at hp; exact n2 (Option.some.inj hp).symm
    have e2 : t ≠ t₂ := by
      rintro rfl
      rw [h2] at hp; exact n3 (Option.some.inj hp).symm
    refine ⟨ho'', t₁, t₂, ?_, ?_⟩
    · rw [hpcs, List.getElem?_set_ne e1]; exact h1
    · rw [hpcs, List.getElem?_set_ne e2]; exact h2
  cases hs with
  | callPush _ hp => exact ⟨rfl, keep _ _ _ hp (by simp) (by simp) (by simp) _ rfl ho'⟩
  | callPop _ hp => exact ⟨rfl, keep _ _ _ hp (by simp) (by simp) (by simp) _ rfl ho'⟩
  | callClose _ hp => exact ⟨rfl, keep _ _ _ hp (by simp) (by simp) (by simp) _ rfl ho'⟩
  | lockPush _ hm => rw [hmu] at hm; cases hm
  | lockSend hp _ => cases mu_one ho h2 rfl hp rfl
  | pushRefused hp _ => cases mu_one ho h2 rfl hp rfl
  | pushWait hp _ _ => cases mu_one ho h2 rfl hp rfl
  | pushSignal hp _ _ _ => cases mu_one ho h2 rfl hp rfl
  | wakePush _ hm => rw [hmu] at hm; cases hm
  | pushClosed hp _ => cases mu_one ho h2 rfl hp rfl
  | pushDone hp _ => cases mu_one ho h2 rfl hp rfl
  | unlockSend hp => exact ⟨rfl, keep _ _ _ hp (by simp) (by simp) (by simp) _ rfl ho'⟩
  | lockPop _ hm => rw [hmu] at hm; cases hm
  | lockRead _ hm => rw [hread] at hm; cases hm
  | popWait hp _ _ => cases mu_one ho h2 rfl hp rfl
  | wakePop _ hm => rw [hmu] at hm; cases hm
  | popClosed hp _ => cases mu_one ho h2 rfl hp rfl
  | popDone hp _ _ _ => cases mu_one ho h2 rfl hp rfl
  | unlockRead hp => exact ⟨rfl, keep _ _ _ hp (by simp) (by simp) (by simp) _ rfl ho'⟩
  | lockClose _ hm => rw [hmu] at hm; cases hm
  | close hp => cases mu_one ho h2 rfl hp rfl
  | @spurious t p _ hp =>
    refine ⟨rfl, ho', t₁, t₂, ?_, ?_⟩
    · show (s.pcs.set t _)[t₁]? = _ ∨ (s.pcs.set t _)[t₁]? = _
      by_cases he : t = t₁
      · subst he
        right
        rw [get_set_self hp]
        rcases h1 with h1 | h1 <;> (rw [h1] at hp; cases hp; rfl)
      · rw [List.getElem?_set_ne he]; exact h1
    · show (s.pcs.set t _)[t₂]? = _
      by_cases he : t = t₂
      · subst he
        rw [get_set_self hp]
        rw [h2] at hp; cases hp; rfl
      · rw [List.getElem?_set_ne he]; exact h2

theorem stuck_of {P : State V → Prop}
    (hstep : ∀ (s s' : State V) (e : Option (Event V)), P s → Step anyCall True s e s' → e = none ∧ P s')
    {s : State V} (h : P s) : Stuck s := by
  have key : ∀ (es : List (Event V)) (s' : State V), Steps anyCall True s es s' → es = [] ∧ P s' := by
    intro es s' hs
    induction hs with
    | start => exact ⟨rfl, h⟩
    | silent _ hs ih => exact ⟨ih.1, (hstep _ _ _ ih.2 hs).2⟩
    | event _ hs ih =>
      have := (hstep _ _ _ ih.2 hs).1
      cases this
  exact fun es s' hs => (key es s' hs).1

end C3.Chan.Unbuf
