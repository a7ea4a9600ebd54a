import Verif.Chan.LemmasStep

set_option autoImplicit false

namespace C3.Chan

variable {V : Type}

/-! ## Steps of awake threads come to an end -/

def weight (n : Nat) : Pc V → Nat
  | .idle => 0
  | .pushLock _ => 4
  | .pushIn _ => 3
  | .pushSleep _ => 2
  | .pushWoken _ => 4
  | .popLock => 4
  | .popIn => 3
  | .popSleep => 2
  | .popWoken => 4
  | .closeLock => 2 * n + 2
  | .closeIn => 2 * n + 1

def total (n : Nat) : List (Pc V) → Nat
  | [] => 0
  | p :: ps => weight n p + total n ps

theorem total_set (n : Nat) : ∀ (l : List (Pc V)) (i : Nat) (a p : Pc V), l[i]? = some p →
    total n (l.set i a) + weight n p = total n l + weight n a
  | [], i, a, p, h => by simp at h
  | x :: l, 0, a, p, h => by
    simp only [List.getElem?_cons_zero, Option.some.injEq] at h
    subst h
    simp only [List.set_cons_zero, total]
    omega
  | x :: l, i + 1, a, p, h => by
    simp only [List.getElem?_cons_succ] at h
    have := total_set n l i a p h
    simp only [List.set_cons_succ, total]
    omega

theorem total_map (n : Nat) : ∀ l : List (Pc V), total n (l.map wakeAll) ≤ total n l + 2 * l.length
  | [] => by simp [total]
  | x :: l => by
    have := total_map n l
    have hx : weight n (wakeAll x) ≤ weight n x + 2 := by
      cases x <;> simp [wakeAll, Pc.wakeRead, Pc.wakeSend, weight]
    simp only [List.map_cons, total, List.length_cons]
    omega

theorem total_le (n : Nat) : ∀ l : List (Pc V), total n l ≤ (2 * n + 4) * l.length
  | [] => by simp [total]
  | x :: l => by
    have := total_le n l
    have hx : weight n x ≤ 2 * n + 4 := by
      cases x <;> simp [weight] <;> omega
    simp only [total, List.length_cons, Nat.mul_add, Nat.mul_one]
    omega

theorem get_inj {l : List (Pc V)} {t : Nat} {p q : Pc V} (h1 : l[t]? = some p) (h2 : l[t]? = some q) : p = q := by
  rw [h1] at h2
  exact Option.some.inj h2

/-- A step that changes one thread only and is a step of an awake thread is a step of
that thread. -/
theorem only_one {l : List (Pc V)} {t u : Nat} {p a r r' : Pc V} (hp : l[t]? = some p) (hr : l[u]? = some r)
    (hr' : (l.set t a)[u]? = some r') (hne : r' ≠ r) : r = p ∧ r' = a := by
  by_cases h : t = u
  · subst h
    rw [get_set_self hp] at hr'
    exact ⟨get_inj hr hp, (Option.some.inj hr').symm⟩
  · rw [List.getElem?_set_ne h] at hr'
    exact absurd (get_inj hr' hr) hne

theorem not_awake_idle : ¬ Awake (Pc.idle (V := V)) := by
  rintro (h | ⟨v, h⟩ | h)
  · rcases h with h | h | h <;> cases h
  · rcases h with h | h | h <;> cases h
  · rcases h with h | h <;> cases h

theorem not_awake_popSleep : ¬ Awake (Pc.popSleep (V := V)) := by
  rintro (h | ⟨v, h⟩ | h)
  · rcases h with h | h | h <;> cases h
  · rcases h with h | h | h <;> cases h
  · rcases h with h | h <;> cases h

theorem not_awake_pushSleep {v : V} : ¬ Awake (Pc.pushSleep v) := by
  rintro (h | ⟨v, h⟩ | h)
  · rcases h with h | h | h <;> cases h
  · rcases h with h | h | h <;> cases h
  · rcases h with h | h <;> cases h

theorem goes_total {s s' : State V} (h : Goes s s') :
    s'.pcs.length = s.pcs.length ∧ total s.pcs.length s'.pcs < total s.pcs.length s.pcs := by
  obtain ⟨e, hs, u, r, r', hr, ha, hr', hne⟩ := h
  generalize hn : s.pcs.length = n
  cases hs with
  | @callPush t v hp =>
    obtain ⟨rfl, _⟩ := only_one hp hr hr' hne
    exact absurd ha not_awake_idle
  | @callPop t hp =>
    obtain ⟨rfl, _⟩ := only_one hp hr hr' hne
    exact absurd ha not_awake_idle
  | @callClose t hp =>
    obtain ⟨rfl, _⟩ := only_one hp hr hr' hne
    exact absurd ha not_awake_idle
  | @lockPush t v hp hmu =>
    have := total_set n _ _ (.pushIn v) _ hp
    simp only [weight] at this
    exact ⟨by simp [hn], by dsimp only; omega⟩
  | @lockPop t hp hmu =>
    have := total_set n _ _ (.popIn) _ hp
    simp only [weight] at this
    exact ⟨by simp [hn], by dsimp only; omega⟩
  | @lockClose t hp hmu =>
    have := total_set n _ _ (.closeIn) _ hp
    simp only [weight] at this
    exact ⟨by simp [hn], by dsimp only; omega⟩
  | @wakePush t v hp hmu =>
    have := total_set n _ _ (.pushIn v) _ hp
    simp only [weight] at this
    exact ⟨by simp [hn], by dsimp only; omega⟩
  | @wakePop t hp hmu =>
    have := total_set n _ _ (.popIn) _ hp
    simp only [weight] at this
    exact ⟨by simp [hn], by dsimp only; omega⟩
  | @pushWait t v c hp hmu hb =>
    have := total_set n _ _ (.pushSleep v) _ hp
    simp only [weight] at this
    exact ⟨by simp [hn], by dsimp only; omega⟩
  | @pushClosed t v c hp hmu hb =>
    have := total_set n _ _ .idle _ hp
    simp only [weight] at this
    exact ⟨by simp [hn], by dsimp only; omega⟩
  | @pushDone t v c hp hmu hb =>
    have := total_set n _ _ .idle _ hp
    simp only [weight] at this
    exact ⟨by simp [hn], by dsimp only; omega⟩
  | @pushSignal t v c ps hp hmu hb hsig =>
    have h1 := total_set n _ _ .idle _ hp
    cases hsig with
    | @one w hu =>
      have h2 := total_set n _ _ .popWoken _ hu
      simp only [weight] at h1 h2
      exact ⟨by simp [hn], by dsimp only; omega⟩
    | none _ =>
      simp only [weight] at h1
      exact ⟨by simp [hn], by dsimp only; omega⟩
  | @popWait t c hp hmu hb =>
    have := total_set n _ _ .popSleep _ hp
    simp only [weight] at this
    exact ⟨by simp [hn], by dsimp only; omega⟩
  | @popClosed t c hp hmu hb =>
    have := total_set n _ _ .idle _ hp
    simp only [weight] at this
    exact ⟨by simp [hn], by dsimp only; omega⟩
  | @popDone t v c hp hmu hb =>
    have := total_set n _ _ .idle _ hp
    simp only [weight] at this
    exact ⟨by simp [hn], by dsimp only; omega⟩
  | @popSignal t v c ps hp hmu hb hsig =>
    have h1 := total_set n _ _ .idle _ hp
    cases hsig with
    | @one w x hu =>
      have h2 := total_set n _ _ (.pushWoken x) _ hu
      simp only [weight] at h1 h2
      exact ⟨by simp [hn], by dsimp only; omega⟩
    | none _ =>
      simp only [weight] at h1
      exact ⟨by simp [hn], by dsimp only; omega⟩
  | @close t hp hmu =>
    have h1 := total_set n _ _ .idle _ hp
    have h2 := total_map n (s.pcs.set t .idle)
    simp only [weight] at h1
    rw [List.length_set, hn] at h2
    refine ⟨by simp [hn], ?_⟩
    change total n (List.map wakeAll _) < _
    omega
  | @spurious t p hp =>
    exfalso
    obtain ⟨rfl, h⟩ := only_one hp hr hr' hne
    cases r with
    | popSleep => exact not_awake_popSleep ha
    | pushSleep v => exact not_awake_pushSleep ha
    | _ => exact hne h

theorem goesOn_total {k : Nat} {s s' : State V} (h : GoesOn k s s') :
    s'.pcs.length = s.pcs.length ∧ total s.pcs.length s'.pcs + k ≤ total s.pcs.length s.pcs := by
  induction h with
  | zero => exact ⟨rfl, by omega⟩
  | succ _ hg ih =>
    obtain ⟨h1, h2⟩ := ih
    obtain ⟨h3, h4⟩ := goes_total hg
    rw [h1] at h3 h4
    exact ⟨h3, by omega⟩

/-! ## An awake thread can go on -/

theorem signalRead_ex (ps : List (Pc V)) : ∃ ps', SignalRead ps ps' := by
  by_cases h : ∃ u : Nat, ps[u]? = some .popSleep
  · obtain ⟨u, hu⟩ := h
    exact ⟨_, SignalRead.one hu⟩
  · refine ⟨_, SignalRead.none ?_⟩
    intro p hp he
    subst he
    obtain ⟨u, hu⟩ := List.mem_iff_getElem?.1 hp
    exact h ⟨u, hu⟩

theorem signalSend_ex (ps : List (Pc V)) : ∃ ps', SignalSend ps ps' := by
  by_cases h : ∃ (u : Nat) (v : V), ps[u]? = some (.pushSleep v)
  · obtain ⟨u, v, hu⟩ := h
    exact ⟨_, SignalSend.one hu⟩
  · refine ⟨_, SignalSend.none ?_⟩
    intro p hp v he
    subst he
    obtain ⟨u, hu⟩ := List.mem_iff_getElem?.1 hp
    exact h ⟨u, v, hu⟩

theorem signalRead_idle {ps ps' : List (Pc V)} {t : Nat} (h : SignalRead ps ps') (ht : ps[t]? = some .idle) :
    ps'[t]? = some .idle := by
  cases h with
  | @one u hu =>
    rw [List.getElem?_set_ne]
    · exact ht
    · intro he; subst he; rw [hu] at ht; cases ht
  | none _ => exact ht

theorem signalSend_idle {ps ps' : List (Pc V)} {t : Nat} (h : SignalSend ps ps') (ht : ps[t]? = some .idle) :
    ps'[t]? = some .idle := by
  cases h with
  | @one u v hu =>
    rw [List.getElem?_set_ne]
    · exact ht
    · intro he; subst he; rw [hu] at ht; cases ht
  | none _ => exact ht

theorem awake_goes {size : Nat} {s : State V} {q : List V} (hi : Inv size s q)
    (ha : ∃ p ∈ s.pcs, Awake p) : ∃ s', Goes s s' := by
  obtain ⟨hw, hm, hh, hsz⟩ := hi
  cases hmu : s.mu with
  | some t =>
    obtain ⟨p, hp, hk⟩ := hm.held t hmu
    cases p with
    | pushIn v =>
      have haw : Awake (Pc.pushIn v) := Or.inr (Or.inl ⟨v, Or.inr (Or.inl rfl)⟩)
      rcases pushBody_cases v hh with ⟨_, _, h3⟩ | ⟨_, h3⟩ | ⟨_, _, c', h3, _⟩
      · exact ⟨_, _, Step.pushWait hp hmu h3, t, _, _, hp, haw, get_set_self hp, by simp⟩
      · exact ⟨_, _, Step.pushClosed hp hmu h3, t, _, _, hp, haw, get_set_self hp, by simp⟩
      · cases hd : decide (s.chan.readWaiting > 0) with
        | false =>
          rw [hd] at h3
          exact ⟨_, _, Step.pushDone hp hmu h3, t, _, _, hp, haw, get_set_self hp, by simp⟩
        | true =>
          rw [hd] at h3
          obtain ⟨ps, hps⟩ := signalRead_ex (s.pcs.set t .idle)
          exact ⟨_, _, Step.pushSignal hp hmu h3 hps, t, _, _, hp, haw,
            signalRead_idle hps (get_set_self hp), by simp⟩
    | popIn =>
      have haw : Awake (Pc.popIn (V := V)) := Or.inl (Or.inr (Or.inl rfl))
      rcases popBody_cases hh with ⟨_, _, h3⟩ | ⟨_, _, h3⟩ | ⟨v, q', c', _, h3, _⟩
      · exact ⟨_, _, Step.popWait hp hmu h3, t, _, _, hp, haw, get_set_self hp, by simp⟩
      · exact ⟨_, _, Step.popClosed hp hmu h3, t, _, _, hp, haw, get_set_self hp, by simp⟩
      · cases hd : decide (s.chan.sendWaiting > 0) with
        | false =>
          rw [hd] at h3
          exact ⟨_, _, Step.popDone hp hmu h3, t, _, _, hp, haw, get_set_self hp, by simp⟩
        | true =>
          rw [hd] at h3
          obtain ⟨ps, hps⟩ := signalSend_ex (s.pcs.set t .idle)
          exact ⟨_, _, Step.popSignal hp hmu h3 hps, t, _, _, hp, haw,
            signalSend_idle hps (get_set_self hp), by simp⟩
    | closeIn =>
      refine ⟨_, _, Step.close hp hmu, t, _, .idle, hp, Or.inr (Or.inr (Or.inr rfl)), ?_, by simp⟩
      show (List.map _ _)[t]? = _
      rw [List.getElem?_map, get_set_self hp]
      rfl
    | _ => simp [kIn] at hk
  | none =>
    rw [hmu] at hm
    have hc := mutex_none_count hm
    rw [List.countP_eq_zero] at hc
    obtain ⟨p, hpm, hap⟩ := ha
    have hnk := hc p hpm
    obtain ⟨t, hp⟩ := List.mem_iff_getElem?.1 hpm
    rcases hap with h | ⟨v, h⟩ | h
    · rcases h with h | h | h
      · subst h
        exact ⟨_, _, Step.lockPop hp hmu, t, _, _, hp, Or.inl (Or.inl rfl), get_set_self hp, by simp⟩
      · subst h; simp [kIn] at hnk
      · subst h
        exact ⟨_, _, Step.wakePop hp hmu, t, _, _, hp, Or.inl (Or.inr (Or.inr rfl)), get_set_self hp, by simp⟩
    · rcases h with h | h | h
      · subst h
        exact ⟨_, _, Step.lockPush hp hmu, t, _, _, hp, Or.inr (Or.inl ⟨v, Or.inl rfl⟩), get_set_self hp, by simp⟩
      · subst h; simp [kIn] at hnk
      · subst h
        exact ⟨_, _, Step.wakePush hp hmu, t, _, _, hp, Or.inr (Or.inl ⟨v, Or.inr (Or.inr rfl)⟩),
          get_set_self hp, by simp⟩
    · rcases h with h | h
      · subst h
        exact ⟨_, _, Step.lockClose hp hmu, t, _, _, hp, Or.inr (Or.inr (Or.inl rfl)), get_set_self hp, by simp⟩
      · subst h; simp [kIn] at hnk

theorem run_length {size : Nat} {v : V} {n : Nat} {es : List (Event V)} {s : State V} (h : Run size v n es s) :
    s.pcs.length = n := by
  have key : ∀ {s s' : State V} {e : Option (Event V)}, Step s e s' → s'.pcs.length = s.pcs.length := by
    intro s s' e hs
    cases hs with
    | pushSignal hp hmu hb hsig => cases hsig <;> simp
    | popSignal hp hmu hb hsig => cases hsig <;> simp
    | _ => simp
  induction h with
  | start => simp
  | silent _ hs ih => rw [key hs]; exact ih
  | event _ hs ih => rw [key hs]; exact ih

theorem goesOn_run {size : Nat} {v : V} {n k : Nat} {es : List (Event V)} {s s' : State V}
    (h : Run size v n es s) (hg : GoesOn k s s') : ∃ es', Run size v n (es ++ es') s' := by
  induction hg with
  | zero => exact ⟨[], by simpa using h⟩
  | succ _ hg ih =>
    obtain ⟨es', h1⟩ := ih h
    obtain ⟨e, hs, _⟩ := hg
    cases e with
    | none => exact ⟨es', Run.silent h1 hs⟩
    | some e => exact ⟨es' ++ [e], by rw [← List.append_assoc]; exact Run.event h1 hs⟩

/-! ## The queue and the events -/

theorem ins_append (es : List (Event V)) (e : Event V) : ins (es ++ [e]) = ins es ++ ins [e] := by
  induction es with
  | nil => rfl
  | cons x es ih =>
    cases x <;> simp only [List.cons_append, ins, ih]

theorem outs_append (es : List (Event V)) (e : Event V) : outs (es ++ [e]) = outs es ++ outs [e] := by
  induction es with
  | nil => rfl
  | cons x es ih =>
    cases x <;> simp only [List.cons_append, outs, ih]

theorem accepts_queue {size : Nat} {es : List (Event V)} {a : List V × Bool} (h : Accepts size es a) :
    ins es = outs es ++ a.1 ∧ a.1.length ≤ size ∧ (a.2 = true ↔ ∃ t, Event.closed t ∈ es) := by
  induction h with
  | nil => simp [ins, outs]
  | @snoc es a b e _ ha ih =>
    obtain ⟨h1, h2, h3⟩ := ih
    rw [ins_append, outs_append]
    cases ha with
    | pushed hl =>
      refine ⟨by rw [h1]; simp [ins, outs], by simp; omega, ?_⟩
      simp only [List.mem_append, List.mem_singleton, reduceCtorEq, or_false]
      simpa using h3
    | pushClosed =>
      refine ⟨by rw [h1]; simp [ins, outs], h2, ?_⟩
      simp only [List.mem_append, List.mem_singleton, reduceCtorEq, or_false]
      simpa using h3
    | popped =>
      refine ⟨by rw [h1]; simp [ins, outs], by simp at h2; dsimp only; omega, ?_⟩
      simp only [List.mem_append, List.mem_singleton, reduceCtorEq, or_false]
      simpa using h3
    | popClosed =>
      refine ⟨by rw [h1]; simp [ins, outs], h2, ?_⟩
      simp only [List.mem_append, List.mem_singleton, reduceCtorEq, or_false]
      simpa using h3
    | @closed q b t =>
      refine ⟨by rw [h1]; simp [ins, outs], h2, ?_⟩
      simp only [true_iff]
      exact ⟨t, by simp⟩

end C3.Chan
