import Verif.Chan.Lemmas

set_option autoImplicit false

namespace C3.Chan

variable {V : Type}

/-- What holds in every state of a run; `q` is the queue. -/
structure Inv (size : Nat) (s : State V) (q : List V) : Prop where
  wait : Wait s.chan s.pcs
  mutex : Mutex s.mu s.pcs
  holds : Holds s.chan q
  size : s.chan.size = size

macro "cnt" h:term "," a:term : tactic => `(tactic| (
  have e1 := countP_set_eq kPopSleep _ _ $a _ $h
  have e2 := countP_set_eq kPopWoken _ _ $a _ $h
  have e3 := countP_set_eq kPopIn _ _ $a _ $h
  have e4 := countP_set_eq kPushSleep _ _ $a _ $h
  have e5 := countP_set_eq kPushWoken _ _ $a _ $h
  have e6 := countP_set_eq kPushIn _ _ $a _ $h
  have e7 := countP_set_eq kIn _ _ $a _ $h
  simp only [kPopSleep, kPopWoken, kPopIn, kPushSleep, kPushWoken, kPushIn, kIn, Bool.false_eq_true,
    if_false, if_true, Nat.add_zero] at e1 e2 e3 e4 e5 e6 e7))

macro "wt" h:term : tactic => `(tactic| (
  refine ⟨?_, ?_, ?_, ?_, fun hcl => ?_⟩
  · simp only [Pc.wakeRead, Pc.wakeSend]; omega
  · simp only [Pc.wakeRead, Pc.wakeSend]; omega
  · simp only [Pc.wakeRead, Pc.wakeSend]; omega
  · simp only [Pc.wakeRead, Pc.wakeSend]; omega
  · simp only [Pc.wakeRead, Pc.wakeSend] at hcl ⊢
    have := $h hcl
    first | contradiction | omega))

theorem Wait.mk' {c : Chan V} {ps : List (Pc V)}
    (h : c.readWaiting = ps.countP kPopSleep + ps.countP kPopWoken ∧
      c.sendWaiting = ps.countP kPushSleep + ps.countP kPushWoken ∧
      (0 < ps.countP kPopSleep → c.elems ≤ ps.countP kPopWoken + ps.countP kPopIn) ∧
      (0 < ps.countP kPushSleep → c.size - c.elems ≤ ps.countP kPushWoken + ps.countP kPushIn) ∧
      (c.closed = true → ps.countP kPopSleep = 0 ∧ ps.countP kPushSleep = 0)) : Wait c ps :=
  ⟨h.1, h.2.1, h.2.2.1, h.2.2.2.1, h.2.2.2.2⟩

theorem Wait.all {c : Chan V} {ps : List (Pc V)} (h : Wait c ps) :
    c.readWaiting = ps.countP kPopSleep + ps.countP kPopWoken ∧
      c.sendWaiting = ps.countP kPushSleep + ps.countP kPushWoken ∧
      (0 < ps.countP kPopSleep → c.elems ≤ ps.countP kPopWoken + ps.countP kPopIn) ∧
      (0 < ps.countP kPushSleep → c.size - c.elems ≤ ps.countP kPushWoken + ps.countP kPushIn) ∧
      (c.closed = true → ps.countP kPopSleep = 0 ∧ ps.countP kPushSleep = 0) :=
  ⟨h.1, h.2, h.3, h.4, h.5⟩

theorem mutex_none_count {ps : List (Pc V)} (h : Mutex none ps) : ps.countP kIn = 0 := by
  simpa using h.count

theorem mutex_some_count {t : Nat} {ps : List (Pc V)} (h : Mutex (some t) ps) : ps.countP kIn = 1 := by
  simpa using h.count

theorem mutex_free {ps : List (Pc V)} (h : ps.countP kIn = 0) : Mutex none ps :=
  ⟨fun t ht => by simp at ht, by simpa using h⟩

theorem mutex_held {t : Nat} {ps : List (Pc V)} {p : Pc V} (hp : ps[t]? = some p) (hk : kIn p = true)
    (h : ps.countP kIn = 1) : Mutex (some t) ps :=
  ⟨fun u hu => by simp only [Option.some.injEq] at hu; subst hu; exact ⟨p, hp, hk⟩, by simpa using h⟩

theorem get_set_self {l : List (Pc V)} {t : Nat} {p a : Pc V} (h : l[t]? = some p) : (l.set t a)[t]? = some a := by
  obtain ⟨hlt, _⟩ := List.getElem?_eq_some_iff.1 h
  exact List.getElem?_set_self hlt

/-- A thread outside the mutex moves. -/
theorem mutex_move {mu : Option Nat} {ps : List (Pc V)} {t : Nat} {p a : Pc V} (h : Mutex mu ps)
    (hp : ps[t]? = some p) (h1 : kIn p = false) (h2 : kIn a = false) : Mutex mu (ps.set t a) := by
  refine ⟨fun u hu => ?_, ?_⟩
  · obtain ⟨r, hr, hk⟩ := h.held u hu
    refine ⟨r, ?_, hk⟩
    rw [List.getElem?_set_ne]
    · exact hr
    · intro he
      subst he
      rw [hp] at hr
      simp only [Option.some.injEq] at hr
      subst hr
      rw [h1] at hk
      cases hk
  · have := countP_set_eq kIn _ _ a _ hp
    rw [h1, h2] at this
    have h3 := h.count
    simp only [Bool.false_eq_true, if_false, Nat.add_zero] at this
    rw [this]; exact h3

theorem set_same : ∀ {l : List (Pc V)} {t : Nat} {p : Pc V}, l[t]? = some p → l.set t p = l
  | [], t, p, h => by simp at h
  | x :: l, 0, p, h => by
    simp only [List.getElem?_cons_zero, Option.some.injEq] at h
    rw [List.set_cons_zero, h]
  | x :: l, t + 1, p, h => by
    rw [List.set_cons_succ, set_same (by simpa using h)]

/-! ## Closing -/

def wakeAll (p : Pc V) : Pc V := p.wakeRead.wakeSend

theorem map_counts : ∀ ps : List (Pc V),
    (ps.map wakeAll).countP kPopSleep = 0 ∧ (ps.map wakeAll).countP kPushSleep = 0 ∧
    (ps.map wakeAll).countP kPopWoken = ps.countP kPopSleep + ps.countP kPopWoken ∧
    (ps.map wakeAll).countP kPushWoken = ps.countP kPushSleep + ps.countP kPushWoken ∧
    (ps.map wakeAll).countP kIn = ps.countP kIn := by
  intro ps
  induction ps with
  | nil => simp
  | cons p ps ih =>
    obtain ⟨h1, h2, h3, h4, h5⟩ := ih
    simp only [List.map_cons, List.countP_cons, h1, h2, h3, h4, h5]
    cases p <;> simp [wakeAll, Pc.wakeRead, Pc.wakeSend, kPopSleep, kPushSleep, kPopWoken, kPushWoken, kIn] <;> omega

/-! ## Every step -/

theorem step_inv {size : Nat} {s s' : State V} {e : Option (Event V)} {q : List V} (hi : Inv size s q)
    (hs : Step s e s') : ∃ q', Inv size s' q' ∧
      (e = none → q' = q ∧ s'.chan.closed = s.chan.closed) ∧
      (∀ ev, e = some ev → Allowed size (q, s.chan.closed) ev (q', s'.chan.closed)) := by
  obtain ⟨hw', hm, hh, hsz⟩ := hi
  have hw := hw'
  obtain ⟨w1, w2, w3, w4, w5⟩ := hw
  cases hs with
  | @callPush t v hp =>
    refine ⟨q, ⟨?_, mutex_move hm hp rfl rfl, hh, hsz⟩, fun _ => ⟨rfl, rfl⟩, fun _ h => by cases h⟩
    cnt hp, (.pushLock v)
    wt w5
  | @callPop t hp =>
    refine ⟨q, ⟨?_, mutex_move hm hp rfl rfl, hh, hsz⟩, fun _ => ⟨rfl, rfl⟩, fun _ h => by cases h⟩
    cnt hp, (.popLock)
    wt w5
  | @callClose t hp =>
    refine ⟨q, ⟨?_, mutex_move hm hp rfl rfl, hh, hsz⟩, fun _ => ⟨rfl, rfl⟩, fun _ h => by cases h⟩
    cnt hp, (.closeLock)
    wt w5
  | @lockPush t v hp hmu =>
    rw [hmu] at hm
    have hc := mutex_none_count hm
    cnt hp, (.pushIn v)
    refine ⟨q, ⟨?_, mutex_held (get_set_self hp) rfl (by dsimp only; omega), hh, hsz⟩, fun _ => ⟨rfl, rfl⟩, fun _ h => by cases h⟩
    wt w5
  | @lockPop t hp hmu =>
    rw [hmu] at hm
    have hc := mutex_none_count hm
    cnt hp, (.popIn)
    refine ⟨q, ⟨?_, mutex_held (get_set_self hp) rfl (by dsimp only; omega), hh, hsz⟩, fun _ => ⟨rfl, rfl⟩, fun _ h => by cases h⟩
    wt w5
  | @lockClose t hp hmu =>
    rw [hmu] at hm
    have hc := mutex_none_count hm
    cnt hp, (.closeIn)
    refine ⟨q, ⟨?_, mutex_held (get_set_self hp) rfl (by dsimp only; omega), hh, hsz⟩, fun _ => ⟨rfl, rfl⟩, fun _ h => by cases h⟩
    wt w5
  | @wakePush t v hp hmu =>
    rw [hmu] at hm
    have hc := mutex_none_count hm
    cnt hp, (.pushIn v)
    refine ⟨q, ⟨?_, mutex_held (get_set_self hp) rfl (by dsimp only; omega), holds_congr hh rfl rfl rfl rfl rfl, hsz⟩,
      fun _ => ⟨rfl, rfl⟩, fun _ h => by cases h⟩
    wt w5
  | @wakePop t hp hmu =>
    rw [hmu] at hm
    have hc := mutex_none_count hm
    cnt hp, (.popIn)
    refine ⟨q, ⟨?_, mutex_held (get_set_self hp) rfl (by dsimp only; omega), holds_congr hh rfl rfl rfl rfl rfl, hsz⟩,
      fun _ => ⟨rfl, rfl⟩, fun _ h => by cases h⟩
    wt w5
  | @pushWait t v c hp hmu hb =>
    rw [hmu] at hm
    have hc := mutex_some_count hm
    cnt hp, (.pushSleep v)
    rcases pushBody_cases v hh with ⟨h1, h2, h3⟩ | ⟨h1, h3⟩ | ⟨h1, h2, c', h3, _⟩
    · rw [hb] at h3
      simp only [Option.some.injEq, Prod.mk.injEq, and_true] at h3
      subst h3
      have := hh.elems
      refine ⟨q, ⟨?_, mutex_free (by dsimp only; omega), holds_congr hh rfl rfl rfl rfl rfl, hsz⟩,
        fun _ => ⟨rfl, rfl⟩, fun _ h => by cases h⟩
      wt (fun hcl : s.chan.closed = true => show False by rw [h2] at hcl; cases hcl)
    · rw [hb] at h3; simp at h3
    · rw [hb] at h3; simp at h3
  | @pushClosed t v c hp hmu hb =>
    rw [hmu] at hm
    have hc := mutex_some_count hm
    cnt hp, (.idle)
    rcases pushBody_cases v hh with ⟨h1, h2, h3⟩ | ⟨h1, h3⟩ | ⟨h1, h2, c', h3, _⟩
    · rw [hb] at h3; simp at h3
    · rw [hb] at h3
      simp only [Option.some.injEq, Prod.mk.injEq, and_true] at h3
      subst h3
      refine ⟨q, ⟨?_, mutex_free (by dsimp only; omega), hh, hsz⟩,
        (fun h => by cases h), fun _ h => by cases h; simp only [h1]; exact Allowed.pushClosed⟩
      have hz := w5 h1
      wt w5
    · rw [hb] at h3; simp at h3
  | @pushDone t v c hp hmu hb =>
    rw [hmu] at hm
    have hc := mutex_some_count hm
    cnt hp, (.idle)
    rcases pushBody_cases v hh with ⟨h1, h2, h3⟩ | ⟨h1, h3⟩ | ⟨h1, h2, c', h3, h4, h5, h6, h7, h8, h9⟩
    · rw [hb] at h3; simp at h3
    · rw [hb] at h3; simp at h3
    · rw [hb] at h3
      simp only [Option.some.injEq, Prod.mk.injEq, Out.done.injEq, true_and] at h3
      obtain ⟨rfl, h3⟩ := h3
      have h3' : ¬ s.chan.readWaiting > 0 := by
        intro h; rw [decide_eq_true h] at h3; cases h3
      refine ⟨q ++ [v], ⟨?_, mutex_free (by dsimp only; omega), h4, by rw [h5]; exact hsz⟩,
        (fun h => by cases h), fun _ h => by
          cases h; simp only [h7, h1]; exact Allowed.pushed (by omega)⟩
      wt (fun hcl : c.closed = true => show False by rw [h7, h1] at hcl; cases hcl)
  | @pushSignal t v c ps hp hmu hb hsig =>
    rw [hmu] at hm
    have hc := mutex_some_count hm
    cnt hp, (.idle)
    rcases pushBody_cases v hh with ⟨h1, h2, h3⟩ | ⟨h1, h3⟩ | ⟨h1, h2, c', h3, h4, h5, h6, h7, h8, h9⟩
    · rw [hb] at h3; simp at h3
    · rw [hb] at h3; simp at h3
    · rw [hb] at h3
      simp only [Option.some.injEq, Prod.mk.injEq, Out.done.injEq, true_and] at h3
      obtain ⟨rfl, h3⟩ := h3
      have hall : ∀ ev, some (Event.pushed t v) = some ev →
          Allowed size (q, s.chan.closed) ev (q ++ [v], c.closed) := fun _ h => by
        cases h; simp only [h7, h1]; exact Allowed.pushed (by omega)
      cases hsig with
      | @one u hu =>
        cnt hu, (.popWoken)
        refine ⟨q ++ [v], ⟨?_, mutex_free (by dsimp only; omega), h4, by rw [h5]; exact hsz⟩, (fun h => by cases h), hall⟩
        wt (fun hcl : c.closed = true => show False by rw [h7, h1] at hcl; cases hcl)
      | none hn =>
        have h0 : (s.pcs.set t .idle).countP kPopSleep = 0 := by
          apply countP_zero_of
          intro p hpm
          have := hn p hpm
          cases p <;> first | rfl | exact absurd rfl this
        refine ⟨q ++ [v], ⟨?_, mutex_free (by dsimp only; omega), h4, by rw [h5]; exact hsz⟩, (fun h => by cases h), hall⟩
        wt (fun hcl : c.closed = true => show False by rw [h7, h1] at hcl; cases hcl)
  | @popWait t c hp hmu hb =>
    rw [hmu] at hm
    have hc := mutex_some_count hm
    cnt hp, (.popSleep)
    rcases popBody_cases hh with ⟨h1, h2, h3⟩ | ⟨h1, h2, h3⟩ | ⟨v, q', c', h1, h3, _⟩
    · rw [hb] at h3
      simp only [Option.some.injEq, Prod.mk.injEq, and_true] at h3
      subst h3
      have he := hh.elems
      rw [h1, List.length_nil] at he
      refine ⟨q, ⟨?_, mutex_free (by dsimp only; omega), holds_congr hh rfl rfl rfl rfl rfl, hsz⟩,
        fun _ => ⟨rfl, rfl⟩, fun _ h => by cases h⟩
      wt (fun hcl : s.chan.closed = true => show False by rw [h2] at hcl; cases hcl)
    · rw [hb] at h3; simp at h3
    · rw [hb] at h3; simp at h3
  | @popClosed t c hp hmu hb =>
    rw [hmu] at hm
    have hc := mutex_some_count hm
    cnt hp, (.idle)
    rcases popBody_cases hh with ⟨h1, h2, h3⟩ | ⟨h1, h2, h3⟩ | ⟨v, q', c', h1, h3, _⟩
    · rw [hb] at h3; simp at h3
    · rw [hb] at h3
      simp only [Option.some.injEq, Prod.mk.injEq, and_true] at h3
      subst h3
      refine ⟨q, ⟨?_, mutex_free (by dsimp only; omega), hh, hsz⟩,
        (fun h => by cases h), fun _ h => by cases h; simp only [h1, h2]; exact Allowed.popClosed⟩
      have hz := w5 h2
      wt w5
    · rw [hb] at h3; simp at h3
  | @popDone t v c hp hmu hb =>
    rw [hmu] at hm
    have hc := mutex_some_count hm
    cnt hp, (.idle)
    rcases popBody_cases hh with ⟨h1, h2, h3⟩ | ⟨h1, h2, h3⟩ | ⟨v', q', c', h1, h3, h4, h5, h6, h7, h8, h9⟩
    · rw [hb] at h3; simp at h3
    · rw [hb] at h3; simp at h3
    · rw [hb] at h3
      simp only [Option.some.injEq, Prod.mk.injEq, Out.done.injEq] at h3
      obtain ⟨rfl, rfl, h3⟩ := h3
      have h3' : ¬ s.chan.sendWaiting > 0 := by
        intro h; rw [decide_eq_true h] at h3; cases h3
      refine ⟨q', ⟨?_, mutex_free (by dsimp only; omega), h4, by rw [h5]; exact hsz⟩,
        (fun h => by cases h), fun _ h => by cases h; simp only [h7, h1]; exact Allowed.popped⟩
      rw [← h7] at w5
      wt w5
  | @popSignal t v c ps hp hmu hb hsig =>
    rw [hmu] at hm
    have hc := mutex_some_count hm
    cnt hp, (.idle)
    rcases popBody_cases hh with ⟨h1, h2, h3⟩ | ⟨h1, h2, h3⟩ | ⟨v', q', c', h1, h3, h4, h5, h6, h7, h8, h9⟩
    · rw [hb] at h3; simp at h3
    · rw [hb] at h3; simp at h3
    · rw [hb] at h3
      simp only [Option.some.injEq, Prod.mk.injEq, Out.done.injEq] at h3
      obtain ⟨rfl, rfl, h3⟩ := h3
      have hall : ∀ ev, some (Event.popped t v) = some ev →
          Allowed size (q, s.chan.closed) ev (q', c.closed) := fun _ h => by
        cases h; simp only [h7, h1]; exact Allowed.popped
      cases hsig with
      | @one u w hu =>
        cnt hu, (.pushWoken w)
        refine ⟨q', ⟨?_, mutex_free (by dsimp only; omega), h4, by rw [h5]; exact hsz⟩, (fun h => by cases h), hall⟩
        rw [← h7] at w5
        wt w5
      | none hn =>
        have h0 : (s.pcs.set t .idle).countP kPushSleep = 0 := by
          apply countP_zero_of
          intro p hpm
          have := hn p hpm
          cases p <;> first | rfl | exact absurd rfl (this _)
        refine ⟨q', ⟨?_, mutex_free (by dsimp only; omega), h4, by rw [h5]; exact hsz⟩, (fun h => by cases h), hall⟩
        rw [← h7] at w5
        wt w5
  | @close t hp hmu =>
    rw [hmu] at hm
    have hc := mutex_some_count hm
    cnt hp, (.idle)
    obtain ⟨m1, m2, m3, m4, m5⟩ := map_counts (s.pcs.set t .idle)
    refine ⟨q, ⟨?_, mutex_free ?_, holds_congr hh rfl rfl rfl rfl rfl, hsz⟩,
      (fun h => by cases h), fun _ h => by cases h; exact Allowed.closed⟩
    · apply Wait.mk'
      change _ = (List.map wakeAll _).countP _ + (List.map wakeAll _).countP _ ∧
        _ = (List.map wakeAll _).countP _ + (List.map wakeAll _).countP _ ∧
        (0 < (List.map wakeAll _).countP _ → _) ∧ (0 < (List.map wakeAll _).countP _ → _) ∧
        (_ → (List.map wakeAll _).countP _ = 0 ∧ (List.map wakeAll _).countP _ = 0)
      rw [m1, m2, m3, m4]
      simp only [Nat.lt_irrefl, false_implies, and_self, implies_true, and_true, Nat.zero_add]
      omega
    · change (List.map wakeAll _).countP _ = 0
      omega
  | @spurious t p hp =>
    have hmv : Mutex s.mu (s.pcs.set t p.wakeRead.wakeSend) := by
      cases p with
      | popSleep => exact mutex_move hm hp rfl rfl
      | pushSleep v => exact mutex_move hm hp rfl rfl
      | _ =>
        simp only [Pc.wakeRead, Pc.wakeSend]
        rw [set_same hp]
        exact hm
    refine ⟨q, ⟨?_, hmv, hh, hsz⟩, fun _ => ⟨rfl, rfl⟩, fun _ h => by cases h⟩
    cases p with
    | popSleep =>
      cnt hp, (.popWoken)
      wt w5
    | pushSleep v =>
      cnt hp, (.pushWoken v)
      wt w5
    | _ =>
      simp only [Pc.wakeRead, Pc.wakeSend]
      rw [set_same hp]
      exact hw'

theorem inv_init (size : Nat) (v : V) (n : Nat) : Inv size ⟨init size v, none, List.replicate n .idle⟩ [] := by
  have h : ∀ k : Pc V → Bool, k .idle = false → (List.replicate n (Pc.idle (V := V))).countP k = 0 := by
    intro k hk
    apply countP_zero_of
    intro p hp
    rw [List.eq_of_mem_replicate hp]; exact hk
  refine ⟨?_, mutex_free (h _ rfl), holds_init size v, rfl⟩
  apply Wait.mk'
  simp only [h kPopSleep rfl, h kPopWoken rfl, h kPopIn rfl, h kPushSleep rfl, h kPushWoken rfl, h kPushIn rfl]
  simp [init]

theorem run_inv {size : Nat} {v : V} {n : Nat} {es : List (Event V)} {s : State V} (h : Run size v n es s) :
    ∃ q, Inv size s q ∧ Accepts size es (q, s.chan.closed) := by
  induction h with
  | start => exact ⟨[], inv_init size v n, Accepts.nil⟩
  | silent _ hs ih =>
    obtain ⟨q, h1, h2⟩ := ih
    obtain ⟨q', h3, h4, _⟩ := step_inv h1 hs
    obtain ⟨rfl, h5⟩ := h4 rfl
    exact ⟨q', h3, by rw [h5]; exact h2⟩
  | event _ hs ih =>
    obtain ⟨q, h1, h2⟩ := ih
    obtain ⟨q', h3, _, h4⟩ := step_inv h1 hs
    exact ⟨q', h3, Accepts.snoc h2 (h4 _ rfl)⟩

end C3.Chan
