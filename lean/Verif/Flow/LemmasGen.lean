import Verif.Flow.LemmasRun

/-! # The blocks do what the statements do: the induction -/

set_option autoImplicit false

namespace C3.Flow

variable {σ : Type}

mutual

/-- No `while` or `for` has the constant condition `false`, unless it has neither body nor step. -/
def LStmt.live : LStmt σ → Bool
  | .rethrow _ c => c.live
  | .throw c => c.live
  | .ret _ c d => c.live && d.live
  | .block b => b.live
  | .ite _ t e => t.live && e.live
  | .loop skip (.const false) incr body => body.live && (skip || (incr.isNone && !notEmpty body))
  | .loop _ _ _ body => body.live
  | .switch _ _ cs => cs.live
  | .brk _ d => d.live
  | .cont _ d => d.live
  | .next _ _ d => d.live
  | .inl b _ c => b.live && c.live
  | _ => true

def LSeq.live : LSeq σ → Bool
  | .nil => true
  | .cons s r => s.live && r.live

def LCases.live : LCases σ → Bool
  | .nil => true
  | .cons b r => b.live && r.live

end

theorem empty_exec (n : Nat) : (q : LSeq σ) → notEmpty q = false → ∀ s, lexecSeq n q s = (s, .norm)
  | .nil, _, s => by rw [lexecSeq]
  | .cons (.block body) .nil, h, s => by
    rw [notEmpty] at h
    rw [lexecSeq]
    simp only [lexec, empty_exec n body h s, if_true, lexecSeq]
  | .cons (.block _) (.cons _ _), h, _ => by simp [notEmpty] at h
  | .cons .nop _, h, _ => by simp [notEmpty] at h
  | .cons (.act _) _, h, _ => by simp [notEmpty] at h
  | .cons (.noreturn _) _, h, _ => by simp [notEmpty] at h
  | .cons (.rethrow _ _) _, h, _ => by simp [notEmpty] at h
  | .cons (.throw _) _, h, _ => by simp [notEmpty] at h
  | .cons (.ret _ _ _) _, h, _ => by simp [notEmpty] at h
  | .cons (.ite _ _ _) _, h, _ => by simp [notEmpty] at h
  | .cons (.loop _ _ _ _) _, h, _ => by simp [notEmpty] at h
  | .cons (.switch _ _ _) _, h, _ => by simp [notEmpty] at h
  | .cons (.brk _ _) _, h, _ => by simp [notEmpty] at h
  | .cons (.cont _ _) _, h, _ => by simp [notEmpty] at h
  | .cons (.next _ _ _) _, h, _ => by simp [notEmpty] at h
  | .cons (.inl _ _ _) _, h, _ => by simp [notEmpty] at h

variable {G : Blocks σ}

/-- What `em` emits does what `run` does. -/
def EGood (G : Blocks σ) (n : Nat) (em : List Target → B σ → Option (B σ)) (run : σ → σ × LExit) : Prop :=
  ∀ env b b', em env b = some b' → ∀ s c, Sub b' G → At G b s c → Outcome G n env b' c (run s).1 (run s).2

/-- As `Outcome`, where the normal end is the block `exit`. -/
def Leaves (G : Blocks σ) (n : Nat) (env : List Target) (b' : B σ) (exit : Label) (c : Conf σ) (s' : σ) (x : LExit) : Prop :=
  (x = .norm → used b' exit = true ∧ ∃ k, stepN G k c = enter G exit s') ∧ (x ≠ .norm → Outcome G n env b' c s' x)

theorem Leaves.mono {n : Nat} {env : List Target} {b b' : B σ} {exit : Label} {c : Conf σ} {s' : σ} {x : LExit} (he : Ext b b')
    (h : Leaves G n env b exit c s' x) : Leaves G n env b' exit c s' x :=
  ⟨fun hx => ⟨used_mono he.done (h.1 hx).1, (h.1 hx).2⟩, fun hx => (h.2 hx).mono he hx⟩

theorem Leaves.before {n : Nat} {env : List Target} {b' : B σ} {exit : Label} {c c1 : Conf σ} {s' : σ} {x : LExit} {j : Nat}
    (hj : stepN G j c = c1) (h : Leaves G n env b' exit c1 s' x) : Leaves G n env b' exit c s' x := by
  refine ⟨fun hx => ⟨(h.1 hx).1, ?_⟩, fun hx => (h.2 hx).before hj⟩
  obtain ⟨k, hk⟩ := (h.1 hx).2
  exact ⟨j + k, by rw [stepN_add, hj]; exact hk⟩

theorem Leaves.block {n : Nat} {env : List Target} {b b' : B σ} {exit : Label} {c : Conf σ} {s' : σ} {x : LExit}
    (h : Leaves G n env b exit c s' x) (he : emitBlock exit b = some b') (hs : Sub b' G) : Outcome G n env b' c s' x := by
  by_cases hx : x = .norm
  · subst hx
    obtain ⟨hu, k, hk⟩ := h.1 rfl
    exact ⟨k, by rw [hk]; exact at_block s' he hu hs⟩
  · exact (h.2 hx).mono (emitBlock_ext he) hx

/-- The body of an `if` and the jump to its exit. -/
theorem if_leaves {n : Nat} {env : List Target} {b : B σ} {exit : Label} {c : Conf σ} {s' : σ} {x : LExit}
    (h : Outcome G n (⟨exit, none, []⟩ :: env) b c s' x) (hs : Sub (emitBr exit b) G) :
    Leaves G n env (emitBr exit b) exit c s' (outOfIf x) := by
  have he : Ext b (emitBr exit b) := emitBr_ext _ _
  cases x with
  | norm =>
    refine ⟨fun _ => ?_, fun hx => absurd rfl hx⟩
    obtain ⟨k, h⟩ := h
    obtain ⟨h1, h2⟩ := h.br hs
    exact ⟨h2, k + 1, by rw [stepN_add]; exact h1⟩
  | brk m =>
    cases m with
    | zero =>
      refine ⟨fun _ => ?_, fun hx => absurd rfl hx⟩
      obtain ⟨t, k, h1, h2, h3⟩ := h
      simp only [List.getElem?_cons_zero, Option.some.injEq] at h1
      subst h1
      exact ⟨used_mono he.done h2, k, h3⟩
    | succ m =>
      refine ⟨fun hx => (nomatch hx), fun hx => Outcome.mono he hx ?_⟩
      obtain ⟨t, k, h1, h2, h3⟩ := h
      exact ⟨t, k, by simpa using h1, h2, h3⟩
  | cont m =>
    cases m with
    | zero =>
      exfalso
      obtain ⟨t, l, k, h1, h2, h3⟩ := h
      simp only [List.getElem?_cons_zero, Option.some.injEq] at h1
      subst h1; cases h2
    | succ m =>
      refine ⟨fun hx => (nomatch hx), fun hx => Outcome.mono he hx ?_⟩
      obtain ⟨t, l, k, h1, h2⟩ := h
      exact ⟨t, l, k, by simpa using h1, h2⟩
  | next m i =>
    cases m with
    | zero =>
      exfalso
      obtain ⟨t, l, k, h1, h2, h3⟩ := h
      simp only [List.getElem?_cons_zero, Option.some.injEq] at h1
      subst h1; simp at h2
    | succ m =>
      refine ⟨fun hx => (nomatch hx), fun hx => Outcome.mono he hx ?_⟩
      obtain ⟨t, l, k, h1, h2⟩ := h
      exact ⟨t, l, k, by simpa using h1, h2⟩
  | ret f => exact ⟨fun hx => (nomatch hx), fun hx => Outcome.mono (x := .ret f) he hx h⟩
  | stop => exact ⟨fun hx => (nomatch hx), fun hx => Outcome.mono (x := .stop) he hx h⟩

theorem branch_leaves {n : Nat} {env : List Target} {b b' : B σ} {exit : Label} {o : Option Label} {q : LSeq σ} (ho : o.isSome = notEmpty q)
    (ih : EGood G n (fun env b => emitSeq env q b) (lexecSeq n q)) (hu : used b (o.getD exit) = true)
    {em : B σ → Option (B σ)} (hem : em = emitSeq (⟨exit, none, []⟩ :: env) q)
    (he : onSome o b (fun l => (emitBlock l b).bind fun b => (em b).bind fun b => some (emitBr exit b)) = some b')
    (hs : Sub b' G) (s : σ) :
    Leaves G n env b' exit (enter G (o.getD exit) s) (lexecSeq n q s).1 (outOfIf (lexecSeq n q s).2) := by
  subst hem
  cases o with
  | none =>
    simp only [onSome, Option.some.injEq] at he
    subst he
    rw [empty_exec n q (by rw [← ho]; rfl) s]
    exact ⟨fun _ => ⟨hu, 0, rfl⟩, fun hx => absurd rfl hx⟩
  | some l =>
    simp only [onSome, Option.bind_eq_some_iff, Option.some.injEq] at he
    obtain ⟨b1, h1, b2, h2, rfl⟩ := he
    have hs2 := (emitBr_ext exit b2).sub hs
    have hs1 := (emitSeq_ext q h2).sub hs2
    exact if_leaves (ih _ _ _ h2 s _ hs2 (at_block s h1 hu hs1)) hs

theorem emitCond_at {b : B σ} {s : σ} {c : Conf σ} (cd : Cond σ) (h : At G b s c) (hs : Sub (emitCond cd b) G) :
    ∃ k, At G (emitCond cd b) (cd.eval s).1 (stepN G k c) := by
  cases cd with
  | const v => exact ⟨0, h⟩
  | dyn f => exact ⟨1, h.instr hs⟩

theorem ite_good {n : Nat} {cd : Cond σ} {t e : LSeq σ} (it : EGood G n (fun env b => emitSeq env t b) (lexecSeq n t))
    (ie : EGood G n (fun env b => emitSeq env e b) (lexecSeq n e)) :
    EGood G n (fun env b => emit env (.ite cd t e) b) (lexec n (.ite cd t e)) := by
  intro env b b' h s c hs hat
  replace h : emit env (.ite cd t e) b = some b' := h
  unfold emit at h
  have hc : ¬ b.cur.isNone = true := by
    have := hat.curSome
    intro h; rw [Option.isNone_iff_eq_none] at h; rw [h] at this; cases this
  rw [if_neg hc] at h
  simp only at h
  generalize hx : (newBlock b).1 = exit at h
  generalize hb0 : (newBlock b).2 = b0 at h
  have s0 : Same b b0 := hb0 ▸ newBlock_same b
  generalize hb1 : newBlockIf (notEmpty t) b0 = p1 at h
  have s1 : Same b0 p1.2 := hb1 ▸ newBlockIf_same
  have o1 : p1.1.isSome = notEmpty t := hb1 ▸ newBlockIf_isSome
  obtain ⟨thenB, b1⟩ := p1
  simp only at h s1 o1
  generalize hb2 : newBlockIf (notEmpty e) b1 = p2 at h
  have s2 : Same b1 p2.2 := hb2 ▸ newBlockIf_same
  have o2 : p2.1.isSome = notEmpty e := hb2 ▸ newBlockIf_isSome
  obtain ⟨elseB, b2⟩ := p2
  simp only at h s2 o2
  replace hat := hat.same ((s0.trans s1).trans s2)
  clear hx hb0 hb1 hb2 s0 s1 s2 hc
  rw [lexec]
  simp only
  split at h
  · rename_i hn
    cases h
    rw [Bool.and_eq_true, Option.isNone_iff_eq_none, Option.isNone_iff_eq_none] at hn
    obtain ⟨rfl, rfl⟩ := hn
    have ht := empty_exec n t (by rw [← o1]; rfl)
    have he := empty_exec n e (by rw [← o2]; rfl)
    rw [ht, he, ite_self]
    obtain ⟨k, hk⟩ := emitCond_at cd hat ((dropUnused_ext _).sub hs)
    exact ⟨k, by rw [hk.dropUnused]; exact hk⟩
  · split at h
    · rename_i v
      rw [hat.dropUnused, hat.onCurrent] at h
      simp only [Option.bind_eq_bind, Option.bind_eq_some_iff] at h
      obtain ⟨b3, h3, h4⟩ := h
      have hs3 := (emitBlock_ext h4).sub hs
      cases v with
      | true =>
        have e3 : Ext (emitBr (thenB.getD exit) b2) b3 := by
          refine onSome_ext (fun l b' h => ?_) h3
          simp only [Option.bind_eq_some_iff] at h
          obtain ⟨b5, h5, b6, h6, h7⟩ := h
          cases h7
          exact (emitBlock_ext h5).trans ((emitSeq_ext t h6).trans (emitBr_ext _ _))
        obtain ⟨q1, q2⟩ := hat.br (e3.sub hs3)
        have := branch_leaves o1 it q2 rfl h3 hs3 s
        exact ((this.before (j := 1) q1).block h4 hs)
      | false =>
        have e3 : Ext (emitBr (elseB.getD exit) b2) b3 := by
          refine onSome_ext (fun l b' h => ?_) h3
          simp only [Option.bind_eq_some_iff] at h
          obtain ⟨b5, h5, b6, h6, h7⟩ := h
          cases h7
          exact (emitBlock_ext h5).trans ((emitSeq_ext e h6).trans (emitBr_ext _ _))
        obtain ⟨q1, q2⟩ := hat.br (e3.sub hs3)
        have := branch_leaves o2 ie q2 rfl h3 hs3 s
        exact ((this.before (j := 1) q1).block h4 hs)
    · rename_i f
      simp only [Option.bind_eq_bind, Option.bind_eq_some_iff] at h
      obtain ⟨b3, h3, b4, h4, b5, h5, h6⟩ := h
      have e4 : Ext b3 b4 := by
        refine onSome_ext (fun l b' h => ?_) h4
        simp only [Option.bind_eq_some_iff] at h
        obtain ⟨b5, h5, b6, h6, h7⟩ := h
        cases h7
        exact (emitBlock_ext h5).trans ((emitSeq_ext t h6).trans (emitBr_ext _ _))
      have e5 : Ext b4 b5 := by
        refine onSome_ext (fun l b' h => ?_) h5
        simp only [Option.bind_eq_some_iff] at h
        obtain ⟨b5, h5, b6, h6, h7⟩ := h
        cases h7
        exact (emitBlock_ext h5).trans ((emitSeq_ext e h6).trans (emitBr_ext _ _))
      have hs5 := (emitBlock_ext h6).sub hs
      have hs4 := e5.sub hs5
      have hs3 := e4.sub hs4
      obtain ⟨rfl, hu⟩ := hat.term h3 hs3
      have u1 := hu (thenB.getD exit) (by simp [Term.targets])
      have u2 := used_mono e4.done (hu (elseB.getD exit) (by simp [Term.targets]))
      rw [show (Cond.dyn f).eval s = f s from rfl]
      cases hv : (f s).2 with
      | true =>
        have := (branch_leaves o1 it u1 rfl h4 hs4 (f s).1).mono e5
        refine (this.before (j := 1) ?_).block h6 hs
        simp [stepN, step, hv]
      | false =>
        have := branch_leaves o2 ie u2 rfl h5 hs5 (f s).1
        refine (this.before (j := 1) ?_).block h6 hs
        simp [stepN, step, hv]

/-! ## Loops -/

/-- The rounds of a loop: from `hd`, where the condition is tested in `kt` steps, or from `be`, where the body begins. -/
theorem loop_run {n : Nat} {env : List Target} {b' : B σ} {exit : Label} {test : σ → σ × Bool} {body : σ → σ × LExit} {incr : σ → σ}
    (hd be : σ → Conf σ) (kt k0 : Nat) (hk : 1 ≤ kt + k0) (hhd : ∀ s, (hd s).state = s ∧ (hd s).isOver = false)
    (hbe : ∀ s, (be s).state = s ∧ (be s).isOver = false)
    (htest : ∀ s, ((test s).2 = true → stepN G kt (hd s) = be (test s).1) ∧
      ((test s).2 = false → used b' exit = true ∧ stepN G kt (hd s) = enter G exit (test s).1))
    (hbody : ∀ s, (isBreak0 (body s).2 = true → used b' exit = true ∧ ∃ k, stepN G k (be s) = enter G exit (body s).1) ∧
      (goesOn0 (body s).2 = true → ∃ k, k0 ≤ k ∧ stepN G k (be s) = hd (incr (body s).1)) ∧
      (isBreak0 (body s).2 = false → goesOn0 (body s).2 = false → Outcome G n env b' (be s) (body s).1 (outOf (body s).2))) :
    ∀ m skip s, let r := loopFrom .stop .norm isBreak0 goesOn0 test body incr m skip s
      let c := if skip then be s else hd s
      (r.2 = .norm → used b' exit = true ∧ ∃ k, stepN G k c = enter G exit r.1) ∧
      (r.2 = .stop → ∃ k, (m ≤ k + (if skip then 1 else 0) ∨ n ≤ k + 1) ∧ (stepN G k c).state = r.1 ∧ (stepN G k c).isOver = false) ∧
      (r.2 ≠ .norm → r.2 ≠ .stop → Outcome G n env b' c r.1 (outOf r.2)) := by
  intro m
  induction m with
  | zero =>
    intro skip s
    simp only [loopFrom]
    refine ⟨fun h => (nomatch h), fun _ => ⟨0, Or.inl (Nat.zero_le _), ?_⟩, fun _ h => absurd rfl h⟩
    cases skip
    · exact hhd s
    · exact hbe s
  | succ m ih =>
    -- from the body on, `j` steps after the begin
    have main : ∀ (skip : Bool) (c : Conf σ) (j : Nat) (s : σ), stepN G j c = be s → (skip = false → j = kt) →
        let r := if isBreak0 (body s).2 then ((body s).1, LExit.norm) else
          if goesOn0 (body s).2 then loopFrom .stop .norm isBreak0 goesOn0 test body incr m false (incr (body s).1) else body s
        (r.2 = .norm → used b' exit = true ∧ ∃ k, stepN G k c = enter G exit r.1) ∧
        (r.2 = .stop → ∃ k, (m + 1 ≤ k + (if skip then 1 else 0) ∨ n ≤ k + 1) ∧ (stepN G k c).state = r.1 ∧ (stepN G k c).isOver = false) ∧
        (r.2 ≠ .norm → r.2 ≠ .stop → Outcome G n env b' c r.1 (outOf r.2)) := by
      intro skip c j s hj hjk
      obtain ⟨hb1, hb2, hb3⟩ := hbody s
      by_cases h1 : isBreak0 (body s).2 = true
      · simp only [h1, if_true]
        obtain ⟨hu, k, hk⟩ := hb1 h1
        refine ⟨fun _ => ⟨hu, j + k, by rw [stepN_add, hj]; exact hk⟩, fun h => (nomatch h), fun h => absurd rfl h⟩
      · by_cases h2 : goesOn0 (body s).2 = true
        · simp only [h1, h2, if_true, Bool.false_eq_true, if_false]
          obtain ⟨k, hk0, hk1⟩ := hb2 h2
          obtain ⟨i1, i2, i3⟩ := ih false (incr (body s).1)
          simp only [Bool.false_eq_true, if_false] at i1 i2 i3
          have hjk' : stepN G (j + k) c = hd (incr (body s).1) := by rw [stepN_add, hj]; exact hk1
          refine ⟨fun h => ⟨(i1 h).1, ?_⟩, fun h => ?_, fun h h' => (i3 h h').before hjk'⟩
          · obtain ⟨k', hk'⟩ := (i1 h).2
            exact ⟨j + k + k', by rw [stepN_add, hjk']; exact hk'⟩
          · obtain ⟨k', hk', hk2⟩ := i2 h
            refine ⟨j + k + k', ?_, by rw [stepN_add, hjk']; exact hk2⟩
            cases skip with
            | true => simp only [if_true]; omega
            | false => have := hjk rfl; simp only [Bool.false_eq_true, if_false]; omega
        · simp only [h1, h2, Bool.false_eq_true, if_false]
          have h3 := hb3 (by simpa using h1) (by simpa using h2)
          refine ⟨fun h => ?_, fun h => ?_, fun _ _ => h3.before hj⟩
          · rw [h] at h2; exact absurd rfl h2
          · rw [h] at h3
            obtain ⟨k, hk, hk2⟩ := h3
            exact ⟨j + k, Or.inr (by omega), by rw [stepN_add, hj]; exact hk2⟩
    intro skip s
    cases skip with
    | true =>
      have := main true (be s) 0 s rfl (fun h => (nomatch h))
      simpa only [loopFrom, if_true] using this
    | false =>
      simp only [loopFrom, Bool.false_eq_true, if_false]
      obtain ⟨ht1, ht2⟩ := htest s
      cases hv : (test s).2 with
      | true =>
        have := main false (hd s) kt (test s).1 (ht1 hv) (fun _ => rfl)
        simpa only [Bool.false_eq_true, if_false, if_true] using this
      | false =>
        simp only [Bool.false_eq_true, if_false]
        obtain ⟨hu, hx⟩ := ht2 hv
        exact ⟨fun _ => ⟨hu, kt, hx⟩, fun h => (nomatch h), fun h => absurd rfl h⟩

theorem outOf_norm {x : LExit} (h : outOf x = .norm) : x = .norm := by
  cases x with
  | norm => rfl
  | brk m => cases m <;> cases h
  | cont m => cases m <;> cases h
  | next m k => cases m <;> cases h
  | ret f => cases h
  | stop => cases h

/-- The same for the whole loop, from a run that comes to its begin. -/
theorem loop_leaves {n : Nat} {env : List Target} {b' : B σ} {exit : Label} {r : σ × LExit} {skip : Bool} {c c0 : Conf σ} {j : Nat}
    (h : (r.2 = .norm → used b' exit = true ∧ ∃ k, stepN G k c = enter G exit r.1) ∧
      (r.2 = .stop → ∃ k, (n ≤ k + (if skip then 1 else 0) ∨ n ≤ k + 1) ∧ (stepN G k c).state = r.1 ∧ (stepN G k c).isOver = false) ∧
      (r.2 ≠ .norm → r.2 ≠ .stop → Outcome G n env b' c r.1 (outOf r.2)))
    (hj : stepN G j c0 = c) : Leaves G n env b' exit c0 r.1 (outOf r.2) := by
  obtain ⟨h1, h2, h3⟩ := h
  refine Leaves.before hj ⟨fun hx => h1 (outOf_norm hx), fun hx => ?_⟩
  by_cases hs : r.2 = .stop
  · obtain ⟨k, hk, hk2⟩ := h2 hs
    rw [hs]
    refine ⟨k, ?_, hk2⟩
    cases skip <;> simp at hk <;> omega
  · exact h3 (fun h => hx (by rw [h]; rfl)) hs

/-- The jumps out of a loop that are not for it. -/
theorem Outcome.outOf {n : Nat} {env : List Target} {b : B σ} {t : Target} {c : Conf σ} {s' : σ} {x : LExit} (ht : t.cases = [])
    (h : Outcome G n (t :: env) b c s' x) (h1 : isBreak0 x = false) (h2 : goesOn0 x = false) : Outcome G n env b c s' (outOf x) := by
  cases x with
  | norm => cases h2
  | brk m =>
    cases m with
    | zero => cases h1
    | succ m =>
      obtain ⟨t, k, h1, h2, h3⟩ := h
      exact ⟨t, k, by simpa using h1, h2, h3⟩
  | cont m =>
    cases m with
    | zero => cases h2
    | succ m =>
      obtain ⟨t, l, k, h1, h2⟩ := h
      exact ⟨t, l, k, by simpa using h1, h2⟩
  | next m i =>
    cases m with
    | zero =>
      exfalso
      obtain ⟨t', l, k, h1, h2, h3⟩ := h
      simp only [List.getElem?_cons_zero, Option.some.injEq] at h1
      subst h1; rw [ht] at h2; simp at h2
    | succ m =>
      obtain ⟨t, l, k, h1, h2⟩ := h
      exact ⟨t, l, k, by simpa using h1, h2⟩
  | ret f => exact h
  | stop => exact h

/-- The step of a loop in its own block. -/
theorem incr_block {b b' : B σ} {incr : Option (σ → σ)} {l : Label} (hi : incr.isSome = true) (he : emitIncr incr (some l) b = some b')
    (hu : used b l = true) (hs : Sub b' G) (s : σ) : At G b' (incr.getD id s) (stepN G 1 (enter G l s)) := by
  cases incr with
  | none => cases hi
  | some f =>
    simp only [emitIncr, onSome, Option.bind_eq_bind, Option.bind_eq_some_iff, Option.some.injEq] at he
    obtain ⟨b1, h1, rfl⟩ := he
    have hs1 := (emitInstr_ext (.act f) _).sub hs
    have hat := at_block s h1 hu ((dropUnused_ext b1).sub hs1)
    rw [hat.dropUnused] at hs ⊢
    exact hat.instr hs

theorem incr_block_here {b b' : B σ} {incr : Option (σ → σ)} {l : Label} (hi : incr.isSome = true) (he : emitIncr incr (some l) b = some b')
    (hu : used b l = true) (hs : Sub b' G) (s : σ) : (enter G l s).state = s ∧ (enter G l s).isOver = false := by
  cases incr with
  | none => cases hi
  | some f =>
    simp only [emitIncr, onSome, Option.bind_eq_bind, Option.bind_eq_some_iff, Option.some.injEq] at he
    obtain ⟨b1, h1, rfl⟩ := he
    have hs1 := (emitInstr_ext (.act f) _).sub hs
    exact (at_block s h1 hu ((dropUnused_ext b1).sub hs1)).state

/-- The step of a loop behind its body. -/
theorem incr_here {b b' : B σ} {incr : Option (σ → σ)} (he : emitIncr incr none b = some b') (hs : Sub b' G) {s : σ} {c : Conf σ}
    (hat : At G b s c) : ∃ k, At G b' (incr.getD id s) (stepN G k c) := by
  cases incr with
  | none =>
    simp only [emitIncr, Option.some.injEq] at he
    subst he
    exact ⟨0, hat⟩
  | some f =>
    simp only [emitIncr, onSome, Option.bind_eq_bind, Option.bind_some, Option.some.injEq] at he
    subst he
    rw [hat.dropUnused] at hs ⊢
    exact ⟨1, hat.instr hs⟩

/-- From the end of the body, and from a `continue`, to the end of the step. -/
theorem after_body {b b' : B σ} {incr : Option (σ → σ)} {inc : Option Label} (hi : inc.isSome = incr.isSome)
    (he : emitIncr incr (afterBody inc b).1 (afterBody inc b).2 = some b') (hs : Sub b' G) (s : σ) :
    (∀ c, At G b s c → ∃ k, At G b' (incr.getD id s) (stepN G k c)) ∧
    (∀ l, inc = some l → used b l = true → ∃ k, At G b' (incr.getD id s) (stepN G k (enter G l s))) := by
  by_cases hu : inc.any (used b) = true
  · have ha : afterBody inc b = (inc, emitBr (inc.getD 0) b) := by unfold afterBody; rw [if_pos hu]
    rw [ha] at he
    cases inc with
    | none => cases hu
    | some l =>
      have hl : used b l = true := hu
      have hl' := used_mono (emitBr_ext l b).done hl
      have hb := incr_block (hi.symm.trans rfl) he hl' hs
      refine ⟨fun c hat => ?_, fun l' h _ => by cases h; exact ⟨1, hb s⟩⟩
      obtain ⟨q1, _⟩ := hat.br ((emitIncr_ext he).sub hs)
      exact ⟨1 + 1, by rw [stepN_add, show stepN G 1 c = step G c from rfl, q1]; exact hb s⟩
  · have ha : afterBody inc b = (none, b) := by unfold afterBody; rw [if_neg hu]
    rw [ha] at he
    refine ⟨fun c hat => incr_here he hs hat, fun l h hl => ?_⟩
    subst h
    exact absurd hl hu

/-- A body, emitted in a block, with the step and the jump back. -/
theorem body_round {n : Nat} {env : List Target} {b b1 b2 : B σ} {exit back start : Label} {body : LSeq σ} {incr : Option (σ → σ)}
    {inc : Option Label} (ih : EGood G n (fun env b => emitSeq env body b) (lexecSeq n body)) (hi : inc.isSome = incr.isSome)
    (h1 : emitSeq (⟨exit, inc.or (some back), []⟩ :: env) body b = some b1)
    (h2 : emitIncr incr (afterBody inc b1).1 (afterBody inc b1).2 = some b2) (hs : Sub (emitBr back b2) G)
    (hat : ∀ s, At G b s (enter G start s)) (s : σ) :
    (isBreak0 (lexecSeq n body s).2 = true → used (emitBr back b2) exit = true ∧
      ∃ k, stepN G k (enter G start s) = enter G exit (lexecSeq n body s).1) ∧
    (goesOn0 (lexecSeq n body s).2 = true →
      ∃ k, 1 ≤ k ∧ stepN G k (enter G start s) = enter G back (incr.getD id (lexecSeq n body s).1)) ∧
    (isBreak0 (lexecSeq n body s).2 = false → goesOn0 (lexecSeq n body s).2 = false →
      Outcome G n env (emitBr back b2) (enter G start s) (lexecSeq n body s).1 (outOf (lexecSeq n body s).2)) := by
  have hs2 := (emitBr_ext back b2).sub hs
  have e1 : Ext b1 (emitBr back b2) := (afterBody_ext inc b1).trans ((emitIncr_ext h2).trans (emitBr_ext _ _))
  have ho := ih _ _ _ h1 s _ (e1.sub hs) (hat s)
  obtain ⟨a1, a2⟩ := after_body hi h2 hs2 (lexecSeq n body s).1
  have go : ∀ {c : Conf σ}, (∃ k, At G b2 (incr.getD id (lexecSeq n body s).1) (stepN G k c)) →
      ∃ k, 1 ≤ k ∧ stepN G k c = enter G back (incr.getD id (lexecSeq n body s).1) := by
    rintro c ⟨k, hk⟩
    exact ⟨k + 1, by omega, by rw [stepN_add]; exact (hk.br hs).1⟩
  refine ⟨fun hb => ?_, fun hg => ?_, fun hb hg => ?_⟩
  · generalize hx : (lexecSeq n body s).2 = x at *
    cases x with
    | brk m =>
      cases m with
      | zero =>
        obtain ⟨t, k, q1, q2, q3⟩ := ho
        simp only [List.getElem?_cons_zero, Option.some.injEq] at q1
        subst q1
        exact ⟨used_mono e1.done q2, k, q3⟩
      | succ m => cases hb
    | _ => cases hb
  · generalize hx : (lexecSeq n body s).2 = x at *
    cases x with
    | norm =>
      obtain ⟨k, hk⟩ := ho
      obtain ⟨k', q1, q2⟩ := go (a1 _ hk)
      exact ⟨k + k', by omega, by rw [stepN_add]; exact q2⟩
    | cont m =>
      cases m with
      | zero =>
        obtain ⟨t, l, k, q1, q2, q3, q4, q5⟩ := ho
        simp only [List.getElem?_cons_zero, Option.some.injEq] at q1
        subst q1
        cases inc with
        | none =>
          simp only [Option.none_or, Option.some.injEq] at q2
          subst q2
          cases incr with
          | some f => cases hi
          | none => exact ⟨k, q4, q5⟩
        | some li =>
          simp only [Option.some_or, Option.some.injEq] at q2
          subst q2
          obtain ⟨k', p1, p2⟩ := go (a2 li rfl q3)
          exact ⟨k + k', by omega, by rw [stepN_add, q5]; exact p2⟩
      | succ m => cases hg
    | _ => cases hg
  · have := Outcome.outOf rfl ho hb hg
    exact this.mono e1 fun h => by rw [outOf_norm h] at hg; cases hg

theorem not_isNone {b : B σ} {s : σ} {c : Conf σ} (hat : At G b s c) : ¬ b.cur.isNone = true := by
  have := hat.curSome
  intro h; rw [Option.isNone_iff_eq_none] at h; rw [h] at this; cases this

theorem loop_dyn_good {n : Nat} {skip : Bool} {f : σ → σ × Bool} {incr : Option (σ → σ)} {body : LSeq σ}
    (ih : EGood G n (fun env b => emitSeq env body b) (lexecSeq n body)) :
    EGood G n (fun env b => emit env (.loop skip (.dyn f) incr body) b) (lexec n (.loop skip (.dyn f) incr body)) := by
  intro env b b' h s c hs hat
  replace h : emit env (.loop skip (.dyn f) incr body) b = some b' := h
  unfold emit at h
  rw [if_neg (not_isNone hat)] at h
  simp only at h
  generalize hb1 : newBlockIf incr.isSome b = p1 at h
  have s1 : Same b p1.2 := hb1 ▸ newBlockIf_same
  have o1 : p1.1.isSome = incr.isSome := hb1 ▸ newBlockIf_isSome
  obtain ⟨inc, b1⟩ := p1
  simp only at h s1 o1
  generalize hb2 : newBlockIf (notEmpty body) b1 = p2 at h
  have s2 : Same b1 p2.2 := hb2 ▸ newBlockIf_same
  have o2 : p2.1.isSome = notEmpty body := hb2 ▸ newBlockIf_isSome
  obtain ⟨bodyB, b2⟩ := p2
  simp only at h s2 o2
  replace hat := hat.same (s1.trans s2)
  clear hb1 hb2 s1 s2
  generalize hc : (newBlock b2).1 = condB at h
  generalize hb3 : (newBlock b2).2 = b3 at h
  have s3 : Same b2 b3 := hb3 ▸ newBlock_same b2
  generalize hx : (newBlock b3).1 = exit at h
  generalize hb4 : (newBlock b3).2 = b4 at h
  have s4 : Same b3 b4 := hb4 ▸ newBlock_same b3
  replace hat := hat.same (s3.trans s4)
  clear hc hb3 s3 hx hb4 s4
  simp only [Option.bind_eq_bind, Option.bind_eq_some_iff] at h
  obtain ⟨b5, h5, b6, h6, r7, h7, b8, h8, h9⟩ := h
  have hs8 := (emitBlock_ext h9).sub hs
  have e7 : Ext b6 r7.2 := by
    unfold onSome at h7
    split at h7
    · simp only [Option.bind_eq_some_iff] at h7
      obtain ⟨b8, h8, b9, h9, h10⟩ := h7
      refine (emitBlock_ext h8).trans ((emitSeq_ext body h9).trans ?_)
      cases h10; exact afterBody_ext _ _
    · cases h7; exact Ext.refl _
  have e8 : Ext r7.2 (emitBr condB b8) := (emitIncr_ext h8).trans (emitBr_ext _ _)
  have e6 : Ext b6 (emitBr condB b8) := e7.trans e8
  have e5 : Ext b5 (emitBr condB b8) := (emitTerm_ext h6).trans e6
  have hs5 := e5.sub hs8
  have hs6 := e6.sub hs8
  generalize hsu : (bodyB.or inc).getD condB = success at h5 h6
  -- The first jump
  obtain ⟨f1, f2⟩ := hat.br ((emitBlock_ext h5).sub hs5)
  -- The condition
  have hcond : ∀ s, enter G condB s = .run [] (.cbr f success exit) s ∧ used b6 success = true ∧ used b6 exit = true := by
    intro s
    obtain ⟨_, _, hb5⟩ := emitBlock_eq h5
    obtain ⟨l, is, hl, hb6⟩ := emitTerm_eq h6
    rw [hb5] at hl
    simp only [Option.some.injEq, Prod.mk.injEq] at hl
    obtain ⟨rfl, rfl⟩ := hl
    have hm := hs6.done condB [] (.cbr f success exit) (by rw [hb6]; simp)
    refine ⟨by unfold enter; rw [hm], ?_, ?_⟩
    · rw [hb6]; exact mem_used (by simp [Term.targets])
    · rw [hb6]; exact mem_used (by simp [Term.targets])
  have key : ∀ s, ((enter G success s).state = s ∧ (enter G success s).isOver = false) ∧
      (isBreak0 (lexecSeq n body s).2 = true → used (emitBr condB b8) exit = true ∧
        ∃ k, stepN G k (enter G success s) = enter G exit (lexecSeq n body s).1) ∧
      (goesOn0 (lexecSeq n body s).2 = true →
        ∃ k, 0 ≤ k ∧ stepN G k (enter G success s) = enter G condB (incr.getD id (lexecSeq n body s).1)) ∧
      (isBreak0 (lexecSeq n body s).2 = false → goesOn0 (lexecSeq n body s).2 = false →
        Outcome G n env (emitBr condB b8) (enter G success s) (lexecSeq n body s).1 (outOf (lexecSeq n body s).2)) := by
    intro s
    obtain ⟨q1, q2, q3⟩ := hcond s
    cases bodyB with
    | some l =>
      simp only [Option.some_or, Option.getD_some] at hsu
      subst hsu
      simp only [onSome, Option.bind_eq_some_iff, Option.some.injEq] at h7
      obtain ⟨b10, h10, b11, h11, rfl⟩ := h7
      have hs11 : Sub b11 G := ((afterBody_ext inc b11).trans e8).sub hs8
      have hs10 := (emitSeq_ext body h11).sub hs11
      have := body_round ih o1 h11 h8 hs8 (fun s => at_block s h10 q2 hs10) s
      exact ⟨(at_block s h10 q2 hs10).state, this.1, fun hg => by obtain ⟨k, _, hk⟩ := this.2.1 hg; exact ⟨k, by omega, hk⟩, this.2.2⟩
    | none =>
      simp only [onSome, Option.some.injEq] at h7
      subst h7
      rw [empty_exec n body (by rw [← o2]; rfl) s]
      cases inc with
      | none =>
        cases incr with
        | some g => cases o1
        | none =>
          simp only [Option.none_or, Option.getD_none] at hsu
          subst hsu
          refine ⟨by rw [q1]; exact ⟨rfl, rfl⟩, fun h => (nomatch h), fun _ => ?_, fun _ h => (nomatch h)⟩
          exact ⟨0, by omega, rfl⟩
      | some li =>
        simp only [Option.none_or, Option.getD_some] at hsu
        subst hsu
        refine ⟨incr_block_here (o1.symm.trans rfl) h8 q2 ((emitBr_ext _ _).sub hs8) s, fun h => (nomatch h), fun _ => ?_,
          fun _ h => (nomatch h)⟩
        have := incr_block (o1.symm.trans rfl) h8 q2 ((emitBr_ext _ _).sub hs8) s
        exact ⟨1 + 1, by omega, by rw [stepN_add]; exact (this.br hs8).1⟩
  have hrun := loop_run (G := G) (n := n) (env := env) (b' := emitBr condB b8) (exit := exit) (test := f) (body := lexecSeq n body)
    (incr := incr.getD id) (enter G condB) (enter G success) 1 0 (by omega) (fun s => by rw [(hcond s).1]; exact ⟨rfl, rfl⟩) (fun s => (key s).1)
    (fun s => by
      obtain ⟨q1, q2, q3⟩ := hcond s
      rw [q1]
      refine ⟨fun hv => ?_, fun hv => ⟨used_mono e6.done q3, ?_⟩⟩ <;> simp [stepN, step, hv])
    (fun s => (key s).2)
    n skip s
  rw [lexec]
  simp only
  refine Leaves.block (loop_leaves (j := 1) hrun ?_) h9 hs
  rw [stepN_one, f1]
  cases skip <;> rfl

theorem loop_infinite_good {n : Nat} {skip : Bool} {incr : Option (σ → σ)} {body : LSeq σ}
    (ih : EGood G n (fun env b => emitSeq env body b) (lexecSeq n body)) :
    EGood G n (fun env b => emit env (.loop skip (.const true) incr body) b) (lexec n (.loop skip (.const true) incr body)) := by
  intro env b b' h s c hs hat
  replace h : emit env (.loop skip (.const true) incr body) b = some b' := h
  unfold emit at h
  rw [if_neg (not_isNone hat)] at h
  simp only at h
  generalize hb1 : newBlockIf incr.isSome b = p1 at h
  have s1 : Same b p1.2 := hb1 ▸ newBlockIf_same
  have o1 : p1.1.isSome = incr.isSome := hb1 ▸ newBlockIf_isSome
  obtain ⟨inc, b1⟩ := p1
  simp only at h s1 o1
  generalize hb2 : newBlockIf (notEmpty body) b1 = p2 at h
  have s2 : Same b1 p2.2 := hb2 ▸ newBlockIf_same
  have o2 : p2.1.isSome = notEmpty body := hb2 ▸ newBlockIf_isSome
  obtain ⟨bodyB, b2⟩ := p2
  simp only at h s2 o2
  replace hat := hat.same (s1.trans s2)
  clear hb1 hb2 s1 s2
  rw [lexec]
  simp only
  split at h
  · rename_i hno
    have hn : bodyB = none ∧ inc = none := by
      cases bodyB <;> cases inc <;> simp_all
    obtain ⟨rfl, rfl⟩ := hn
    have hi : incr = none := by cases incr with
      | none => rfl
      | some g => cases o1
    subst hi
    have hbody := empty_exec n body (by rw [← o2]; rfl)
    have hl : ∀ m skip, loopFrom LExit.stop .norm isBreak0 goesOn0 (Cond.const true).eval (lexecSeq n body) id m skip s = (s, .stop) := by
      intro m
      induction m with
      | zero => intro skip; rfl
      | succ m ih => intro skip; cases skip <;> simp [loopFrom, Cond.eval, hbody, isBreak0, goesOn0, ih]
    rw [show (none : Option (σ → σ)).getD id = id from rfl, hl]
    simp only [Option.bind_eq_bind, Option.bind_eq_some_iff] at h
    obtain ⟨b3, h3, h4⟩ := h
    have hh := hat.noreturn ((emitTerm_ext h3).sub (((newBlock_same b3).ext.trans (emitBlock_ext h4)).sub hs))
    exact ⟨1 + n, by omega, by rw [stepN_add, stepN_one, hh, stepN_halt]; exact ⟨rfl, rfl⟩⟩
  · rename_i start hst
    generalize hx : (newBlock b2).1 = exit at h
    generalize hb3 : (newBlock b2).2 = b3 at h
    have s3 : Same b2 b3 := hb3 ▸ newBlock_same b2
    replace hat := hat.same s3
    clear hx hb3 s3
    simp only [Option.bind_eq_bind, Option.bind_eq_some_iff] at h
    obtain ⟨r7, h7, b8, h8, h9⟩ := h
    have hs8 := (emitBlock_ext h9).sub hs
    have e8 : Ext r7.2 (emitBr start b8) := (emitIncr_ext h8).trans (emitBr_ext _ _)
    have key : step G c = enter G start s ∧ (∀ s, (enter G start s).state = s ∧ (enter G start s).isOver = false) ∧ ∀ s,
        (isBreak0 (lexecSeq n body s).2 = true → used (emitBr start b8) exit = true ∧
          ∃ k, stepN G k (enter G start s) = enter G exit (lexecSeq n body s).1) ∧
        (goesOn0 (lexecSeq n body s).2 = true →
          ∃ k, 1 ≤ k ∧ stepN G k (enter G start s) = enter G start (incr.getD id (lexecSeq n body s).1)) ∧
        (isBreak0 (lexecSeq n body s).2 = false → goesOn0 (lexecSeq n body s).2 = false →
          Outcome G n env (emitBr start b8) (enter G start s) (lexecSeq n body s).1 (outOf (lexecSeq n body s).2)) := by
      cases bodyB with
      | some l =>
        simp only [Option.some_or, Option.some.injEq] at hst
        subst hst
        simp only [onSome, Option.bind_eq_some_iff, Option.some.injEq] at h7
        obtain ⟨b10, h10, b11, h11, rfl⟩ := h7
        have hs11 : Sub b11 G := ((afterBody_ext inc b11).trans e8).sub hs8
        have hs10 := (emitSeq_ext body h11).sub hs11
        obtain ⟨f1, f2⟩ := hat.br ((emitBlock_ext h10).sub hs10)
        exact ⟨f1, fun s => (at_block s h10 f2 hs10).state, fun s => body_round ih o1 h11 h8 hs8 (fun s => at_block s h10 f2 hs10) s⟩
      | none =>
        simp only [Option.none_or] at hst
        subst hst
        simp only [onSome, Option.some.injEq] at h7
        subst h7
        obtain ⟨f1, f2⟩ := hat.br (e8.sub hs8)
        refine ⟨f1, incr_block_here (o1.symm.trans rfl) h8 f2 ((emitBr_ext _ _).sub hs8), fun s => ?_⟩
        rw [empty_exec n body (by rw [← o2]; rfl) s]
        refine ⟨fun h => (nomatch h), fun _ => ?_, fun _ h => (nomatch h)⟩
        have := incr_block (o1.symm.trans rfl) h8 f2 ((emitBr_ext _ _).sub hs8) s
        exact ⟨1 + 1, by omega, by rw [stepN_add]; exact (this.br hs8).1⟩
    have hrun := loop_run (G := G) (n := n) (env := env) (b' := emitBr start b8) (exit := exit) (test := (Cond.const true).eval)
      (body := lexecSeq n body) (incr := incr.getD id) (enter G start) (enter G start) 0 1 (by omega) key.2.1 key.2.1
      (fun s => ⟨fun _ => rfl, fun h => (nomatch h)⟩) key.2.2 n skip s
    refine Leaves.block (loop_leaves (j := 1) hrun ?_) h9 hs
    rw [stepN_one, key.1, ite_self]

end C3.Flow
