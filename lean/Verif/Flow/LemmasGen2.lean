import Verif.Flow.LemmasGen

/-! # The blocks do what the statements do: loops that do not loop, switches, and the whole -/

set_option autoImplicit false

namespace C3.Flow

variable {σ : Type} {G : Blocks σ}

/-- A loop with the condition `false`, from the end of the body. -/
theorem once_eq (n : Nat) (body : σ → σ × LExit) (incr : σ → σ) (s : σ) :
    loopFrom LExit.stop .norm isBreak0 goesOn0 (Cond.const false).eval body incr n true s =
      if n = 0 then (s, .stop) else if isBreak0 (body s).2 then ((body s).1, .norm) else
        if goesOn0 (body s).2 then (incr (body s).1, if n = 1 then .stop else .norm) else body s := by
  match n with
  | 0 => rfl
  | 1 =>
    simp only [loopFrom, if_true]
    by_cases h1 : isBreak0 (body s).2 = true
    · simp [h1]
    · by_cases h2 : goesOn0 (body s).2 = true <;> simp [h1, h2]
  | n + 2 =>
    simp only [loopFrom, if_true, Cond.eval, Bool.false_eq_true, if_false]
    by_cases h1 : isBreak0 (body s).2 = true
    · simp [h1]
    · by_cases h2 : goesOn0 (body s).2 = true <;> simp [h1, h2]

theorem loop_none_good {n : Nat} {skip : Bool} {incr : Option (σ → σ)} {body : LSeq σ}
    (ih : EGood G n (fun env b => emitSeq env body b) (lexecSeq n body)) (hl : (skip || (incr.isNone && !notEmpty body)) = true) :
    EGood G n (fun env b => emit env (.loop skip (.const false) incr body) b) (lexec n (.loop skip (.const false) incr body)) := by
  intro env b b' h s c hs hat
  replace h : emit env (.loop skip (.const false) incr body) b = some b' := h
  unfold emit at h
  rw [if_neg (not_isNone hat)] at h
  simp only at h
  generalize hb1 : newBlockIf incr.isSome b = p1 at h
  have s1 : Same b p1.2 := hb1 ▸ newBlockIf_same
  have o1 : p1.1.isSome = incr.isSome := hb1 ▸ newBlockIf_isSome
  obtain ⟨inc, b1⟩ := p1
  simp only at h s1 o1
  generalize hb2 : newBlockIf (notEmpty body) b1 = p2 at h
  have s2 : Same b1 p2.2 := hb2 ▸ newBlockIf_same
  have o2 : p2.1.isSome = notEmpty body := hb2 ▸ newBlockIf_isSome
  obtain ⟨bodyB, b2⟩ := p2
  simp only at h s2 o2
  replace hat := hat.same (s1.trans s2)
  clear hb1 hb2 s1 s2
  rw [lexec]
  simp only
  split at h
  · rename_i hno
    cases h
    have hn : bodyB = none ∧ inc = none := by
      cases bodyB <;> cases inc <;> simp_all
    obtain ⟨rfl, rfl⟩ := hn
    have hi : incr = none := by cases incr with
      | none => rfl
      | some g => cases o1
    subst hi
    have hbody := empty_exec n body (by rw [← o2]; rfl) s
    have long : ∀ {m}, m ≤ 1 → Outcome G m env b' c s .stop := fun hm => ⟨0, hm, hat.state⟩
    cases skip with
    | true =>
      rw [once_eq, hbody]
      match n with
      | 0 => exact long (by omega)
      | 1 => exact long (by omega)
      | n + 2 => exact ⟨0, hat⟩
    | false =>
      match n with
      | 0 => exact long (by omega)
      | n + 1 => exact ⟨0, hat⟩
  · rename_i start hst
    have hskip : skip = true := by
      cases bodyB with
      | some l => rw [← o2] at hl; simpa using hl
      | none =>
        simp only [Option.none_or] at hst
        rw [hst] at o1
        cases incr with
        | none => cases o1
        | some g => simpa using hl
    subst hskip
    clear hl
    generalize hx : (newBlock b2).1 = exit at h
    generalize hb3 : (newBlock b2).2 = b3 at h
    have s3 : Same b2 b3 := hb3 ▸ newBlock_same b2
    replace hat := hat.same s3
    clear hx hb3 s3
    simp only [Option.bind_eq_bind, Option.bind_eq_some_iff] at h
    obtain ⟨r7, h7, b8, h8, h9⟩ := h
    have e9 : Ext b8 b' := onUsed_ext (fun b b' h => (emitBr_ext _ _).trans (emitBlock_ext h)) h9
    have hs8 := e9.sub hs
    have e8 : Ext r7.2 b' := (emitIncr_ext h8).trans e9
    -- how the end and the exit are reached
    have toEnd : ∀ s' c', At G b8 s' c' → ∃ k, At G b' s' (stepN G k c') := by
      intro s' c' ha
      unfold onUsed at h9
      split at h9
      · have hb := (emitBlock_ext h9).sub hs
        obtain ⟨q1, q2⟩ := ha.br hb
        exact ⟨1, by rw [stepN_one, q1]; exact at_block s' h9 q2 hs⟩
      · cases h9; exact ⟨0, ha⟩
    have toExit : ∀ s', used b8 exit = true → At G b' s' (enter G exit s') := by
      intro s' hu
      unfold onUsed at h9
      rw [if_pos hu] at h9
      exact at_block s' h9 (used_mono (emitBr_ext _ _).done hu) hs
    have key : (isBreak0 (lexecSeq n body s).2 = true → ∃ k, At G b' (lexecSeq n body s).1 (stepN G k c)) ∧
        (goesOn0 (lexecSeq n body s).2 = true → ∃ k, At G b' (incr.getD id (lexecSeq n body s).1) (stepN G k c)) ∧
        (isBreak0 (lexecSeq n body s).2 = false → goesOn0 (lexecSeq n body s).2 = false →
          Outcome G n env b' c (lexecSeq n body s).1 (outOf (lexecSeq n body s).2)) := by
      cases bodyB with
      | some l =>
        simp only [onSome, Option.bind_eq_some_iff, Option.some.injEq] at h7
        obtain ⟨b11, h11, rfl⟩ := h7
        have e11 : Ext b11 b8 := (afterBody_ext inc b11).trans (emitIncr_ext h8)
        have ho := ih _ _ _ h11 s c (e11.sub hs8) hat
        obtain ⟨a1, a2⟩ := after_body o1 h8 hs8 (lexecSeq n body s).1
        refine ⟨fun hb => ?_, fun hg => ?_, fun hb hg => ?_⟩
        · generalize hx : (lexecSeq n body s).2 = x at *
          cases x with
          | brk m =>
            cases m with
            | zero =>
              obtain ⟨t, k, q1, q2, q3⟩ := ho
              simp only [List.getElem?_cons_zero, Option.some.injEq] at q1
              subst q1
              exact ⟨k, by rw [q3]; exact toExit _ (used_mono e11.done q2)⟩
            | succ m => cases hb
          | _ => cases hb
        · generalize hx : (lexecSeq n body s).2 = x at *
          cases x with
          | norm =>
            obtain ⟨k, hk⟩ := ho
            obtain ⟨k', hk'⟩ := a1 _ hk
            obtain ⟨k2, hk2⟩ := toEnd _ _ hk'
            exact ⟨k + k' + k2, by rw [stepN_add, stepN_add]; exact hk2⟩
          | cont m =>
            cases m with
            | zero =>
              obtain ⟨t, l, k, q1, q2, q3, q4, q5⟩ := ho
              simp only [List.getElem?_cons_zero, Option.some.injEq] at q1
              subst q1
              cases inc with
              | none =>
                simp only [Option.none_or, Option.some.injEq] at q2
                subst q2
                cases incr with
                | some f => cases o1
                | none => exact ⟨k, by rw [q5]; exact toExit _ (used_mono e11.done q3)⟩
              | some li =>
                simp only [Option.some_or, Option.some.injEq] at q2
                subst q2
                obtain ⟨k', hk'⟩ := a2 li rfl q3
                obtain ⟨k2, hk2⟩ := toEnd _ _ hk'
                exact ⟨k + k' + k2, by rw [stepN_add, stepN_add, q5]; exact hk2⟩
            | succ m => cases hg
          | _ => cases hg
        · have := Outcome.outOf rfl ho hb hg
          exact this.mono (e11.trans e9) fun h => by rw [outOf_norm h] at hg; cases hg
      | none =>
        simp only [Option.none_or] at hst
        subst hst
        simp only [onSome, Option.some.injEq] at h7
        subst h7
        obtain ⟨f1, f2⟩ := hat.br (e8.sub hs)
        rw [empty_exec n body (by rw [← o2]; rfl) s]
        refine ⟨fun h => (nomatch h), fun _ => ?_, fun _ h => (nomatch h)⟩
        have := incr_block (o1.symm.trans rfl) h8 f2 hs8 s
        obtain ⟨k2, hk2⟩ := toEnd _ _ this
        exact ⟨1 + 1 + k2, by rw [stepN_add, stepN_add, show stepN G 1 c = step G c from rfl, f1]; exact hk2⟩
    obtain ⟨k1, k2, k3⟩ := key
    rw [once_eq]
    by_cases hn : n = 0
    · subst hn
      exact ⟨0, by omega, hat.state⟩
    · rw [if_neg hn]
      by_cases hb : isBreak0 (lexecSeq n body s).2 = true
      · rw [if_pos hb]
        exact k1 hb
      · rw [if_neg hb]
        by_cases hg : goesOn0 (lexecSeq n body s).2 = true
        · rw [if_pos hg]
          obtain ⟨k, hk⟩ := k2 hg
          by_cases h1 : n = 1
          · rw [if_pos h1]
            exact ⟨k, by omega, hk.state⟩
          · rw [if_neg h1]
            exact ⟨k, hk⟩
        · rw [if_neg hg]
          exact k3 (by simpa using hb) (by simpa using hg)

/-! ## Switches -/

theorem lexecCases_length (n : Nat) : (cs : LCases σ) → (lexecCases n cs).length = cs.length
  | .nil => by rw [lexecCases]; rfl
  | .cons _ r => by rw [lexecCases, LCases.length, List.length_cons, lexecCases_length n r]

/-- The end of a case is a jump to the exit. -/
theorem case_leaves {n : Nat} {env : List Target} {b : B σ} {exit : Label} {c : Conf σ} {s' : σ} {x : LExit}
    (h : Outcome G n env b c s' x) (hs : Sub (emitBr exit b) G) : Leaves G n env (emitBr exit b) exit c s' x := by
  refine ⟨fun hx => ?_, fun hx => h.mono (emitBr_ext _ _) hx⟩
  subst hx
  obtain ⟨k, h⟩ := h
  obtain ⟨h1, h2⟩ := h.br hs
  exact ⟨h2, k + 1, by rw [stepN_add]; exact h1⟩

def CasesGood (G : Blocks σ) (n : Nat) (cases : LCases σ) : Prop :=
  ∀ env exit ls b b', emitCases env exit cases ls b = some b' → ls.length = cases.length → (∀ l ∈ ls, used b l = true) → Sub b' G →
    ∀ (k : Nat) l body, ls[k]? = some l → (lexecCases n cases)[k]? = some body → ∀ s,
      ((enter G l s).state = s ∧ (enter G l s).isOver = false) ∧ Leaves G n env b' exit (enter G l s) (body s).1 (body s).2

/-- The jumps out of a switch that are not for it. -/
theorem Outcome.outOfSwitch {n : Nat} {env : List Target} {b : B σ} {t : Target} {c : Conf σ} {s' : σ} {x : LExit} (ht : t.cont = none)
    (h : Outcome G n (t :: env) b c s' x) (h0 : x ≠ .norm) (h1 : isBreak0 x = false) (h2 : next0 x = none) : Outcome G n env b c s' (C3.Flow.outOf x) := by
  cases x with
  | norm => exact absurd rfl h0
  | brk m =>
    cases m with
    | zero => cases h1
    | succ m =>
      obtain ⟨t, k, h1, h2, h3⟩ := h
      exact ⟨t, k, by simpa using h1, h2, h3⟩
  | cont m =>
    cases m with
    | zero =>
      exfalso
      obtain ⟨t', l, k, h1, h2, h3⟩ := h
      simp only [List.getElem?_cons_zero, Option.some.injEq] at h1
      subst h1; rw [ht] at h2; cases h2
    | succ m =>
      obtain ⟨t, l, k, h1, h2⟩ := h
      exact ⟨t, l, k, by simpa using h1, h2⟩
  | next m i =>
    cases m with
    | zero => cases h2
    | succ m =>
      obtain ⟨t, l, k, h1, h2⟩ := h
      exact ⟨t, l, k, by simpa using h1, h2⟩
  | ret f => exact h
  | stop => exact h

theorem case_run {n : Nat} {env : List Target} {b' : B σ} {exit : Label} {ls : List Label} {bodies : List (σ → σ × LExit)}
    (hlen : ls.length = bodies.length)
    (hb : ∀ (k : Nat) l body, ls[k]? = some l → bodies[k]? = some body → ∀ s,
      ((enter G l s).state = s ∧ (enter G l s).isOver = false) ∧
        Leaves G n (⟨exit, none, ls⟩ :: env) b' exit (enter G l s) (body s).1 (body s).2)
    (he : used b' exit = true → ∀ s, (enter G exit s).state = s ∧ (enter G exit s).isOver = false) :
    ∀ m k s, (ls[k]? = none → used b' exit = true) →
      let r := caseFrom .stop .norm isBreak0 next0 bodies m k s
      let c := enter G (ls.getD k exit) s
      (r.2 = .norm → used b' exit = true ∧ ∃ k, stepN G k c = enter G exit r.1) ∧
      (r.2 = .stop → ∃ k, (m ≤ k + (if false then 1 else 0) ∨ n ≤ k + 1) ∧ (stepN G k c).state = r.1 ∧ (stepN G k c).isOver = false) ∧
      (r.2 ≠ .norm → r.2 ≠ .stop → Outcome G n env b' c r.1 (outOf r.2)) := by
  intro m
  induction m with
  | zero =>
    intro k s hk
    simp only [caseFrom]
    refine ⟨fun h => (nomatch h), fun _ => ⟨0, Or.inl (Nat.zero_le _), ?_⟩, fun _ h => absurd rfl h⟩
    rcases hlk : ls[k]? with _ | l
    · rw [List.getD_eq_getElem?_getD, hlk]
      exact he (hk hlk) s
    · obtain ⟨body, hbk⟩ : ∃ body, bodies[k]? = some body := by
        have : k < ls.length := by
          rw [List.getElem?_eq_some_iff] at hlk; exact hlk.1
        exact ⟨bodies[k], List.getElem?_eq_getElem (by omega)⟩
      rw [List.getD_eq_getElem?_getD, hlk]
      exact (hb k l body hlk hbk s).1
  | succ m ih =>
    intro k s hk
    rcases hbk : bodies[k]? with _ | body
    · have hlk : ls[k]? = none := by
        rw [List.getElem?_eq_none_iff] at hbk ⊢; omega
      simp only [caseFrom, hbk, List.getD_eq_getElem?_getD, hlk, Option.getD_none]
      exact ⟨fun _ => ⟨hk hlk, 0, rfl⟩, fun h => (nomatch h), fun h => absurd rfl h⟩
    · obtain ⟨l, hlk⟩ : ∃ l, ls[k]? = some l := by
        have : k < bodies.length := by
          rw [List.getElem?_eq_some_iff] at hbk; exact hbk.1
        exact ⟨ls[k], List.getElem?_eq_getElem (by omega)⟩
      have hL := (hb k l body hlk hbk s).2
      simp only [caseFrom, hbk, List.getD_eq_getElem?_getD, hlk, Option.getD_some]
      by_cases h1 : isBreak0 (body s).2 = true
      · simp only [h1, if_true]
        refine ⟨fun _ => ?_, fun h => (nomatch h), fun h => absurd rfl h⟩
        generalize (body s).2 = x at *
        cases x with
        | brk j =>
          cases j with
          | zero =>
            obtain ⟨t, k, q1, q2, q3⟩ := hL.2 (by simp)
            simp only [List.getElem?_cons_zero, Option.some.injEq] at q1
            subst q1
            exact ⟨q2, k, q3⟩
          | succ j => cases h1
        | _ => cases h1
      · simp only [h1, Bool.false_eq_true, if_false]
        rcases h2 : next0 (body s).2 with _ | j
        · simp only
          refine ⟨hL.1, fun h => ?_, fun h h' => ?_⟩
          · have := hL.2 (by rw [h]; simp)
            rw [h] at this
            obtain ⟨k, q1, q2⟩ := this
            exact ⟨k, Or.inr q1, q2⟩
          · exact Outcome.outOfSwitch rfl (hL.2 h) h (by simpa using h1) h2
        · simp only
          have hx : (body s).2 = .next 0 j := by
            generalize (body s).2 = x at *
            cases x with
            | next a b =>
              cases a with
              | zero => simp only [next0, Option.some.injEq] at h2; rw [h2]
              | succ a => cases h2
            | _ => cases h2
          have ho := hL.2 (by rw [hx]; simp)
          rw [hx] at ho
          obtain ⟨t, l', k', q1, q2, q3, q4, q5⟩ := ho
          simp only [List.getElem?_cons_zero, Option.some.injEq] at q1
          subst q1
          simp only at q2
          obtain ⟨i1, i2, i3⟩ := ih j (body s).1 (fun h => by rw [q2] at h; cases h)
          simp only [List.getD_eq_getElem?_getD, q2, Option.getD_some] at i1 i2 i3
          refine ⟨fun h => ⟨(i1 h).1, ?_⟩, fun h => ?_, fun h h' => (i3 h h').before q5⟩
          · obtain ⟨k2, hk2⟩ := (i1 h).2
            exact ⟨k' + k2, by rw [stepN_add, q5]; exact hk2⟩
          · obtain ⟨k2, hk2, hk3⟩ := i2 h
            refine ⟨k' + k2, ?_, by rw [stepN_add, q5]; exact hk3⟩
            simp at hk2 ⊢; omega

theorem switch_good {n : Nat} {sel : σ → σ × Nat} {dflt : Option Nat} {cases : LCases σ} (ih : CasesGood G n cases) :
    EGood G n (fun env b => emit env (.switch sel dflt cases) b) (lexec n (.switch sel dflt cases)) := by
  intro env b b' h s c hs hat
  replace h : emit env (.switch sel dflt cases) b = some b' := h
  unfold emit at h
  rw [if_neg (not_isNone hat)] at h
  rw [lexec]
  simp only [lexecCases_length]
  by_cases hl : cases.length = 0
  · simp only [hl, if_true, Option.some.injEq] at h
    subst h
    have hbs : lexecCases n cases = [] := List.length_eq_zero_iff.1 (by rw [lexecCases_length, hl])
    have ha := hat.instr hs
    rw [hbs]
    cases n with
    | zero => exact ⟨1, by omega, ha.state⟩
    | succ n => exact ⟨1, by simpa [caseFrom, stepN] using ha⟩
  · simp only [hl, if_false] at h
    generalize hn : newBlocks cases.length b = p at h
    have sn : Same b p.2 := hn ▸ newBlocks_same _ _
    have ln : p.1.length = cases.length := hn ▸ newBlocks_length _ _
    obtain ⟨ls, b1⟩ := p
    simp only at h sn ln
    replace hat := hat.same sn
    clear hn sn
    generalize hx : (newBlock b1).1 = exit at h
    generalize hb3 : (newBlock b1).2 = b3 at h
    have s3 : Same b1 b3 := hb3 ▸ newBlock_same b1
    generalize hy : (newBlock b3).1 = entry at h
    generalize hb4 : (newBlock b3).2 = b4 at h
    have s4 : Same b3 b4 := hb4 ▸ newBlock_same b3
    replace hat := hat.same (s3.trans s4)
    clear hx hb3 s3 hy hb4 s4
    simp only [Option.bind_eq_bind, Option.bind_eq_some_iff] at h
    obtain ⟨b5, h5, b6, h6, b7, h7, h8⟩ := h
    have hs7 := (emitBlock_ext h8).sub hs
    have e6 := emitCases_ext cases h7
    have hs6 := e6.sub hs7
    have hs5 := (emitTerm_ext h6).sub hs6
    obtain ⟨f1, f2⟩ := hat.br ((emitBlock_ext h5).sub hs5)
    obtain ⟨g1, g2⟩ := (at_block s h5 f2 hs5).term h6 hs6
    have hcases := ih _ _ _ _ _ h7 ln (fun l hl => g2 l (by simp [Term.targets, hl])) hs7
    have hrun := case_run (env := env) (ln.trans (lexecCases_length n cases).symm) hcases
      (fun hu s => (at_block s h8 hu hs).state) n (selected dflt cases.length (sel s).2) (sel s).1
      (fun hnone => used_mono e6.done (g2 exit (by
        have : (dflt.bind (ls[·]?)).getD exit = exit := by
          rw [List.getElem?_eq_none_iff] at hnone
          unfold selected at hnone
          split at hnone
          · omega
          · cases dflt with
            | none => rfl
            | some d =>
              simp only [Option.getD_some] at hnone
              simp only [Option.bind_some]
              rw [List.getElem?_eq_none hnone]; rfl
        simp [Term.targets, this])))
    refine Leaves.block (loop_leaves (j := 1 + 1) hrun ?_) h8 hs
    rw [stepN_add, show stepN G 1 c = step G c from rfl, f1, g1]
    have ht : ls.getD (sel s).2 ((dflt.bind (ls[·]?)).getD exit) = ls.getD (selected dflt cases.length (sel s).2) exit := by
      unfold selected
      by_cases hi : (sel s).2 < cases.length
      · rw [if_pos hi]
        simp only [List.getD_eq_getElem?_getD]
        rw [List.getElem?_eq_getElem (by omega)]
        rfl
      · rw [if_neg hi]
        simp only [List.getD_eq_getElem?_getD]
        rw [List.getElem?_eq_none (by omega)]
        cases dflt with
        | none =>
          simp only [Option.bind_none, Option.getD_none]
          rw [List.getElem?_eq_none (by omega)]; rfl
        | some d => rfl
    simp only [stepN, step, ht]

/-! ## The whole -/

theorem chain_good {n : Nat} {env : List Target} {b b1 b' : B σ} {q : LSeq σ} {x : LExit} {s : σ} {c : Conf σ}
    (ih : EGood G n (fun env b => emitSeq env q b) (lexecSeq n q)) (h : emitSeq env q b = some b1) (he : Ext b1 b') (hs : Sub b' G)
    (hat : At G b s c) (hx : ∀ s' c', At G b1 s' c' → Outcome G n env b' c' s' x) :
    Outcome G n env b' c (andThen (lexecSeq n q s) x).1 (andThen (lexecSeq n q s) x).2 :=
  Outcome.andThen he (ih _ _ _ h s c (he.sub hs) hat) hx

/-- The cleanup of `!`, from the block `guard`. -/
theorem guard_good {n : Nat} {env : List Target} {b b1 b2 b' : B σ} {q : LSeq σ} {guard noerr : Label} {s : σ}
    (ih : EGood G n (fun env b => emitSeq env q b) (lexecSeq n q)) (hu : used b guard = true)
    (h1 : emitBlock guard b = some b1) (h2 : onCurrent (checkBlockBranch b1) (fun b => (emitSeq env q b).bind (emitTerm (.ret true))) = some b2)
    (h3 : emitBlock noerr b2 = some b') (hs : Sub b' G) :
    Outcome G n env b' (enter G guard s) (andThen (lexecSeq n q s) (.ret true)).1 (andThen (lexecSeq n q s) (.ret true)).2 := by
  have hs2 := (emitBlock_ext h3).sub hs
  have e2 : Ext (checkBlockBranch b1) b2 := by
    refine onCurrent_ext (fun b b' h => ?_) h2
    obtain ⟨b5, h5, h6⟩ := Option.bind_eq_some_iff.1 h
    exact (emitSeq_ext q h5).trans (emitTerm_ext h6)
  have hat := at_block s h1 hu (((checkBlockBranch_ext b1).trans e2).sub hs2)
  rw [hat.checkBlockBranch, hat.onCurrent] at h2
  obtain ⟨b5, h5, h6⟩ := Option.bind_eq_some_iff.1 h2
  exact chain_good ih h5 ((emitTerm_ext h6).trans (emitBlock_ext h3)) hs hat fun s' c' ha =>
    (ret_outcome ha h6 hs2).mono (emitBlock_ext h3) (by simp)

mutual

theorem emit_good (G : Blocks σ) (n : Nat) : (st : LStmt σ) → st.live = true → EGood G n (fun env b => emit env st b) (lexec n st)
  | .nop, _ => by
    intro env b b' h s c hs hat
    replace h : emit env .nop b = some b' := h
    unfold emit at h
    rw [if_neg (not_isNone hat)] at h
    cases h
    rw [lexec]
    exact ⟨0, hat⟩
  | .act f, _ => by
    intro env b b' h s c hs hat
    replace h : emit env (.act f) b = some b' := h
    unfold emit at h
    rw [if_neg (not_isNone hat)] at h
    cases h
    rw [lexec]
    exact ⟨1, hat.instr hs⟩
  | .noreturn f, _ => by
    intro env b b' h s c hs hat
    replace h : emit env (.noreturn f) b = some b' := h
    unfold emit at h
    rw [if_neg (not_isNone hat)] at h
    cases h
    rw [lexec]
    refine ⟨1 + n, by omega, ?_⟩
    rw [stepN_add, stepN_one, hat.noreturn hs, stepN_halt]
    exact ⟨rfl, rfl⟩
  | .rethrow f cleanup, hl => by
    intro env b b' h s c hs hat
    replace h : emit env (.rethrow f cleanup) b = some b' := h
    unfold emit at h
    rw [if_neg (not_isNone hat)] at h
    simp only [Option.bind_eq_bind, Option.bind_eq_some_iff] at h
    obtain ⟨b1, h1, b2, h2, b3, h3, h4⟩ := h
    have e3 : Ext (checkBlockBranch b2) b3 := by
      refine onCurrent_ext (fun b b' h => ?_) h3
      obtain ⟨b5, h5, h6⟩ := Option.bind_eq_some_iff.1 h
      exact (emitSeq_ext cleanup h5).trans (emitTerm_ext h6)
    have e2 : Ext b2 b3 := (checkBlockBranch_ext b2).trans e3
    have eb : Ext (emitBr (newBlock (newBlock b).2).1 b1) b3 := (emitBlock_ext h2).trans e2
    have hs3 := (emitBlock_ext h4).sub hs
    have hsb := eb.sub hs3
    obtain ⟨u, q1, q2⟩ := fold_outcome (hat.same ((newBlock_same b).trans (newBlock_same _))) h1 ((emitBr_ext _ _).sub hsb)
    rw [lexec]
    by_cases hf : (f s).2 = true
    · rw [if_pos hf]
      have := guard_good (s := (f s).1) (emitSeq_good G n cleanup (by rw [LStmt.live] at hl; exact hl)) (used_mono (emitBr_ext _ _).done u) h2 h3 h4 hs
      exact this.before (j := 1) (q1 hf)
    · rw [if_neg hf]
      have ha := q2 (by simpa using hf)
      obtain ⟨p1, p2⟩ := ha.br hsb
      refine ⟨1 + 1, ?_⟩
      rw [stepN_add, stepN_one, stepN_one, p1]
      exact at_block _ h4 (used_mono eb.done p2) hs
  | .throw cleanup, hl => by
    intro env b b' h s c hs hat
    replace h : emit env (.throw cleanup) b = some b' := h
    unfold emit at h
    rw [if_neg (not_isNone hat)] at h
    simp only [Option.bind_eq_bind, Option.bind_eq_some_iff] at h
    obtain ⟨b1, h1, b2, h2, b3, h3, h4⟩ := h
    have e3 : Ext (checkBlockBranch b2) b3 := by
      refine onCurrent_ext (fun b b' h => ?_) h3
      obtain ⟨b5, h5, h6⟩ := Option.bind_eq_some_iff.1 h
      exact (emitSeq_ext cleanup h5).trans (emitTerm_ext h6)
    have e2 : Ext b2 b3 := (checkBlockBranch_ext b2).trans e3
    have eb : Ext (emitBr (newBlock (newBlock b).2).1 b1) b3 := (emitBlock_ext h2).trans e2
    have hs3 := (emitBlock_ext h4).sub hs
    have hsb := eb.sub hs3
    obtain ⟨q1, u⟩ := jmp_outcome (hat.same ((newBlock_same b).trans (newBlock_same _))) h1 ((emitBr_ext _ _).sub hsb)
    rw [lexec]
    have := guard_good (s := s) (emitSeq_good G n cleanup (by rw [LStmt.live] at hl; exact hl)) (used_mono (emitBr_ext _ _).done u) h2 h3 h4 hs
    exact this.before (j := 1) q1
  | .ret .void cleanup cleanup_fail, hl => by
    intro env b b' h s c hs hat
    replace h : emit env (.ret .void cleanup cleanup_fail) b = some b' := h
    unfold emit at h
    rw [if_neg (not_isNone hat)] at h
    simp only [Option.bind_eq_bind, Option.bind_eq_some_iff] at h
    obtain ⟨b1, h1, h2⟩ := h
    rw [LStmt.live, Bool.and_eq_true] at hl
    rw [lexec]
    refine chain_good (emitSeq_good G n cleanup hl.1) h1 ((dropUnused_ext _).trans (onCurrent_ext (fun _ _ => emitTerm_ext) h2)) hs hat ?_
    intro s' c' ha
    rw [ha.dropUnused, ha.onCurrent] at h2
    exact ret_outcome ha h2 hs
  | .ret (.plain f) cleanup cleanup_fail, hl => by
    intro env b b' h s c hs hat
    replace h : emit env (.ret (.plain f) cleanup cleanup_fail) b = some b' := h
    unfold emit at h
    rw [if_neg (not_isNone hat)] at h
    simp only [Option.bind_eq_bind, Option.bind_eq_some_iff] at h
    obtain ⟨b1, h1, h2⟩ := h
    rw [LStmt.live, Bool.and_eq_true] at hl
    rw [lexec]
    have e1 : Ext b1 b' := (dropUnused_ext _).trans (onCurrent_ext (fun _ _ => emitTerm_ext) h2)
    have ha := hat.instr (((emitSeq_ext cleanup h1).trans e1).sub hs)
    refine Outcome.before (j := 1) rfl (chain_good (emitSeq_good G n cleanup hl.1) h1 e1 hs ha ?_)
    intro s' c' ha
    rw [ha.dropUnused, ha.onCurrent] at h2
    exact ret_outcome ha h2 hs
  | .ret (.opt f) cleanup cleanup_fail, hl => by
    intro env b b' h s c hs hat
    replace h : emit env (.ret (.opt f) cleanup cleanup_fail) b = some b' := h
    unfold emit at h
    rw [if_neg (not_isNone hat)] at h
    simp only [Option.bind_eq_bind, Option.bind_eq_some_iff] at h
    obtain ⟨b1, h1, b2, h2, b3, h3, h4⟩ := h
    rw [LStmt.live, Bool.and_eq_true] at hl
    have e4 : Ext b3 b' := by
      refine onUsed_ext (fun b b' h => ?_) h4
      simp only [Option.bind_eq_some_iff] at h
      obtain ⟨b5, h5, b6, h6, h7⟩ := h
      exact (emitBlock_ext h5).trans ((emitSeq_ext cleanup_fail h6).trans (emitTerm_ext h7))
    have e3 : Ext b2 b3 := (dropUnused_ext _).trans (onCurrent_ext (fun _ _ => emitTerm_ext) h3)
    have e2 := emitSeq_ext cleanup h2
    obtain ⟨u, q1, q2⟩ := fold_outcome (hat.same (newBlock_same b)) h1 ((e2.trans (e3.trans e4)).sub hs)
    rw [lexec]
    by_cases hf : (f s).2 = true
    · rw [if_pos hf]
      have u3 := used_mono (e2.trans e3).done u
      unfold onUsed at h4
      rw [if_pos u3] at h4
      simp only [Option.bind_eq_some_iff] at h4
      obtain ⟨b5, h5, b6, h6, h7⟩ := h4
      have ha := at_block (f s).1 h5 u3 (((emitSeq_ext cleanup_fail h6).trans (emitTerm_ext h7)).sub hs)
      refine Outcome.before (j := 1) (q1 hf) (chain_good (emitSeq_good G n cleanup_fail hl.2) h6 (emitTerm_ext h7) hs ha ?_)
      intro s' c' ha
      exact ret_outcome ha h7 hs
    · rw [if_neg hf]
      refine Outcome.before (j := 1) rfl (chain_good (emitSeq_good G n cleanup hl.1) h2 (e3.trans e4) hs (q2 (by simpa using hf)) ?_)
      intro s' c' ha
      rw [ha.dropUnused, ha.onCurrent] at h3
      exact (ret_outcome ha h3 (e4.sub hs)).mono e4 (by simp)
  | .block body, hl => by
    intro env b b' h s c hs hat
    replace h : emit env (.block body) b = some b' := h
    unfold emit at h
    rw [if_neg (not_isNone hat)] at h
    rw [lexec]
    exact emitSeq_good G n body (by rw [LStmt.live] at hl; exact hl) _ _ _ h s c hs hat
  | .ite cd t e, hl => by
    rw [LStmt.live, Bool.and_eq_true] at hl
    exact ite_good (emitSeq_good G n t hl.1) (emitSeq_good G n e hl.2)
  | .loop skip (.dyn f) incr body, hl => loop_dyn_good (emitSeq_good G n body (by simpa [LStmt.live] using hl))
  | .loop skip (.const true) incr body, hl => loop_infinite_good (emitSeq_good G n body (by simpa [LStmt.live] using hl))
  | .loop skip (.const false) incr body, hl => by
    rw [LStmt.live, Bool.and_eq_true] at hl
    exact loop_none_good (emitSeq_good G n body hl.1) hl.2
  | .switch sel dflt cases, hl => switch_good (emitCases_good G n cases (by rw [LStmt.live] at hl; exact hl))
  | .brk m defers, hl => by
    intro env b b' h s c hs hat
    replace h : emit env (.brk m defers) b = some b' := h
    unfold emit at h
    rw [if_neg (not_isNone hat)] at h
    simp only [Option.bind_eq_bind, Option.bind_eq_some_iff] at h
    obtain ⟨b1, h1, t, ht, h2⟩ := h
    rw [lexec]
    refine chain_good (emitSeq_good G n defers (by rw [LStmt.live] at hl; exact hl)) h1 (emitJmp_ext h2) hs hat ?_
    intro s' c' ha
    obtain ⟨q1, q2⟩ := jmp_outcome ha h2 hs
    exact ⟨t, 1, ht, q2, q1⟩
  | .cont m defers, hl => by
    intro env b b' h s c hs hat
    replace h : emit env (.cont m defers) b = some b' := h
    unfold emit at h
    rw [if_neg (not_isNone hat)] at h
    simp only [Option.bind_eq_bind, Option.bind_eq_some_iff] at h
    obtain ⟨b1, h1, t, ht, l, hl', h2⟩ := h
    rw [lexec]
    refine chain_good (emitSeq_good G n defers (by rw [LStmt.live] at hl; exact hl)) h1 (emitJmp_ext h2) hs hat ?_
    intro s' c' ha
    obtain ⟨q1, q2⟩ := jmp_outcome ha h2 hs
    exact ⟨t, l, 1, ht, hl', q2, by omega, q1⟩
  | .next m k defers, hl => by
    intro env b b' h s c hs hat
    replace h : emit env (.next m k defers) b = some b' := h
    unfold emit at h
    rw [if_neg (not_isNone hat)] at h
    simp only [Option.bind_eq_bind, Option.bind_eq_some_iff] at h
    obtain ⟨b1, h1, t, ht, l, hl', h2⟩ := h
    rw [lexec]
    refine chain_good (emitSeq_good G n defers (by rw [LStmt.live] at hl; exact hl)) h1 (emitJmp_ext h2) hs hat ?_
    intro s' c' ha
    obtain ⟨q1, q2⟩ := jmp_outcome ha h2 hs
    exact ⟨t, l, 1, ht, hl', q2, by omega, q1⟩
  | .inl body bang cleanup, _ => by
    intro env b b' h s c hs hat
    replace h : emit env (.inl body bang cleanup) b = some b' := h
    unfold emit at h
    rw [if_neg (not_isNone hat)] at h
    cases h

theorem emitSeq_good (G : Blocks σ) (n : Nat) : (q : LSeq σ) → q.live = true → EGood G n (fun env b => emitSeq env q b) (lexecSeq n q)
  | .nil, _ => by
    intro env b b' h s c hs hat
    replace h : emitSeq env .nil b = some b' := h
    unfold emitSeq at h
    cases h
    rw [lexecSeq]
    exact ⟨0, hat⟩
  | .cons st rest, hl => by
    intro env b b' h s c hs hat
    replace h : emitSeq env (.cons st rest) b = some b' := h
    unfold emitSeq at h
    simp only [Option.bind_eq_bind, Option.bind_eq_some_iff] at h
    obtain ⟨b1, h1, h2⟩ := h
    rw [LSeq.live, Bool.and_eq_true] at hl
    have e2 := emitSeq_ext rest h2
    have ho := emit_good G n st hl.1 _ _ _ h1 s c (e2.sub hs) hat
    rw [lexecSeq]
    by_cases hx : (lexec n st s).2 = .norm
    · rw [if_pos hx]
      rw [hx] at ho
      obtain ⟨k, hk⟩ := ho
      exact Outcome.before rfl (emitSeq_good G n rest hl.2 _ _ _ h2 _ _ hs hk)
    · rw [if_neg hx]
      exact ho.mono e2 hx

theorem emitCases_good (G : Blocks σ) (n : Nat) : (cs : LCases σ) → cs.live = true → CasesGood G n cs
  | .nil, _ => by
    intro env exit ls b b' h hlen hu hs k l body h1 h2
    rw [lexecCases] at h2
    simp at h2
  | .cons q rest, hl => by
    intro env exit ls b b' h hlen hu hs k l body h1 h2 s
    rw [LCases.live, Bool.and_eq_true] at hl
    cases ls with
    | nil => simp at h1
    | cons l0 ls =>
      unfold emitCases at h
      simp only [Option.bind_eq_bind, Option.bind_eq_some_iff] at h
      obtain ⟨b1, h3, b2, h4, h5⟩ := h
      have e5 := emitCases_ext rest h5
      have hsb := e5.sub hs
      rw [lexecCases] at h2
      cases k with
      | zero =>
        simp only [List.getElem?_cons_zero, Option.some.injEq] at h1 h2
        subst h1; subst h2
        have hs2 := (emitBr_ext exit b2).sub hsb
        have ha := at_block s h3 (hu _ (by simp)) ((emitSeq_ext q h4).sub hs2)
        exact ⟨ha.state, (case_leaves (emitSeq_good G n q hl.1 _ _ _ h4 s _ hs2 ha) hsb).mono e5⟩
      | succ k =>
        simp only [List.getElem?_cons_succ] at h1 h2
        refine emitCases_good G n rest hl.2 _ _ _ _ _ h5 (by simpa [LCases.length] using hlen) (fun l hl => ?_) hs k l body h1 h2 s
        exact used_mono ((emitBlock_ext h3).trans ((emitSeq_ext q h4).trans (emitBr_ext _ _))).done (hu l (by simp [hl]))

end

end C3.Flow
