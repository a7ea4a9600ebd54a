import Verif.Flow.LemmasGen2

/-! # Loops with the condition `false`, before and after the analysis -/

set_option autoImplicit false

namespace C3.Flow

variable {σ : Type}

/-- No statements, or only empty braces. -/
def Seq.blank : Seq σ → Bool
  | .nil => true
  | .cons (.block body) .nil => body.blank
  | .cons _ _ => false

mutual

/-- No `while` or `for` has the constant condition `false`, unless it has neither body nor step. -/
def Stmt.noFalseLoop : Stmt σ → Bool
  | .block body => body.noFalseLoop
  | .ite _ _ t e => t.noFalseLoop && e.noFalseLoop
  | .loop _ skip (.const false) incr body => body.noFalseLoop && (skip || (incr.isNone && body.blank))
  | .loop _ _ _ _ body => body.noFalseLoop
  | .switch _ _ _ cases => cases.noFalseLoop
  | .defer _ body => body.noFalseLoop
  | .inl body _ => body.noFalseLoop
  | _ => true

def Seq.noFalseLoop : Seq σ → Bool
  | .nil => true
  | .cons s r => s.noFalseLoop && r.noFalseLoop

def Cases.noFalseLoop : Cases σ → Bool
  | .nil => true
  | .cons b r => b.noFalseLoop && r.noFalseLoop

end

theorem copies_live (b : Bool) : (chain : List (Kind × LSeq σ)) → (∀ d ∈ chain, d.2.live = true) → (copies b chain).live = true
  | [], _ => rfl
  | (k, body) :: chain, h => by
    have h1 := copies_live b chain fun d hd => h d (List.mem_cons_of_mem _ hd)
    unfold copies
    split
    · exact h1
    · rw [LSeq.live, LStmt.live, h1, h (k, body) (by simp)]; rfl

theorem defers_live {chain : List (Kind × LSeq σ)} (h : ∀ d ∈ chain, d.2.live = true) (m : Nat) (b : Bool) :
    (context_get_defers chain m b).live = true :=
  copies_live b _ fun d hd => h d (List.mem_of_mem_take hd)

theorem get_defers_self (chain : List (Kind × LSeq σ)) (b : Bool) : context_get_defers chain chain.length b = .nil := by
  unfold context_get_defers
  rw [Nat.sub_self]; rfl

theorem blank_compile : (q : Seq σ) → q.blank = true → ∀ {c : Ctx σ} {r}, compileSeq c c.chain.length false q = some r → notEmpty r.code = false
  | .nil, _, c, r, h => by
    simp only [compileSeq, Bool.false_eq_true, if_false, Option.some.injEq] at h
    subst h
    simp only [get_defers_self]
    rfl
  | .cons (.block body) .nil, hb, c, r, h => by
    rw [Seq.blank] at hb
    simp only [compileSeq, compile, Stmt.isBlock, if_true, Option.bind_eq_bind, Option.bind_eq_some_iff, Option.some.injEq, Bool.false_eq_true,
      if_false] at h
    obtain ⟨a, ⟨a', h1, rfl⟩, h2⟩ := h
    have := blank_compile body hb h1
    obtain ⟨b, rfl, rfl⟩ := h2
    simp only
    split
    · rw [notEmpty]; exact this
    · rw [get_defers_self, notEmpty]; exact this
  | .cons (.block _) (.cons _ _), hb, _, _, _ => by simp [Seq.blank] at hb
  | .cons (.act _) _, hb, _, _, _ => by simp [Seq.blank] at hb
  | .cons (.noreturn _) _, hb, _, _, _ => by simp [Seq.blank] at hb
  | .cons (.rethrow _) _, hb, _, _, _ => by simp [Seq.blank] at hb
  | .cons .throw _, hb, _, _, _ => by simp [Seq.blank] at hb
  | .cons (.ret _) _, hb, _, _, _ => by simp [Seq.blank] at hb
  | .cons (.ite _ _ _ _) _, hb, _, _, _ => by simp [Seq.blank] at hb
  | .cons (.loop _ _ _ _ _) _, hb, _, _, _ => by simp [Seq.blank] at hb
  | .cons (.switch _ _ _ _) _, hb, _, _, _ => by simp [Seq.blank] at hb
  | .cons (.brk _) _, hb, _, _, _ => by simp [Seq.blank] at hb
  | .cons (.cont _) _, hb, _, _, _ => by simp [Seq.blank] at hb
  | .cons (.next _ _) _, hb, _, _, _ => by simp [Seq.blank] at hb
  | .cons (.defer _ _) _, hb, _, _, _ => by simp [Seq.blank] at hb
  | .cons (.inl _ _) _, hb, _, _, _ => by simp [Seq.blank] at hb

mutual

theorem compile_live {c : Ctx σ} (hc : ∀ d ∈ c.chain, d.2.live = true) : (st : Stmt σ) → st.noFalseLoop = true → ∀ {r}, compile c st = some r → r.code.live = true
  | .act f, _, r, h => by simp only [compile, Option.some.injEq] at h; subst h; rfl
  | .noreturn f, _, r, h => by simp only [compile, Option.some.injEq] at h; subst h; rfl
  | .rethrow f, _, r, h => by
    simp only [compile] at h
    split at h
    · cases h
    · cases h; simp only [LStmt.live]; exact defers_live hc _ _
  | .throw, _, r, h => by
    simp only [compile] at h
    split at h
    · cases h
    · cases h; simp only [LStmt.live]; exact defers_live hc _ _
  | .ret x, _, r, h => by
    simp only [compile] at h
    split at h
    · cases h
    · cases h
      simp only [LStmt.live, Bool.and_eq_true]
      refine ⟨defers_live hc _ _, ?_⟩
      repeat' split
      all_goals exact defers_live hc _ _
  | .block body, hl, r, h => by
    simp only [compile, Option.bind_eq_bind, Option.bind_eq_some_iff, Option.some.injEq] at h
    obtain ⟨a, h1, rfl⟩ := h
    simp only [LStmt.live]
    exact compileSeq_live hc body (by rw [Stmt.noFalseLoop] at hl; exact hl) h1
  | .ite l cd t e, hl, r, h => by
    simp only [compile, Option.bind_eq_bind, Option.bind_eq_some_iff, Option.some.injEq] at h
    obtain ⟨a, h1, b, h2, rfl⟩ := h
    rw [Stmt.noFalseLoop, Bool.and_eq_true] at hl
    simp only [LStmt.live, Bool.and_eq_true]
    exact ⟨compileSeq_live (c := ⟨_, c.chain, c.inDefer⟩) (by exact hc) t hl.1 h1, compileSeq_live (c := ⟨_, c.chain, c.inDefer⟩) (by exact hc) e hl.2 h2⟩
  | .loop l skip (.dyn f) incr body, hl, r, h => by
    simp only [compile, Option.bind_eq_bind, Option.bind_eq_some_iff, Option.some.injEq] at h
    obtain ⟨a, h1, rfl⟩ := h
    simp only [LStmt.live]
    exact compileSeq_live (c := ⟨_, c.chain, c.inDefer⟩) (by exact hc) body (by simpa [Stmt.noFalseLoop] using hl) h1
  | .loop l skip (.const true) incr body, hl, r, h => by
    simp only [compile, Option.bind_eq_bind, Option.bind_eq_some_iff, Option.some.injEq] at h
    obtain ⟨a, h1, rfl⟩ := h
    simp only [LStmt.live]
    exact compileSeq_live (c := ⟨_, c.chain, c.inDefer⟩) (by exact hc) body (by simpa [Stmt.noFalseLoop] using hl) h1
  | .loop l skip (.const false) incr body, hl, r, h => by
    simp only [compile, Option.bind_eq_bind, Option.bind_eq_some_iff, Option.some.injEq] at h
    obtain ⟨a, h1, rfl⟩ := h
    rw [Stmt.noFalseLoop, Bool.and_eq_true] at hl
    simp only [LStmt.live, Bool.and_eq_true]
    refine ⟨compileSeq_live (c := ⟨_, c.chain, c.inDefer⟩) (by exact hc) body hl.1 h1, ?_⟩
    have h2 := hl.2
    rw [Bool.or_eq_true, Bool.and_eq_true] at h2 ⊢
    refine h2.imp id fun ⟨q1, q2⟩ => ⟨q1, ?_⟩
    rw [blank_compile (c := ⟨_, c.chain, c.inDefer⟩) body q2 h1]; rfl
  | .switch l sel dflt cases, hl, r, h => by
    simp only [compile] at h
    by_cases hd : dflt.all (· < cases.length) = true
    · simp only [hd, if_true, Option.bind_eq_bind, Option.bind_eq_some_iff, Option.some.injEq] at h
      obtain ⟨a, h1, rfl⟩ := h
      simp only [LStmt.live]
      exact compileCases_live (c := ⟨_, c.chain, c.inDefer⟩) (by exact hc) cases (by rw [Stmt.noFalseLoop] at hl; exact hl) h1
    · simp [hd] at h
  | .brk l, _, r, h => by
    simp only [compile, Option.bind_eq_bind, Option.bind_eq_some_iff, Option.some.injEq] at h
    obtain ⟨a, h1, rfl⟩ := h
    simp only [LStmt.live]
    exact defers_live hc _ _
  | .cont l, _, r, h => by
    simp only [compile, Option.bind_eq_bind, Option.bind_eq_some_iff, Option.some.injEq] at h
    obtain ⟨a, h1, rfl⟩ := h
    simp only [LStmt.live]
    exact defers_live hc _ _
  | .next l k, _, r, h => by
    simp only [compile, Option.bind_eq_bind, Option.bind_eq_some_iff, Option.some.injEq] at h
    obtain ⟨a, h1, rfl⟩ := h
    simp only [LStmt.live]
    exact defers_live hc _ _
  | .defer k body, _, r, h => by simp [compile] at h
  | .inl body bang, hl, r, h => by
    simp only [compile] at h
    split at h
    · cases h
    · simp only [Option.bind_eq_bind, Option.bind_eq_some_iff, Option.some.injEq] at h
      obtain ⟨a, h1, rfl⟩ := h
      simp only [LStmt.live, Bool.and_eq_true]
      exact ⟨compileSeq_live (c := ⟨[], [], false⟩) (fun d hd => (nomatch hd)) body (by rw [Stmt.noFalseLoop] at hl; exact hl) h1, defers_live hc _ _⟩

theorem compileSeq_live {c : Ctx σ} (hc : ∀ d ∈ c.chain, d.2.live = true) {start : Nat} {je : Bool} :
    (q : Seq σ) → q.noFalseLoop = true → ∀ {r}, compileSeq c start je q = some r → r.code.live = true
  | .nil, _, r, h => by
    simp only [compileSeq, Option.some.injEq] at h
    subst h
    simp only
    split
    · rfl
    · exact defers_live hc _ _
  | .cons st rest, hl, r, h => by
    rw [Seq.noFalseLoop, Bool.and_eq_true] at hl
    have gen : ∀ {a : R (LStmt σ)} {b : R (LSeq σ)}, compile c st = some a → compileSeq c start (if st.isBlock then a.je else je || a.je) rest = some b →
        r = ⟨.cons (if je then .nop else a.code) b.code, b.je, a.brks ++ b.brks, (if je then 0 else a.rets) + b.rets⟩ → r.code.live = true := by
      rintro a b h1 h2 rfl
      simp only [LSeq.live, Bool.and_eq_true]
      refine ⟨?_, compileSeq_live hc rest hl.2 h2⟩
      split
      · rfl
      · exact compile_live hc st hl.1 h1
    cases st with
    | defer k body =>
      simp only [compileSeq, Option.bind_eq_bind, Option.bind_eq_some_iff, Option.some.injEq] at h
      obtain ⟨b, h1, r', h2, rfl⟩ := h
      have hb := compileSeq_live (c := ⟨[], [], true⟩) (fun d hd => (nomatch hd)) body (by have := hl.1; rw [Stmt.noFalseLoop] at this; exact this) h1
      simp only [LSeq.live, LStmt.live, Bool.true_and]
      refine compileSeq_live (c := ⟨c.env, _, c.inDefer⟩) (fun d hd => ?_) rest hl.2 h2
      rcases List.mem_cons.1 hd with rfl | hd
      · exact hb
      · exact hc d hd
    | _ =>
      simp only [compileSeq, Option.bind_eq_bind, Option.bind_eq_some_iff, Option.some.injEq] at h
      obtain ⟨a, h1, b, h2, h3⟩ := h
      exact gen h1 h2 h3.symm

theorem compileCases_live {c : Ctx σ} (hc : ∀ d ∈ c.chain, d.2.live = true) {start : Nat} :
    (q : Cases σ) → q.noFalseLoop = true → ∀ {r}, compileCases c start q = some r → r.code.live = true
  | .nil, _, r, h => by
    simp only [compileCases, Option.some.injEq] at h
    subst h; rfl
  | .cons body rest, hl, r, h => by
    rw [Cases.noFalseLoop, Bool.and_eq_true] at hl
    simp only [compileCases, Option.bind_eq_bind, Option.bind_eq_some_iff, Option.some.injEq] at h
    obtain ⟨a, h1, b, h2, rfl⟩ := h
    simp only [LCases.live, Bool.and_eq_true]
    exact ⟨compileSeq_live hc body hl.1 h1, compileCases_live hc rest hl.2 h2⟩

end

end C3.Flow
