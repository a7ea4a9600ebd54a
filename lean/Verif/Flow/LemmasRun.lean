import Verif.Flow.LemmasEmit

/-! # The blocks do what the statements do -/

set_option autoImplicit false

namespace C3.Flow

variable {σ : Type}

/-- `G` has the blocks of `b`, and the current block of `b` as it is so far. -/
structure Sub (b : B σ) (G : Blocks σ) : Prop where
  done : ∀ l is t, (l, is, t) ∈ b.done → G.find l = some (is, t)
  cur : ∀ l is, b.cur = some (l, is) → alive b l = true → ∃ rest t, G.find l = some (is ++ rest, t)

theorem Ext.sub {b b' : B σ} {G : Blocks σ} (h : Ext b b') (hs : Sub b' G) : Sub b G := by
  refine ⟨fun l is t hm => hs.done l is t ?_, fun l is hc ha => ?_⟩
  · obtain ⟨x, hx⟩ := h.done
    rw [hx]; exact List.mem_append_right _ hm
  · rcases h.cur l is hc ha with ⟨is', h1⟩ | ⟨is', t, h1⟩
    · obtain ⟨rest, t, h2⟩ := hs.cur l _ h1 (alive_mono h.done ha)
      exact ⟨is' ++ rest, t, by rw [h2, List.append_assoc]⟩
    · exact ⟨is', t, hs.done _ _ _ h1⟩

/-! ## Runs -/

variable {G : Blocks σ}

theorem stepN_add (j k : Nat) (c : Conf σ) : stepN G (j + k) c = stepN G k (stepN G j c) := by
  induction j generalizing c with
  | zero => rw [Nat.zero_add]; rfl
  | succ j ih => rw [show j + 1 + k = (j + k) + 1 by omega]; exact ih _

theorem stepN_one (c : Conf σ) : stepN G 1 c = step G c := rfl

theorem stepN_halt (k : Nat) (s : σ) : stepN G k (.halt s) = .halt s := by
  induction k with
  | zero => rfl
  | succ k ih => exact ih

theorem stepN_ret (k : Nat) (f : Bool) (s : σ) : stepN G k (.ret f s) = .ret f s := by
  induction k with
  | zero => rfl
  | succ k ih => exact ih

theorem stepN_stuck (k : Nat) (s : σ) : stepN G k (.stuck s) = .stuck s := by
  induction k with
  | zero => rfl
  | succ k ih => exact ih

/-- The run has returned, or is stuck. -/
def Conf.isOver : Conf σ → Bool
  | .ret _ _ => true
  | .stuck _ => true
  | _ => false

/-- The run has come to the end of what is emitted, with state `s`. -/
def At (G : Blocks σ) (b : B σ) (s : σ) (c : Conf σ) : Prop :=
  ∃ l is rest t, b.cur = some (l, is) ∧ alive b l = true ∧ G.find l = some (is ++ rest, t) ∧ c = .run rest t s

theorem At.state {b : B σ} {s : σ} {c : Conf σ} (h : At G b s c) : c.state = s ∧ c.isOver = false := by
  obtain ⟨l, is, rest, t, _, _, _, rfl⟩ := h
  exact ⟨rfl, rfl⟩

theorem At.same {b b' : B σ} {s : σ} {c : Conf σ} (h : At G b s c) (hs : Same b b') : At G b' s c := by
  obtain ⟨l, is, rest, t, h1, h2, h3, h4⟩ := h
  exact ⟨l, is, rest, t, by rw [hs.cur, h1], by rw [hs.alive, h2], h3, h4⟩

theorem At.curSome {b : B σ} {s : σ} {c : Conf σ} (h : At G b s c) : b.cur.isSome = true := by
  obtain ⟨l, is, rest, t, h1, _⟩ := h
  rw [h1]; rfl

theorem At.dropUnused {b : B σ} {s : σ} {c : Conf σ} (h : At G b s c) : dropUnused b = b := by
  obtain ⟨l, is, rest, t, h1, h2, _⟩ := h
  unfold C3.Flow.dropUnused
  rw [h1]
  cases is with
  | nil => simp [h2]
  | cons _ _ => rfl

theorem At.checkBlockBranch {b : B σ} {s : σ} {c : Conf σ} (h : At G b s c) : checkBlockBranch b = b := by
  obtain ⟨l, is, rest, t, h1, h2, _⟩ := h
  unfold C3.Flow.checkBlockBranch
  rw [h1]
  simp [h2]

theorem At.onCurrent {b : B σ} {s : σ} {c : Conf σ} (h : At G b s c) (g : B σ → Option (B σ)) : onCurrent b g = g b := by
  unfold C3.Flow.onCurrent
  rw [h.curSome]; rfl

theorem mem_used {b : B σ} {l m : Label} {is : List (Instr σ)} {t : Term σ} (hm : m ∈ t.targets) :
    used { b with done := (l, is, t) :: b.done, cur := none } m = true := by
  unfold used
  simp [hm]

theorem At.term {b b' : B σ} {s : σ} {c : Conf σ} {t : Term σ} (h : At G b s c) (he : emitTerm t b = some b') (hs : Sub b' G) :
    c = .run [] t s ∧ ∀ m ∈ t.targets, used b' m = true := by
  obtain ⟨l, is, rest, t', h1, h2, h3, rfl⟩ := h
  obtain ⟨l', is', h4, rfl⟩ := emitTerm_eq he
  rw [h1] at h4
  simp only [Option.some.injEq, Prod.mk.injEq] at h4
  obtain ⟨rfl, rfl⟩ := h4
  have h5 := hs.done l is t (by simp)
  rw [h3] at h5
  simp only [Option.some.injEq, Prod.mk.injEq] at h5
  have hr : rest = [] := by simpa using h5.1
  exact ⟨by rw [hr, h5.2], fun m hm => mem_used hm⟩

theorem At.br {b : B σ} {s : σ} {c : Conf σ} {m : Label} (h : At G b s c) (hs : Sub (emitBr m b) G) :
    step G c = enter G m s ∧ used (emitBr m b) m = true := by
  have h' := h
  obtain ⟨l, is, rest, t', h1, h2, h3, rfl⟩ := h'
  have he : emitTerm (.br m) b = some (emitBr m b) := by
    rw [emitBr_alive h1 h2]; unfold emitTerm; rw [h1]
  obtain ⟨h4, h5⟩ := h.term he hs
  rw [h4]
  exact ⟨rfl, h5 m (by simp [Term.targets])⟩

theorem At.instr {b : B σ} {s : σ} {c : Conf σ} {f : σ → σ} (h : At G b s c) (hs : Sub (emitInstr (.act f) b) G) :
    At G (emitInstr (.act f) b) (f s) (step G c) := by
  obtain ⟨l, is, rest, t, h1, h2, h3, rfl⟩ := h
  have hc : (emitInstr (.act f) b).cur = some (l, is ++ [.act f]) := by unfold emitInstr; rw [h1]
  have hd : (emitInstr (.act f) b).done = b.done := by unfold emitInstr; rw [h1]
  have ha : alive (emitInstr (.act f) b) l = true := by unfold alive used; rw [hd]; exact h2
  obtain ⟨rest', t', h4⟩ := hs.cur l _ hc ha
  rw [h3] at h4
  simp only [Option.some.injEq, Prod.mk.injEq, List.append_assoc, List.append_cancel_left_eq] at h4
  obtain ⟨rfl, rfl⟩ := h4
  exact ⟨l, _, rest', t, hc, ha, by rw [h3, List.append_assoc], rfl⟩

theorem At.noreturn {b : B σ} {s : σ} {c : Conf σ} {f : σ → σ} (h : At G b s c) (hs : Sub (emitInstr (.noreturn f) b) G) :
    step G c = .halt (f s) := by
  obtain ⟨l, is, rest, t, h1, h2, h3, rfl⟩ := h
  have hc : (emitInstr (.noreturn f) b).cur = some (l, is ++ [.noreturn f]) := by unfold emitInstr; rw [h1]
  have hd : (emitInstr (.noreturn f) b).done = b.done := by unfold emitInstr; rw [h1]
  have ha : alive (emitInstr (.noreturn f) b) l = true := by unfold alive used; rw [hd]; exact h2
  obtain ⟨rest', t', h4⟩ := hs.cur l _ hc ha
  rw [h3] at h4
  simp only [Option.some.injEq, Prod.mk.injEq, List.append_assoc, List.append_cancel_left_eq] at h4
  obtain ⟨rfl, rfl⟩ := h4
  rfl

theorem at_block {l : Label} {b b' : B σ} (s : σ) (h : emitBlock l b = some b') (hu : used b l = true) (hs : Sub b' G) :
    At G b' s (enter G l s) := by
  obtain ⟨_, _, rfl⟩ := emitBlock_eq h
  have ha : alive { b with cur := some (l, []) } l = true := alive_of_used hu
  obtain ⟨rest, t, h1⟩ := hs.cur l [] rfl ha
  refine ⟨l, [], rest, t, rfl, ha, h1, ?_⟩
  unfold enter
  rw [h1]
  rfl

/-! ## What it means that a run does what the statements do -/

/-- The run goes on for `n` steps or more, or for ever, and passes the state `s'`. -/
def Long (G : Blocks σ) (n : Nat) (c : Conf σ) (s' : σ) : Prop :=
  ∃ k, n ≤ k + 1 ∧ (stepN G k c).state = s' ∧ (stepN G k c).isOver = false

/-- Where the run is when the statements have ended in state `s'` with exit `x`. -/
def Outcome (G : Blocks σ) (n : Nat) (env : List Target) (b' : B σ) (c : Conf σ) (s' : σ) : LExit → Prop
  | .norm => ∃ k, At G b' s' (stepN G k c)
  | .brk m => ∃ t k, env[m]? = some t ∧ used b' t.brk = true ∧ stepN G k c = enter G t.brk s'
  | .cont m => ∃ t l k, env[m]? = some t ∧ t.cont = some l ∧ used b' l = true ∧ 1 ≤ k ∧ stepN G k c = enter G l s'
  | .next m j => ∃ t l k, env[m]? = some t ∧ t.cases[j]? = some l ∧ used b' l = true ∧ 1 ≤ k ∧ stepN G k c = enter G l s'
  | .ret f => ∃ k, stepN G k c = .ret f s'
  | .stop => Long G n c s'

theorem Outcome.before {n : Nat} {env : List Target} {b' : B σ} {c c1 : Conf σ} {s' : σ} {x : LExit} {j : Nat} (hj : stepN G j c = c1)
    (h : Outcome G n env b' c1 s' x) : Outcome G n env b' c s' x := by
  subst hj
  cases x with
  | norm => obtain ⟨k, h⟩ := h; exact ⟨j + k, by rw [stepN_add]; exact h⟩
  | brk m => obtain ⟨t, k, h1, h2, h3⟩ := h; exact ⟨t, j + k, h1, h2, by rw [stepN_add]; exact h3⟩
  | cont m => obtain ⟨t, l, k, h1, h2, h3, h4, h5⟩ := h; exact ⟨t, l, j + k, h1, h2, h3, by omega, by rw [stepN_add]; exact h5⟩
  | next m i => obtain ⟨t, l, k, h1, h2, h3, h4, h5⟩ := h; exact ⟨t, l, j + k, h1, h2, h3, by omega, by rw [stepN_add]; exact h5⟩
  | ret f => obtain ⟨k, h⟩ := h; exact ⟨j + k, by rw [stepN_add]; exact h⟩
  | stop =>
    obtain ⟨k, h1, h2⟩ := h
    exact ⟨j + k, by omega, by rw [stepN_add]; exact h2⟩

theorem Outcome.mono {n : Nat} {env : List Target} {b b' : B σ} {c : Conf σ} {s' : σ} {x : LExit} (he : Ext b b') (hx : x ≠ .norm)
    (h : Outcome G n env b c s' x) : Outcome G n env b' c s' x := by
  cases x with
  | norm => exact absurd rfl hx
  | brk m => obtain ⟨t, k, h1, h2, h3⟩ := h; exact ⟨t, k, h1, used_mono he.done h2, h3⟩
  | cont m => obtain ⟨t, l, k, h1, h2, h3, h4⟩ := h; exact ⟨t, l, k, h1, h2, used_mono he.done h3, h4⟩
  | next m i => obtain ⟨t, l, k, h1, h2, h3, h4⟩ := h; exact ⟨t, l, k, h1, h2, used_mono he.done h3, h4⟩
  | ret f => exact h
  | stop => exact h

theorem Outcome.andThen {n : Nat} {env : List Target} {b b' : B σ} {c : Conf σ} {r : σ × LExit} {x : LExit} (he : Ext b b')
    (h : Outcome G n env b c r.1 r.2) (hx : ∀ s' c', At G b s' c' → Outcome G n env b' c' s' x) :
    Outcome G n env b' c (andThen r x).1 (andThen r x).2 := by
  unfold C3.Flow.andThen
  split
  · rename_i hr
    rw [hr] at h
    obtain ⟨k, h⟩ := h
    exact (hx _ _ h).before rfl
  · rename_i hr
    exact h.mono he hr

theorem ret_outcome {n : Nat} {env : List Target} {b b' : B σ} {s : σ} {c : Conf σ} {f : Bool} (h : At G b s c)
    (he : emitTerm (.ret f) b = some b') (hs : Sub b' G) : Outcome G n env b' c s (.ret f) := by
  obtain ⟨rfl, _⟩ := h.term he hs
  exact ⟨1, rfl⟩

theorem jmp_outcome {b b' : B σ} {s : σ} {c : Conf σ} {l : Label} (h : At G b s c) (he : emitJmp l b = some b') (hs : Sub b' G) :
    step G c = enter G l s ∧ used b' l = true := by
  have e : Ext (emitBr l b) b' := (newBlock_same _).ext.trans (emitBlock_ext he)
  obtain ⟨h1, h2⟩ := h.br (e.sub hs)
  exact ⟨h1, used_mono e.done h2⟩

theorem fold_outcome {b b' : B σ} {s : σ} {c : Conf σ} {f : σ → σ × Bool} {g : Label} (h : At G b s c) (he : emitFold f g b = some b')
    (hs : Sub b' G) : used b' g = true ∧ ((f s).2 = true → step G c = enter G g (f s).1) ∧
      ((f s).2 = false → At G b' (f s).1 (step G c)) := by
  simp only [emitFold, Option.bind_eq_bind, Option.bind_eq_some_iff] at he
  obtain ⟨b1, h1, h2⟩ := he
  obtain ⟨rfl, h3⟩ := (h.same (newBlock_same b)).term h1 ((emitBlock_ext h2).sub hs)
  refine ⟨used_mono (emitBlock_ext h2).done (h3 g (by simp [Term.targets])), fun hf => by simp [step, hf], fun hf => ?_⟩
  have := at_block (G := G) (f s).1 h2 (h3 _ (by simp [Term.targets])) hs
  simpa [step, hf] using this

end C3.Flow
