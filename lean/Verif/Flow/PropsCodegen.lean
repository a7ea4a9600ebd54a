import Verif.Flow.Props
import Verif.Flow.LemmasGen2
import Verif.Flow.LemmasLive

/-!
# C57: the blocks of a function do what the function does

`Spec.lean` says what the source of a function does, `Codegen.lean` how the compiler makes LLVM basic blocks of what the analysis left of
it and how blocks run.  The theorems join the two ends: source in, run of the blocks out.  `noFalseLoop` (in `LemmasLive.lean`) says that
no loop has the constant condition `false` together with a body or step; `C57_while_false` shows that the claim is false for those.
-/

set_option autoImplicit false

namespace C3.Flow

variable {σ : Type}

theorem find_mem {G : Blocks σ} (hn : (G.map Prod.fst).Nodup) {l : Label} {is : List (Instr σ)} {t : Term σ} (h : (l, is, t) ∈ G) :
    G.find l = some (is, t) := by
  unfold Blocks.find
  induction G with
  | nil => cases h
  | cons x G ih =>
    obtain ⟨l', x⟩ := x
    simp only [List.map_cons, List.nodup_cons] at hn
    rw [List.lookup_cons]
    rcases List.mem_cons.1 h with h' | h'
    · cases h'; simp
    · have : (l == l') = false := by
        rw [beq_eq_false_iff_ne]
        rintro rfl
        exact hn.1 (List.mem_map_of_mem (f := Prod.fst) h')
      rw [this]
      exact ih hn.2 h'

/-- What the blocks of a function do, by what its code does. -/
theorem emitFn_run {nonvoid : Bool} {code : LSeq σ} {G : Blocks σ} (hl : code.live = true) (h : emitFn nonvoid code = some G) (n : Nat) (s : σ) :
    match (lexecSeq n code s).2 with
    | .norm => nonvoid = false → ∃ k, stepN G k (enter G 0 s) = .ret false (lexecSeq n code s).1
    | .ret f => ∃ k, stepN G k (enter G 0 s) = .ret f (lexecSeq n code s).1
    | .stop => Long G n (enter G 0 s) (lexecSeq n code s).1
    | _ => False := by
  unfold emitFn at h
  simp only [Option.bind_eq_bind, Option.bind_eq_some_iff, Option.some.injEq] at h
  obtain ⟨b1, h1, b2, h2, rfl⟩ := h
  have e1 := emitSeq_ext code h1
  have e2 : Ext b1 b2 := (dropUnused_ext b1).trans (onCurrent_ext (fun b b' h => emitTerm_ext h) h2)
  have hcur : b2.cur = none := by
    unfold onCurrent at h2
    split at h2
    · obtain ⟨l, is, _, rfl⟩ := emitTerm_eq h2; rfl
    · rename_i hc
      simp only [Option.some.injEq] at h2
      subst h2
      simpa using hc
  have hw : WF b2 := e2.wf (e1.wf ⟨List.nodup_nil, fun l is _ h => (nomatch h)⟩)
  have hs : Sub b2 b2.done := ⟨fun l is t hm => find_mem hw.nodup hm, fun l is hc => by rw [hcur] at hc; cases hc⟩
  have hs1 := e2.sub hs
  have hat : At b2.done ⟨1, [], some (0, [])⟩ s (enter b2.done 0 s) := by
    have ha : alive (⟨1, [], some (0, [])⟩ : B σ) 0 = true := rfl
    obtain ⟨rest, t, hf⟩ := (e1.sub hs1).cur 0 [] rfl ha
    exact ⟨0, [], rest, t, rfl, ha, hf, by unfold enter; rw [hf]; rfl⟩
  have ho := emitSeq_good b2.done n code hl [] _ _ h1 s _ hs1 hat
  generalize lexecSeq n code s = r at ho
  obtain ⟨s', x⟩ := r
  cases x with
  | brk m => obtain ⟨t, k, h3, _⟩ := ho; simp at h3
  | cont m => obtain ⟨t, l, k, h3, _⟩ := ho; simp at h3
  | next m j => obtain ⟨t, l, k, h3, _⟩ := ho; simp at h3
  | ret f => exact ho
  | stop => exact ho
  | norm =>
    intro hv
    obtain ⟨k, ha⟩ := ho
    rw [ha.dropUnused, ha.onCurrent, hv] at h2
    obtain ⟨h3, _⟩ := ha.term h2 hs
    exact ⟨k + 1, by rw [stepN_add, h3]; rfl⟩

/-- What the blocks of a function do, by what its source does. -/
theorem fn_run {nonvoid : Bool} {body : Seq σ} {code : LSeq σ} {G : Blocks σ} (hp : PlainSeq body = true) (hf : body.noFalseLoop = true)
    (h : compileFn nonvoid body = some code) (he : emitFn nonvoid code = some G) (n : Nat) (s : σ) :
    (∃ k f, stepN G k (enter G 0 s) = .ret f (execSeq n body s).1 ∧
      ((execSeq n body s).2 = .ret f ∨ (nonvoid = false ∧ f = false ∧ (execSeq n body s).2 = .norm))) ∨
    ((execSeq n body s).2 = .stop ∧ Long G n (enter G 0 s) (execSeq n body s).1) := by
  obtain ⟨d1, d2⟩ := C55_defers_partial hp h n s
  obtain ⟨r, h1, rfl, _⟩ := compileFn_some h
  have hl := compileSeq_live (c := ⟨[], [], false⟩) (fun d hd => (nomatch hd)) body hf h1
  have hr := emitFn_run hl he n s
  rw [d1] at hr
  cases hx : (execSeq n body s).2 with
  | norm =>
    rw [hx] at d2
    simp only [ends, Option.some.injEq] at d2
    rw [d2] at hr
    cases nonvoid with
    | true => exact absurd hx (C56_no_missing_return_partial hp h n s).2
    | false =>
      obtain ⟨k, hk⟩ := hr rfl
      exact Or.inl ⟨k, false, hk, Or.inr ⟨rfl, rfl, rfl⟩⟩
  | ret f =>
    rw [hx] at d2
    simp only [ends, Option.some.injEq] at d2
    rw [d2] at hr
    obtain ⟨k, hk⟩ := hr
    exact Or.inl ⟨k, f, hk, Or.inl rfl⟩
  | stop =>
    rw [hx] at d2
    simp only [ends, Option.some.injEq] at d2
    rw [d2] at hr
    exact Or.inr ⟨rfl, hr⟩
  | _ => rw [hx] at d2; cases d2

theorem over_later {G : Blocks σ} {c : Conf σ} {j k : Nat} (hjk : j ≤ k) (h : (stepN G j c).isOver = true) : stepN G k c = stepN G j c := by
  obtain ⟨d, rfl⟩ := Nat.exists_eq_add_of_le hjk
  rw [stepN_add]
  cases hc : stepN G j c with
  | ret f s => rw [stepN_ret]
  | stuck s => rw [stepN_stuck]
  | _ => rw [hc] at h; cases h

/-- A run that is over is over for good, so two of them agree. -/
theorem over_eq {G : Blocks σ} {c : Conf σ} {j k : Nat} (h1 : (stepN G j c).isOver = true) (h2 : (stepN G k c).isOver = true) :
    stepN G j c = stepN G k c := by
  rcases Nat.le_total j k with h | h
  · exact (over_later h h1).symm
  · exact over_later h h2

/-- **C57** (partial).  The blocks of an accepted function return from a state exactly when the function does: with the same fault or none,
and the same state, hence after the same effects.  So they come to an end exactly when the function does.  Missing: an `if` with a label
and a constant condition, a loop with the constant condition `false`, macros with statements, and that
every accepted function is emitted. -/
theorem C57_returns_partial {nonvoid : Bool} {body : Seq σ} {code : LSeq σ} {G : Blocks σ} (hp : PlainSeq body = true) (hf : body.noFalseLoop = true)
    (h : compileFn nonvoid body = some code) (he : emitFn nonvoid code = some G) (s s' : σ) (f : Bool) :
    (∃ k, stepN G k (enter G 0 s) = .ret f s') ↔
      ∃ n, execSeq n body s = (s', .ret f) ∨ (nonvoid = false ∧ f = false ∧ execSeq n body s = (s', .norm)) := by
  constructor
  · rintro ⟨k, hk⟩
    refine ⟨k + 2, ?_⟩
    rcases fn_run hp hf h he (k + 2) s with ⟨j, g, h1, h2⟩ | ⟨_, j, h1, h2, h3⟩
    · have := over_eq (G := G) (c := enter G 0 s) (j := j) (k := k) (by rw [h1]; rfl) (by rw [hk]; rfl)
      rw [h1, hk] at this
      simp only [Conf.ret.injEq] at this
      obtain ⟨rfl, rfl⟩ := this
      rcases h2 with h2 | ⟨h2, h3, h4⟩
      · exact Or.inl (by rw [← h2])
      · exact Or.inr ⟨h2, h3, by rw [← h4]⟩
    · have := over_later (G := G) (c := enter G 0 s) (j := k) (k := j) (by omega) (by rw [hk]; rfl)
      rw [this, hk] at h3
      cases h3
  · rintro ⟨n, hn⟩
    rcases fn_run hp hf h he n s with ⟨j, g, h1, h2⟩ | ⟨h1, _⟩
    · refine ⟨j, ?_⟩
      rcases hn with hn | ⟨_, rfl, hn⟩
      · rw [hn] at h1 h2
        rcases h2 with h2 | ⟨_, _, h2⟩
        · simp only [Exit.ret.injEq] at h2; subst h2; exact h1
        · cases h2
      · rw [hn] at h1 h2
        rcases h2 with h2 | ⟨_, rfl, _⟩
        · cases h2
        · exact h1
    · rcases hn with hn | ⟨_, _, hn⟩ <;> (rw [hn] at h1; cases h1)

/-- **C57** (partial).  What the function has done by any point of a run that does not come to an end, the blocks do too, and go on: `n`
bounds the rounds of loops in the source and the steps taken in the blocks grow with it. -/
theorem C57_effects_partial {nonvoid : Bool} {body : Seq σ} {code : LSeq σ} {G : Blocks σ} (hp : PlainSeq body = true) (hf : body.noFalseLoop = true)
    (h : compileFn nonvoid body = some code) (he : emitFn nonvoid code = some G) (n : Nat) (s s' : σ) (hx : execSeq n body s = (s', .stop)) :
    ∃ k, n ≤ k + 1 ∧ (stepN G k (enter G 0 s)).state = s' ∧ ∀ f t, stepN G k (enter G 0 s) ≠ .ret f t := by
  rcases fn_run hp hf h he n s with ⟨j, g, _, h2⟩ | ⟨_, k, h1, h2, h3⟩
  · rw [hx] at h2
    rcases h2 with h2 | ⟨_, _, h2⟩ <;> cases h2
  · rw [hx] at h2
    exact ⟨k, h1, h2, fun f t ht => by rw [ht] at h3; cases h3⟩

/-- **C57** (partial).  The blocks never do what LLVM leaves undefined: no branch leads to a block that was removed or never made, and no
`unreachable` is reached, also not the one behind the end of a function with a result. -/
theorem C57_never_stuck_partial {nonvoid : Bool} {body : Seq σ} {code : LSeq σ} {G : Blocks σ} (hp : PlainSeq body = true)
    (hf : body.noFalseLoop = true) (h : compileFn nonvoid body = some code) (he : emitFn nonvoid code = some G) (s t : σ) (k : Nat) :
    stepN G k (enter G 0 s) ≠ .stuck t := by
  intro hk
  rcases fn_run hp hf h he (k + 2) s with ⟨j, g, h1, _⟩ | ⟨_, j, h1, h2, h3⟩
  · have := over_eq (G := G) (c := enter G 0 s) (j := j) (k := k) (by rw [h1]; rfl) (by rw [hk]; rfl)
    rw [h1, hk] at this
    cases this
  · have := over_later (G := G) (c := enter G 0 s) (j := k) (k := j) (by omega) (by rw [hk]; rfl)
    rw [this, hk] at h3
    cases h3

/-- The negation of C57 for a loop with the constant condition `false`, for which `llvm_emit_for_stmt` emits the body once: the function
`while (false) { f(); }` is accepted, should do nothing, and does `f`. -/
theorem C57_while_false (f : σ → σ) : ∃ code G, compileFn false (.cons (.loop none false (.const false) none (.cons (.act f) .nil)) .nil) = some code ∧
    emitFn false code = some G ∧
    ∀ s, (∀ n, execSeq (n + 1) (.cons (.loop none false (.const false) none (.cons (.act f) .nil)) .nil) s = (s, .norm)) ∧
      ∃ k, stepN G k (enter G 0 s) = .ret false (f s) := by
  refine ⟨_, _, rfl, rfl, fun s => ⟨fun n => ?_, 4, rfl⟩⟩
  simp [execSeq, exec, loopFrom, Cond.eval]

/-! ## Cases -/

private def say (k : Nat) : Stmt (List Nat) := .act (· ++ [k])

private def sq : List (Stmt (List Nat)) → Seq (List Nat)
  | [] => .nil
  | s :: l => .cons s (sq l)

private def cs : List (Seq (List Nat)) → Cases (List Nat)
  | [] => .nil
  | s :: l => .cons s (cs l)

/-- ```
defer 1; defer catch 2;
while (true) { defer 4; 5; if (len > 4) break; continue; 9; }
switch (v) { case 0: 10; nextcase 1; case 1: 11; case 2: return; default: for (; len < 20; 13) { 14; } }
6; return 7 that fails if asked;
``` -/
private def sample (v : Nat) (fails : Bool) : Seq (List Nat) :=
  sq [.defer .always (sq [say 1]), .defer .onCatch (sq [say 2]),
    .loop none false (.const true) none (sq [.defer .always (sq [say 4]), say 5,
      .ite none (.dyn fun s => (s, decide (s.length > 4))) (sq [.brk none]) .nil, .cont none, say 9]),
    .switch none (fun s => (s, v)) (some 3) (cs [sq [say 10, .next none 1], sq [say 11], sq [.ret (.plain id)],
      sq [.loop none false (.dyn fun s => (s, decide (s.length < 12))) (some (· ++ [13])) (sq [say 14])]]),
    say 6, .ret (.opt fun s => (s ++ [7], fails))]

/-- The sample meets the hypotheses of C57. -/
private theorem sample_plain (v : Nat) (b : Bool) : PlainSeq (sample v b) = true ∧ (sample v b).noFalseLoop = true := ⟨rfl, rfl⟩
private theorem sample_emitted (b : Bool) : ((compileFn true (sample 0 b)).bind (emitFn true)).isSome = true := by cases b <;> decide +kernel
example : ((compileFn true (sample 0 true)).bind (emitFn true)).map (·.length) = some 16 := by decide +kernel
/-- What its source does. -/
example : execSeq 9 (sample 0 true) [] = ([5, 4, 5, 4, 5, 4, 10, 11, 6, 7, 2, 1], .ret true) := by decide +kernel
example : execSeq 9 (sample 2 false) [] = ([5, 4, 5, 4, 5, 4, 1], .ret false) := by decide +kernel
example : execSeq 9 (sample 8 false) [] = ([5, 4, 5, 4, 5, 4, 14, 13, 14, 13, 14, 13, 6, 7, 1], .ret false) := by decide +kernel
/-- Hence what its blocks do. -/
example : ∃ G k, (compileFn true (sample 0 true)).bind (emitFn true) = some G ∧
    stepN G k (enter G 0 []) = .ret true [5, 4, 5, 4, 5, 4, 10, 11, 6, 7, 2, 1] := by
  obtain ⟨G, hG⟩ := Option.isSome_iff_exists.1 (sample_emitted true)
  obtain ⟨code, h1, h2⟩ := Option.bind_eq_some_iff.1 hG
  obtain ⟨k, hk⟩ := (C57_returns_partial (sample_plain 0 true).1 (sample_plain 0 true).2 h1 h2 [] [5, 4, 5, 4, 5, 4, 10, 11, 6, 7, 2, 1] true).2 ⟨9, Or.inl (by decide +kernel)⟩
  exact ⟨G, k, hG, hk⟩
/-- `while (true) { 5; }` does not stop, as C57_effects says of its blocks. -/
example : execSeq 3 (sq [.loop none false (.const true) none (sq [say 5])]) [] = ([5, 5, 5], .stop) := by decide +kernel
example : ((compileFn false (sq [.loop none false (.const true) none (sq [say 5])])).bind (emitFn false)).isSome = true := by decide +kernel

end C3.Flow
