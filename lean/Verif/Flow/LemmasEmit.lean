import Verif.Flow.Codegen

/-! # What emission keeps: complete blocks stay, the current block only grows -/

set_option autoImplicit false

namespace C3.Flow

variable {σ : Type}

def labels (b : B σ) : List Label := b.done.map Prod.fst

structure WF (b : B σ) : Prop where
  nodup : (labels b).Nodup
  cur : ∀ l is, b.cur = some (l, is) → l ∉ labels b

structure Ext (b b' : B σ) : Prop where
  done : ∃ x, b'.done = x ++ b.done
  cur : ∀ l is, b.cur = some (l, is) → alive b l = true →
    (∃ is', b'.cur = some (l, is ++ is')) ∨ ∃ is' t, (l, is ++ is', t) ∈ b'.done
  wf : WF b → WF b'

theorem used_mono {b b' : B σ} (h : ∃ x, b'.done = x ++ b.done) {l : Label} (hu : used b l = true) : used b' l = true := by
  obtain ⟨x, hx⟩ := h
  unfold used at *
  rw [hx, List.any_append, hu, Bool.or_true]

theorem alive_mono {b b' : B σ} (h : ∃ x, b'.done = x ++ b.done) {l : Label} (hu : alive b l = true) : alive b' l = true := by
  unfold alive at *
  rw [Bool.or_eq_true] at *
  exact hu.imp id (used_mono h)

theorem alive_of_used {b : B σ} {l : Label} (hu : used b l = true) : alive b l = true := by
  unfold alive; rw [hu, Bool.or_true]

theorem Ext.refl (b : B σ) : Ext b b := ⟨⟨[], rfl⟩, fun l is h _ => Or.inl ⟨[], by rw [h, List.append_nil]⟩, id⟩

theorem Ext.trans {a b c : B σ} (h1 : Ext a b) (h2 : Ext b c) : Ext a c := by
  refine ⟨?_, ?_, h2.wf ∘ h1.wf⟩
  · obtain ⟨x, hx⟩ := h1.done
    obtain ⟨y, hy⟩ := h2.done
    exact ⟨y ++ x, by rw [hy, hx, List.append_assoc]⟩
  · intro l is hc ha
    rcases h1.cur l is hc ha with ⟨is', h⟩ | ⟨is', t, h⟩
    · rcases h2.cur l _ h (alive_mono h1.done ha) with ⟨is2, h⟩ | ⟨is2, t, h⟩
      · exact Or.inl ⟨is' ++ is2, by rw [h, List.append_assoc]⟩
      · exact Or.inr ⟨is' ++ is2, t, by rw [← List.append_assoc]; exact h⟩
    · obtain ⟨y, hy⟩ := h2.done
      exact Or.inr ⟨is', t, by rw [hy]; exact List.mem_append_right _ h⟩

/-- Only the number of blocks changed. -/
structure Same (b b' : B σ) : Prop where
  done : b'.done = b.done
  cur : b'.cur = b.cur

theorem Same.ext {b b' : B σ} (h : Same b b') : Ext b b' := by
  obtain ⟨f, d, c⟩ := b
  obtain ⟨f', d', c'⟩ := b'
  obtain ⟨h1, h2⟩ := h
  cases h1; cases h2
  exact ⟨⟨[], rfl⟩, fun l is h _ => Or.inl ⟨[], by simpa using h⟩, fun w => ⟨w.nodup, w.cur⟩⟩

theorem Same.trans {a b c : B σ} (h1 : Same a b) (h2 : Same b c) : Same a c :=
  ⟨h2.done.trans h1.done, h2.cur.trans h1.cur⟩

theorem Same.alive {b b' : B σ} (h : Same b b') (l : Label) : C3.Flow.alive b' l = C3.Flow.alive b l := by
  unfold C3.Flow.alive used; rw [h.done]

theorem newBlock_same (b : B σ) : Same b (newBlock b).2 := ⟨rfl, rfl⟩

theorem fresh_ext (b : B σ) (n : Nat) : Ext b { b with fresh := n } := Same.ext ⟨rfl, rfl⟩

theorem newBlockIf_same {c : Bool} {b : B σ} : Same b (newBlockIf c b).2 := by
  unfold newBlockIf; split <;> exact ⟨rfl, rfl⟩

theorem newBlockIf_isSome {c : Bool} {b : B σ} : (newBlockIf c b).1.isSome = c := by
  unfold newBlockIf; cases c <;> rfl

theorem newBlocks_same (n : Nat) (b : B σ) : Same b (newBlocks n b).2 := by
  induction n generalizing b with
  | zero => exact ⟨rfl, rfl⟩
  | succ n ih =>
    simp only [newBlocks]
    exact (newBlock_same b).trans (ih _)

theorem newBlocks_length (n : Nat) (b : B σ) : (newBlocks n b).1.length = n := by
  induction n generalizing b with
  | zero => rfl
  | succ n ih => simp only [newBlocks, List.length_cons, ih]

theorem emitBlock_eq {l : Label} {b b' : B σ} (h : emitBlock l b = some b') :
    b.cur = none ∧ l ∉ labels b ∧ b' = { b with cur := some (l, []) } := by
  unfold emitBlock at h
  split at h
  · rename_i hc
    rw [Bool.and_eq_true] at hc
    refine ⟨by simpa using hc.1, ?_, by simpa using h.symm⟩
    have h2 := hc.2
    unfold labels
    intro hm
    obtain ⟨e, he, rfl⟩ := List.mem_map.1 hm
    simp only [Bool.not_eq_true', List.any_eq_false] at h2
    exact h2 e he (by simp)
  · cases h

theorem emitBlock_ext {l : Label} {b b' : B σ} (h : emitBlock l b = some b') : Ext b b' := by
  obtain ⟨h1, h2, rfl⟩ := emitBlock_eq h
  refine ⟨⟨[], rfl⟩, fun l' is hc => ?_, fun w => ⟨w.nodup, fun l' is hc => ?_⟩⟩
  · rw [h1] at hc; cases hc
  · simp only [Option.some.injEq, Prod.mk.injEq] at hc
    rw [← hc.1]; exact h2

theorem wf_cons {b : B σ} {l : Label} {is : List (Instr σ)} {t : Term σ} (hc : b.cur = some (l, is)) (w : WF b) :
    WF { b with done := (l, is, t) :: b.done, cur := none } := by
  refine ⟨?_, fun l is h => (nomatch h)⟩
  show (l :: labels b).Nodup
  exact List.nodup_cons.2 ⟨w.cur l is hc, w.nodup⟩

theorem finish_ext {b : B σ} {l : Label} {is : List (Instr σ)} (t : Term σ) (hc : b.cur = some (l, is)) :
    Ext b { b with done := (l, is, t) :: b.done, cur := none } := by
  refine ⟨⟨[_], rfl⟩, fun l' is' h _ => ?_, wf_cons hc⟩
  rw [hc] at h
  simp only [Option.some.injEq, Prod.mk.injEq] at h
  obtain ⟨rfl, rfl⟩ := h
  exact Or.inr ⟨[], t, by simp⟩

theorem emitTerm_eq {t : Term σ} {b b' : B σ} (h : emitTerm t b = some b') :
    ∃ l is, b.cur = some (l, is) ∧ b' = { b with done := (l, is, t) :: b.done, cur := none } := by
  unfold emitTerm at h
  split at h
  · rename_i l is hc
    exact ⟨l, is, hc, by simpa using h.symm⟩
  · cases h

theorem emitTerm_ext {t : Term σ} {b b' : B σ} (h : emitTerm t b = some b') : Ext b b' := by
  obtain ⟨l, is, hc, rfl⟩ := emitTerm_eq h
  exact finish_ext t hc

/-- Dropping a dead current block. -/
theorem drop_ext {b : B σ} (h : ∀ l is, b.cur = some (l, is) → alive b l = false) : Ext b { b with cur := none } := by
  refine ⟨⟨[], rfl⟩, fun l is hc ha => ?_, fun w => ⟨w.nodup, fun l is h => (nomatch h)⟩⟩
  rw [h l is hc] at ha; cases ha

theorem checkBlockBranch_ext (b : B σ) : Ext b (checkBlockBranch b) := by
  unfold checkBlockBranch
  split
  · rename_i l is hc
    split
    · exact Ext.refl b
    · rename_i ha
      refine drop_ext fun l' is' h => ?_
      rw [hc] at h
      simp only [Option.some.injEq, Prod.mk.injEq] at h
      rw [← h.1]; simpa using ha
  · exact Ext.refl b

theorem dropUnused_ext (b : B σ) : Ext b (dropUnused b) := by
  unfold dropUnused
  split
  · rename_i l hc
    split
    · exact Ext.refl b
    · rename_i ha
      refine drop_ext fun l' is' h => ?_
      rw [hc] at h
      simp only [Option.some.injEq, Prod.mk.injEq] at h
      rw [← h.1]; simpa using ha
  · exact Ext.refl b

theorem emitBr_alive {l l' : Label} {is : List (Instr σ)} {b : B σ} (hc : b.cur = some (l', is)) (ha : alive b l' = true) :
    emitBr l b = { b with done := (l', is, .br l) :: b.done, cur := none } := by
  have : checkBlockBranch b = b := by
    unfold checkBlockBranch; rw [hc]; simp [ha]
  unfold emitBr
  rw [this, hc]

theorem emitBr_ext (l : Label) (b : B σ) : Ext b (emitBr l b) := by
  rcases hc : b.cur with _ | ⟨l', is⟩
  · have : emitBr l b = { b with cur := none } := by
      unfold emitBr checkBlockBranch; rw [hc]; simp [hc]
    rw [this]
    exact drop_ext fun l is h => by rw [hc] at h; cases h
  · cases ha : alive b l' with
    | true => rw [emitBr_alive hc ha]; exact finish_ext _ hc
    | false =>
      have : emitBr l b = { b with cur := none } := by
        unfold emitBr checkBlockBranch; rw [hc]; simp [ha]
      rw [this]
      refine drop_ext fun l2 is2 h => ?_
      rw [hc] at h
      simp only [Option.some.injEq, Prod.mk.injEq] at h
      rw [← h.1]; exact ha

theorem emitInstr_ext (i : Instr σ) (b : B σ) : Ext b (emitInstr i b) := by
  unfold emitInstr
  split
  · rename_i l is hc
    refine ⟨⟨[], rfl⟩, fun l' is' h _ => ?_, fun w => ⟨w.nodup, fun l' is' h => ?_⟩⟩
    · rw [hc] at h
      simp only [Option.some.injEq, Prod.mk.injEq] at h
      obtain ⟨rfl, rfl⟩ := h
      exact Or.inl ⟨[i], rfl⟩
    · simp only [Option.some.injEq, Prod.mk.injEq] at h
      rw [← h.1]; exact w.cur l is hc
  · exact Ext.refl b

theorem emitCond_ext (c : Cond σ) (b : B σ) : Ext b (emitCond c b) := by
  unfold emitCond
  split
  · exact Ext.refl b
  · exact emitInstr_ext _ b

theorem emitJmp_ext {l : Label} {b b' : B σ} (h : emitJmp l b = some b') : Ext b b' :=
  (emitBr_ext l b).trans ((newBlock_same _).ext.trans (emitBlock_ext h))

theorem emitFold_ext {f : σ → σ × Bool} {g : Label} {b b' : B σ} (h : emitFold f g b = some b') : Ext b b' := by
  simp only [emitFold, Option.bind_eq_bind, Option.bind_eq_some_iff] at h
  obtain ⟨b1, h1, h2⟩ := h
  exact (newBlock_same b).ext.trans ((emitTerm_ext h1).trans (emitBlock_ext h2))

theorem emitIncr_ext {incr : Option (σ → σ)} {inc : Option Label} {b b' : B σ} (h : emitIncr incr inc b = some b') : Ext b b' := by
  unfold emitIncr at h
  split at h
  · cases h; exact Ext.refl b
  · simp only [Option.bind_eq_bind, Option.bind_eq_some_iff] at h
    obtain ⟨b1, h1, h2⟩ := h
    cases h2
    refine Ext.trans ?_ ((dropUnused_ext b1).trans (emitInstr_ext _ _))
    unfold onSome at h1
    split at h1
    · exact emitBlock_ext h1
    · cases h1; exact Ext.refl b

theorem onUsed_ext {g : B σ → Option (B σ)} {l : Label} {b b' : B σ} (hg : ∀ b b', g b = some b' → Ext b b') (h : onUsed l b g = some b') :
    Ext b b' := by
  unfold onUsed at h
  split at h
  · exact hg _ _ h
  · cases h; exact Ext.refl b

theorem onSome_ext {α : Type} {o : Option α} {g : α → Option (B σ)} {b b' : B σ} (hg : ∀ a b', g a = some b' → Ext b b')
    (h : onSome o b g = some b') : Ext b b' := by
  unfold onSome at h
  split at h
  · exact hg _ _ h
  · cases h; exact Ext.refl b

theorem afterBody_ext (inc : Option Label) (b : B σ) : Ext b (afterBody inc b).2 := by
  unfold afterBody
  split
  · exact emitBr_ext _ _
  · exact Ext.refl b

theorem onCurrent_ext {g : B σ → Option (B σ)} {b b' : B σ} (hg : ∀ b b', g b = some b' → Ext b b') (h : onCurrent b g = some b') :
    Ext b b' := by
  unfold onCurrent at h
  split at h
  · exact hg _ _ h
  · cases h; exact Ext.refl b

mutual

theorem emit_ext {env : List Target} {b b' : B σ} : (st : LStmt σ) → emit env st b = some b' → Ext b b'
  | .nop, h => by
    unfold emit at h; simp only [ite_self, Option.some.injEq] at h; subst h; exact Ext.refl b
  | .act f, h => by
    unfold emit at h
    split at h
    · cases h; exact Ext.refl b
    · cases h; exact emitInstr_ext _ b
  | .noreturn f, h => by
    unfold emit at h
    split at h
    · cases h; exact Ext.refl b
    · cases h; exact emitInstr_ext _ b
  | .rethrow f cleanup, h => by
    unfold emit at h
    split at h
    · cases h; exact Ext.refl b
    · simp only [newBlock, Option.bind_eq_bind, Option.bind_eq_some_iff] at h
      obtain ⟨b1, h1, b2, h2, b3, h3, h4⟩ := h
      refine Ext.trans (fresh_ext _ _) ((emitFold_ext h1).trans ((emitBr_ext _ _).trans ((emitBlock_ext h2).trans
        ((checkBlockBranch_ext _).trans (Ext.trans ?_ (emitBlock_ext h4))))))
      refine onCurrent_ext (fun b b' h => ?_) h3
      obtain ⟨b5, h5, h6⟩ := Option.bind_eq_some_iff.1 h
      exact (emitSeq_ext cleanup h5).trans (emitTerm_ext h6)
  | .throw cleanup, h => by
    unfold emit at h
    split at h
    · cases h; exact Ext.refl b
    · simp only [newBlock, Option.bind_eq_bind, Option.bind_eq_some_iff] at h
      obtain ⟨b1, h1, b2, h2, b3, h3, h4⟩ := h
      refine Ext.trans (fresh_ext _ _) ((emitJmp_ext h1).trans ((emitBr_ext _ _).trans ((emitBlock_ext h2).trans
        ((checkBlockBranch_ext _).trans (Ext.trans ?_ (emitBlock_ext h4))))))
      refine onCurrent_ext (fun b b' h => ?_) h3
      obtain ⟨b5, h5, h6⟩ := Option.bind_eq_some_iff.1 h
      exact (emitSeq_ext cleanup h5).trans (emitTerm_ext h6)
  | .ret .void cleanup cleanup_fail, h => by
    unfold emit at h
    split at h
    · cases h; exact Ext.refl b
    · simp only [Option.bind_eq_bind, Option.bind_eq_some_iff] at h
      obtain ⟨b1, h1, h2⟩ := h
      exact (emitSeq_ext cleanup h1).trans ((dropUnused_ext _).trans (onCurrent_ext (fun _ _ => emitTerm_ext) h2))
  | .ret (.plain f) cleanup cleanup_fail, h => by
    unfold emit at h
    split at h
    · cases h; exact Ext.refl b
    · simp only [Option.bind_eq_bind, Option.bind_eq_some_iff] at h
      obtain ⟨b1, h1, h2⟩ := h
      exact (emitInstr_ext _ _).trans ((emitSeq_ext cleanup h1).trans ((dropUnused_ext _).trans (onCurrent_ext (fun _ _ => emitTerm_ext) h2)))
  | .ret (.opt f) cleanup cleanup_fail, h => by
    unfold emit at h
    split at h
    · cases h; exact Ext.refl b
    · simp only [newBlock, Option.bind_eq_bind, Option.bind_eq_some_iff] at h
      obtain ⟨b1, h1, b2, h2, b3, h3, h4⟩ := h
      refine Ext.trans (fresh_ext _ _) ((emitFold_ext h1).trans ((emitSeq_ext cleanup h2).trans ((dropUnused_ext _).trans
        ((onCurrent_ext (fun _ _ => emitTerm_ext) h3).trans ?_))))
      refine onUsed_ext (fun b b' h => ?_) h4
      simp only [Option.bind_eq_some_iff] at h
      obtain ⟨b5, h5, b6, h6, h7⟩ := h
      exact (emitBlock_ext h5).trans ((emitSeq_ext cleanup_fail h6).trans (emitTerm_ext h7))
  | .block body, h => by
    unfold emit at h
    split at h
    · cases h; exact Ext.refl b
    · exact emitSeq_ext body h
  | .ite c t e, h => by
    unfold emit at h
    split at h
    · cases h; exact Ext.refl b
    · simp only at h
      generalize hb0 : (newBlock b).2 = b0 at h
      have s0 : Same b b0 := hb0 ▸ newBlock_same b
      generalize hb1 : newBlockIf (notEmpty t) b0 = p1 at h
      have s1 : Same b0 p1.2 := hb1 ▸ newBlockIf_same
      obtain ⟨thenB, b1⟩ := p1
      simp only at h s1
      generalize hb2 : newBlockIf (notEmpty e) b1 = p2 at h
      have s2 : Same b1 p2.2 := hb2 ▸ newBlockIf_same
      obtain ⟨elseB, b2⟩ := p2
      simp only at h s2
      refine ((s0.trans s1).trans s2).ext.trans ?_
      split at h
      · cases h; exact (emitCond_ext _ _).trans (dropUnused_ext _)
      · split at h
        · rename_i v
          refine (dropUnused_ext _).trans (onCurrent_ext (fun b b' h => ?_) h)
          simp only [Option.bind_eq_bind, Option.bind_eq_some_iff] at h
          obtain ⟨b3, h3, h4⟩ := h
          refine (emitBr_ext _ _).trans (Ext.trans (onSome_ext (fun l b' h => ?_) h3) (emitBlock_ext h4))
          simp only [Option.bind_eq_some_iff] at h
          obtain ⟨b5, h5, b6, h6, h7⟩ := h
          cases h7
          refine (emitBlock_ext h5).trans (Ext.trans ?_ (emitBr_ext _ _))
          split at h6
          · exact emitSeq_ext t h6
          · exact emitSeq_ext e h6
        · simp only [Option.bind_eq_bind, Option.bind_eq_some_iff] at h
          obtain ⟨b3, h3, b4, h4, b5, h5, h6⟩ := h
          refine (emitTerm_ext h3).trans (Ext.trans (b := b4) ?_ (Ext.trans ?_ (emitBlock_ext h6)))
          · refine onSome_ext (fun l b' h => ?_) h4
            simp only [Option.bind_eq_some_iff] at h
            obtain ⟨b6, h6, b7, h7, h8⟩ := h
            cases h8
            exact (emitBlock_ext h6).trans ((emitSeq_ext t h7).trans (emitBr_ext _ _))
          · refine onSome_ext (fun l b' h => ?_) h5
            simp only [Option.bind_eq_some_iff] at h
            obtain ⟨b6, h6, b7, h7, h8⟩ := h
            cases h8
            exact (emitBlock_ext h6).trans ((emitSeq_ext e h7).trans (emitBr_ext _ _))
  | .loop skip cond incr body, h => by
    unfold emit at h
    split at h
    · cases h; exact Ext.refl b
    · simp only at h
      generalize hb1 : newBlockIf incr.isSome b = p1 at h
      have s1 : Same b p1.2 := hb1 ▸ newBlockIf_same
      obtain ⟨inc, b1⟩ := p1
      simp only at h s1
      generalize hb2 : newBlockIf (notEmpty body) b1 = p2 at h
      have s2 : Same b1 p2.2 := hb2 ▸ newBlockIf_same
      obtain ⟨bodyB, b2⟩ := p2
      simp only at h s2
      refine (s1.trans s2).ext.trans ?_
      split at h
      · simp only [newBlock, Option.bind_eq_bind, Option.bind_eq_some_iff] at h
        obtain ⟨b3, h3, b4, h4, r5, h5, b6, h6, h7⟩ := h
        refine Ext.trans (fresh_ext _ _) ((emitBr_ext _ _).trans ((emitBlock_ext h3).trans ((emitTerm_ext h4).trans (Ext.trans ?_
          ((emitIncr_ext h6).trans ((emitBr_ext _ _).trans (emitBlock_ext h7)))))))
        unfold onSome at h5
        split at h5
        · simp only [Option.bind_eq_some_iff] at h5
          obtain ⟨b8, h8, b9, h9, h10⟩ := h5
          refine (emitBlock_ext h8).trans ((emitSeq_ext body h9).trans ?_)
          cases h10; exact afterBody_ext _ _
        · cases h5; exact Ext.refl _
      · split at h
        · simp only [newBlock, Option.bind_eq_bind, Option.bind_eq_some_iff] at h
          obtain ⟨b3, h3, h4⟩ := h
          exact (emitInstr_ext _ _).trans ((emitTerm_ext h3).trans ((newBlock_same b3).ext.trans (emitBlock_ext h4)))
        · simp only [newBlock, Option.bind_eq_bind, Option.bind_eq_some_iff] at h
          obtain ⟨r5, h5, b6, h6, h7⟩ := h
          refine Ext.trans (fresh_ext b2 (b2.fresh + 1)) (Ext.trans ?_ ((emitIncr_ext h6).trans ((emitBr_ext _ _).trans (emitBlock_ext h7))))
          unfold onSome at h5
          split at h5
          · simp only [Option.bind_eq_some_iff] at h5
            obtain ⟨b8, h8, b9, h9, h10⟩ := h5
            refine (emitBr_ext _ _).trans ((emitBlock_ext h8).trans ((emitSeq_ext body h9).trans ?_))
            cases h10; exact afterBody_ext _ _
          · cases h5; exact emitBr_ext _ _
      · split at h
        · cases h; exact Ext.refl _
        · simp only [newBlock, Option.bind_eq_bind, Option.bind_eq_some_iff] at h
          obtain ⟨r5, h5, b6, h6, h7⟩ := h
          refine Ext.trans (fresh_ext b2 (b2.fresh + 1)) (Ext.trans ?_ ((emitIncr_ext h6).trans ?_))
          · unfold onSome at h5
            split at h5
            · simp only [Option.bind_eq_some_iff] at h5
              obtain ⟨b9, h9, h10⟩ := h5
              refine ((emitSeq_ext body h9).trans ?_)
              cases h10; exact afterBody_ext _ _
            · cases h5; exact emitBr_ext _ _
          · exact onUsed_ext (fun b b' h => (emitBr_ext _ _).trans (emitBlock_ext h)) h7
  | .switch sel dflt cases, h => by
    unfold emit at h
    by_cases hc : b.cur.isNone = true
    · rw [if_pos hc] at h; cases h; exact Ext.refl b
    · rw [if_neg hc] at h
      by_cases hl : cases.length = 0
      · simp only [hl, if_true, Option.some.injEq] at h; subst h; exact emitInstr_ext _ _
      · simp only [hl, if_false, newBlock, Option.bind_eq_bind, Option.bind_eq_some_iff] at h
        obtain ⟨b1, h1, b2, h2, b3, h3, h4⟩ := h
        exact (newBlocks_same _ b).ext.trans (Ext.trans (fresh_ext _ _) ((emitBr_ext _ _).trans ((emitBlock_ext h1).trans
          ((emitTerm_ext h2).trans ((emitCases_ext cases h3).trans (emitBlock_ext h4))))))
  | .brk m defers, h => by
    unfold emit at h
    split at h
    · cases h; exact Ext.refl b
    · simp only [Option.bind_eq_bind, Option.bind_eq_some_iff] at h
      obtain ⟨b1, h1, t, _, h2⟩ := h
      exact (emitSeq_ext defers h1).trans (emitJmp_ext h2)
  | .cont m defers, h => by
    unfold emit at h
    split at h
    · cases h; exact Ext.refl b
    · simp only [Option.bind_eq_bind, Option.bind_eq_some_iff] at h
      obtain ⟨b1, h1, t, _, l, _, h2⟩ := h
      exact (emitSeq_ext defers h1).trans (emitJmp_ext h2)
  | .next m k defers, h => by
    unfold emit at h
    split at h
    · cases h; exact Ext.refl b
    · simp only [Option.bind_eq_bind, Option.bind_eq_some_iff] at h
      obtain ⟨b1, h1, t, _, l, _, h2⟩ := h
      exact (emitSeq_ext defers h1).trans (emitJmp_ext h2)
  | .inl body bang cleanup, h => by
    unfold emit at h
    split at h
    · cases h; exact Ext.refl b
    · cases h

theorem emitSeq_ext {env : List Target} {b b' : B σ} : (sq : LSeq σ) → emitSeq env sq b = some b' → Ext b b'
  | .nil, h => by
    unfold emitSeq at h; cases h; exact Ext.refl b
  | .cons st rest, h => by
    unfold emitSeq at h
    simp only [Option.bind_eq_bind, Option.bind_eq_some_iff] at h
    obtain ⟨b1, h1, h2⟩ := h
    exact (emit_ext st h1).trans (emitSeq_ext rest h2)

theorem emitCases_ext {env : List Target} {exit : Label} {ls : List Label} {b b' : B σ} :
    (cases : LCases σ) → emitCases env exit cases ls b = some b' → Ext b b'
  | .nil, h => by
    unfold emitCases at h; cases h; exact Ext.refl b
  | .cons body rest, h => by
    unfold emitCases at h
    split at h
    · rename_i heq
      cases heq
      simp only [Option.bind_eq_bind, Option.bind_eq_some_iff] at h
      obtain ⟨b1, h1, b2, h2, h3⟩ := h
      exact (emitBlock_ext h1).trans ((emitSeq_ext body h2).trans ((emitBr_ext _ _).trans (emitCases_ext rest h3)))
    · cases h; exact Ext.refl b

end

end C3.Flow
