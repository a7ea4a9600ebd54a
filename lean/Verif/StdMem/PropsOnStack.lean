import Verif.StdMem.LemmasOnStack

/-!
# OnStackAllocator

C74: the blocks of an allocator on the stack, and of what does not fit.
-/

set_option autoImplicit false

namespace C3.StdMem

/-- C74, in full, for an allocator on the stack without another one behind it:
whatever a program does within the contracts of the interface, no call stops
it, the blocks it has are sound and keep their contents. -/
def C74_full : Prop :=
  ∀ (mem : Mem) (base len : Nat), base + len ≤ 2 ^ 62 →
    ∀ w : World (OnStack Mem),
    Reach (onStack nothing) (OnStack.init mem base len) (fun _ _ => True) w →
    Sound w.st.own w.live ∧ ∀ op : Op, op.Allowed w.live →
      ∃ w', step (onStack nothing) w op = some w' ∧ Keeps (onStack nothing) w.st.own w w' op

/-- C74: as long as no block is made smaller, or asked to be zero, the blocks
are inside of the memory on the stack, aligned as asked for and apart. -/
theorem C74_sound_partial (mem : Mem) (base len : Nat) (hf : base + len ≤ 2 ^ 62)
    (w : World (OnStack Mem))
    (h : Reach (onStack nothing) (OnStack.init mem base len) OnStack.Fine w) :
    Sound (fun x => base ≤ x ∧ x < base + len) w.live := by
  obtain ⟨g1, g2, g3⟩ := OnStack.reach_inv hf h
  have := g1.sound
  have e : w.st.arena.own = fun x => base ≤ x ∧ x < base + len := by
    funext x
    show (w.st.base ≤ x ∧ x < w.st.base + w.st.len) = _
    rw [g2, g3]
  rw [e] at this
  exact this

/-- C74: such programs are not stopped, and the contents of blocks are kept. -/
theorem C74_keeps_partial (mem : Mem) (base len : Nat) (hf : base + len ≤ 2 ^ 62)
    (w : World (OnStack Mem))
    (h : Reach (onStack nothing) (OnStack.init mem base len) OnStack.Fine w) (op : Op)
    (ha : op.Allowed w.live) (hok : OnStack.Fine w op) :
    ∃ w', step (onStack nothing) w op = some w' ∧ Keeps (onStack nothing) w.st.own w w' op := by
  obtain ⟨w', h1, _, h2, _⟩ := OnStack.step_spec (OnStack.reach_inv hf h).1 ha hok
  exact ⟨w', h1, h2⟩

/-- C74: what does not fit is a block of the other allocator, whichever that
is, and the memory on the stack stays as it is. -/
theorem C74_backing {S : Type} (A : Allocator S) (s s' : OnStack S) (size align p : Nat)
    (zero : Bool) (hf : s.base + s.len ≤ 2 ^ 62) (hu : s.used ≤ s.len) (hs : size < 2 ^ 63)
    (ha : AlignOk align) (hno : s.len < s.used + 8 + size)
    (h : s.acquire A size zero align = .ok s' p) :
    A.acquire s.back size zero (if 0 < align then alignFor align else 0) = .ok s'.back p ∧
      s'.used = s.used ∧ s'.chunks = p :: s.chunks := by
  obtain ⟨k, hk4, hk28, hke, hkd⟩ := alignFor_spec align ha
  have hp28 : (2 : Nat) ^ k ≤ 2 ^ 28 := Nat.pow_le_pow_right (by omega) hk28
  have hpl : s.place align = alignedOffset (s.base + s.used + 8) (2 ^ k) := by
    unfold OnStack.place
    rw [hke, wrap_eq _ (by omega)]
  obtain ⟨a1, a2, a3⟩ := alignedOffset_spec (s.base + s.used + 8) k hk28 (by omega)
  unfold OnStack.acquire at h
  rw [hpl] at h
  generalize alignedOffset (s.base + s.used + 8) (2 ^ k) = q at *
  dsimp only at h
  rw [sub64_eq q s.base (by omega) (by omega), wrap_eq (q - s.base + size) (by omega),
    if_pos (by omega)] at h
  cases hacq : A.acquire s.back size zero (if 0 < align then alignFor align else 0) with
  | ok b q' =>
    rw [hacq] at h
    unfold OnStack.chunk at h
    dsimp only at h
    injection h with h1 h2
    subst h1 h2
    exact ⟨rfl, rfl, rfl⟩
  | fault b => rw [hacq] at h; simp [OnStack.chunk] at h
  | panic => rw [hacq] at h; simp [OnStack.chunk] at h

/-- C74: a block on the stack is not made zero when that is asked for: it is
what was there before. -/
theorem C74_zero_ignored {S : Type} (A : Allocator S) (s : OnStack S) (size align : Nat)
    (zero : Bool) (hfit : wrap (sub64 (s.place align) s.base + size) ≤ s.len)
    (hA : ∀ (b : S) (m : Mem), A.mem (A.setMem b m) = m) :
    ∃ s', s.acquire A size zero align = .ok s' (s.place align) ∧
      ∀ i, A.mem s'.back (s.place align + i) = A.mem s.back (s.place align + i) ∨
        s.place align < 8 := by
  unfold OnStack.acquire
  dsimp only
  rw [if_neg (by omega)]
  refine ⟨_, rfl, fun i => ?_⟩
  by_cases h8 : s.place align < 8
  · exact Or.inr h8
  · left
    show A.mem (A.setMem _ _) _ = _
    rw [hA]
    exact wr64_ne _ _ _ _ (by omega)

/-- C74: a resize of a block on the stack copies its old size, also into a
smaller block. -/
theorem C74_resize_copies_old_size {S : Type} (A : Allocator S) (s s1 : OnStack S)
    (old size align p : Nat) (hin : s.inStack old = true)
    (ha : s.acquire A size false align = .ok s1 p)
    (hA : ∀ (b : S) (m : Mem), A.mem (A.setMem b m) = m) :
    ∃ s2, s.resize A old size align = .ok s2 p ∧
      ∀ i, i < rd64 (A.mem s.back) (old - 8) →
        A.mem s2.back (p + i) = A.mem s1.back (old + i) := by
  unfold OnStack.resize
  rw [if_pos hin]
  dsimp only
  rw [ha]
  refine ⟨_, rfl, fun i hi => ?_⟩
  show A.mem (A.setMem _ _) _ = _
  rw [hA]
  exact copyMem_at _ _ _ _ _ hi

/-- C74: a size so large that the end of the block wraps around is served from
the stack, and less of it is used than before. -/
theorem C74_huge {S : Type} (A : Allocator S) (s : OnStack S) (size : Nat)
    (hlo : s.base + s.used + 24 < 2 ^ 64) (h1 : 2 ^ 64 ≤ s.used + 8 + size)
    (h2 : size + 24 ≤ 2 ^ 64) (hu : s.used ≤ s.len) :
    ∃ s', s.acquire A size false 0 = .ok s' (s.place 0) ∧ s'.used < s.used := by
  have hpl : s.place 0 = alignedOffset (s.base + s.used + 8) 16 := by
    unfold OnStack.place
    have e : alignFor 0 = 16 := rfl
    rw [e, wrap_eq _ (by omega)]
  have a1 : s.base + s.used + 8 ≤ s.place 0 ∧ s.place 0 < s.base + s.used + 24 := by
    rw [hpl]
    unfold alignedOffset wrap
    omega
  have hst : wrap (sub64 (s.place 0) s.base + size) < s.used := by
    rw [sub64_eq _ _ (by omega) (by omega)]
    unfold wrap
    omega
  unfold OnStack.acquire
  dsimp only
  rw [if_neg (by omega)]
  exact ⟨_, rfl, hst⟩

theorem onStack_acquire {S : Type} (A : Allocator S) :
    (onStack A).acquire = OnStack.acquire A := rfl

/-- C74 fails: a block asked to be zero is not. -/
theorem C74_fails : ¬ C74_full := by
  intro h
  obtain ⟨_, h2⟩ := h (fun _ => 1) 4096 1024 (by decide) _ Reach.init
  have ha : (Op.acquire 16 true 0).Allowed [] := ⟨by omega, by omega, Or.inl rfl⟩
  obtain ⟨w', _, hk⟩ := h2 (.acquire 16 true 0) ha
  have h8 : ¬ (OnStack.init (fun _ => (1 : UInt8)) 4096 1024 : OnStack Mem).place 0 < 8 := by decide
  obtain ⟨s', hs, hm⟩ := C74_zero_ignored nothing (OnStack.init (fun _ => 1) 4096 1024) 16 0 true
    (by decide) (fun _ _ => rfl)
  generalize (OnStack.init (fun _ => (1 : UInt8)) 4096 1024 : OnStack Mem).place 0 = p at *
  have hz := (bytes_zero_iff _ _ _).mp (hk.zeroed 16 0 rfl s' p (by
    dsimp only
    rw [onStack_acquire]
    exact hs)) 0 (by omega)
  rcases hm 0 with e | e
  · have : (1 : UInt8) = 0 := e.symm.trans hz
    exact absurd this (by decide)
  · exact absurd e h8

/-- Two blocks on the stack, the first of them resized. -/
example : ∃ w : World (OnStack Mem),
    Reach (onStack nothing) (OnStack.init (fun _ => 0) 4096 1024) OnStack.Fine w ∧
    w.live.map Block.size = [64, 32] := by
  refine ⟨_, Reach.step _ _ (.resize 4112 64 0) (Reach.step _ _ (.acquire 32 false 0)
    (Reach.step _ _ (.acquire 16 false 0) Reach.init ⟨by decide, by decide, Or.inl rfl⟩
      ⟨by decide, rfl⟩ rfl) ⟨by decide, by decide, Or.inl rfl⟩ ⟨by decide, rfl⟩ rfl)
    ⟨⟨⟨4112, 16, 0⟩, ?_, rfl, by decide⟩, by decide, by decide, Or.inl rfl⟩ ⟨by decide, ?_⟩ rfl, rfl⟩
  · exact List.mem_cons_of_mem _ List.mem_cons_self
  · intro b hb he
    rcases List.mem_cons.mp hb with rfl | hb
    · exact absurd he (by decide)
    · rcases List.mem_cons.mp hb with rfl | hb
      · decide
      · simp at hb

end C3.StdMem
