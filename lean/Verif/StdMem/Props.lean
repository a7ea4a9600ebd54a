import Verif.StdMem.LemmasArena

/-!
# ArenaAllocator

C70: the blocks of an arena are inside of it, aligned and apart, and keep their
contents.
-/

set_option autoImplicit false

namespace C3.StdMem

/-- C70, in full: whatever a program does within the contracts of the
interface, no call stops it, the blocks it has are sound and keep their
contents. -/
def C70_full : Prop :=
  ∀ (mem : Mem) (base len : Nat) (safe : Bool), base + len ≤ 2 ^ 62 →
    ∀ w : World Arena, Reach arena (Arena.init mem base len safe) (fun _ _ => True) w →
    Sound (fun x => base ≤ x ∧ x < base + len) w.live ∧
      ∀ op : Op, op.Allowed w.live → ∃ w', step arena w op = some w' ∧
        Keeps arena (fun x => base ≤ x ∧ x < base + len) w w' op

/-- C70: as long as no block is moved to a smaller one, the blocks are inside of
the arena, aligned as asked for and apart. -/
theorem C70_sound_partial (mem : Mem) (base len : Nat) (safe : Bool) (hf : base + len ≤ 2 ^ 62)
    (w : World Arena) (h : Reach arena (Arena.init mem base len safe) Arena.NoShrinkMove w) :
    Sound (fun x => base ≤ x ∧ x < base + len) w.live := by
  obtain ⟨h, hb, hl⟩ := Arena.reach_inv hf h
  have := h.sound
  unfold Arena.own at this
  rw [hb, hl] at this
  exact this

/-- C70: as long as no block is moved to a smaller one, every action keeps the
contents of the other blocks, a resized block keeps what fits, a block asked to
be zero is, and nothing outside of the arena is written. -/
theorem C70_keeps_partial (mem : Mem) (base len : Nat) (safe : Bool) (hf : base + len ≤ 2 ^ 62)
    (w w' : World Arena) (h : Reach arena (Arena.init mem base len safe) Arena.NoShrinkMove w)
    (op : Op) (ha : op.Allowed w.live) (hok : Arena.NoShrinkMove w op)
    (hs : step arena w op = some w') :
    Keeps arena (fun x => base ≤ x ∧ x < base + len) w w' op := by
  obtain ⟨h, hb, hl⟩ := Arena.reach_inv hf h
  have := (Arena.step_spec h ha hok hs).2.1
  unfold Arena.own at this
  rw [hb, hl] at this
  exact this

/-- C70: no action stops the program unless the program is built with checks and
the arena is full to the last byte; then every release does, and every resize
that would not be refused at once. -/
theorem C70_stops (mem : Mem) (base len : Nat) (safe : Bool) (hf : base + len ≤ 2 ^ 62)
    (w : World Arena) (h : Reach arena (Arena.init mem base len safe) Arena.NoShrinkMove w)
    (op : Op) (ha : op.Allowed w.live) :
    step arena w op = none ↔ w.st.safe = true ∧ w.st.used = len ∧
      ((∃ p al, op = .release p al) ∨ ∃ p size align, op = .resize p size align ∧ size ≤ len) := by
  obtain ⟨h, hb, hl⟩ := Arena.reach_inv hf h
  have hu := h.used
  have hstop : w.st.stops = true ↔ w.st.safe = true ∧ w.st.used = len := by
    unfold Arena.stops
    simp only [Bool.and_eq_true, decide_eq_true_eq]
    constructor
    · rintro ⟨a, b⟩; exact ⟨a, by omega⟩
    · rintro ⟨a, b⟩; exact ⟨a, by omega⟩
  cases op with
  | acquire size zero align =>
    simp only [step, arena]
    constructor
    · intro e
      cases hacq : w.st.acquire size zero align with
      | ok s p => rw [hacq] at e; simp at e
      | fault s => rw [hacq] at e; simp at e
      | panic => exact absurd hacq (Arena.acquire_not_panic _ _ _ _)
    · rintro ⟨_, _, ⟨_, _, e⟩ | ⟨_, _, _, e, _⟩⟩ <;> cases e
  | release ptr al =>
    obtain ⟨b, hbm, hp, _⟩ := ha
    have hlo := (h.blk b hbm).lo
    simp only [step, arena]
    have hnb : ¬ (w.st.safe && decide (ptr < w.st.base)) = true := by
      simp only [Bool.and_eq_true, decide_eq_true_eq]
      omega
    constructor
    · intro e
      have : w.st.release ptr al = none := by
        cases hr : w.st.release ptr al with
        | none => rfl
        | some s => rw [hr] at e; simp at e
      unfold Arena.release at this
      rw [if_neg hnb] at this
      by_cases hst : w.st.stops = true
      · exact ⟨(hstop.mp hst).1, (hstop.mp hst).2, Or.inl ⟨_, _, rfl⟩⟩
      · rw [if_neg hst] at this
        simp only [] at this
        split at this <;> simp at this
    · rintro ⟨a, c, _⟩
      have : w.st.release ptr al = none := by
        unfold Arena.release
        rw [if_neg hnb, if_pos (hstop.mpr ⟨a, c⟩)]
      rw [this]
  | resize ptr size align =>
    obtain ⟨⟨b, hbm, hp, _⟩, _⟩ := ha
    have hlo := (h.blk b hbm).lo
    simp only [step, arena]
    have hnb : ¬ (w.st.safe && decide (ptr < w.st.base)) = true := by
      simp only [Bool.and_eq_true, decide_eq_true_eq]
      omega
    constructor
    · intro e
      have : w.st.resize ptr size align = .panic := by
        cases hr : w.st.resize ptr size align with
        | ok s p => rw [hr] at e; simp at e
        | fault s => rw [hr] at e; simp at e
        | panic => rfl
      unfold Arena.resize at this
      simp only [] at this
      rw [if_neg hnb] at this
      by_cases hsz : w.st.len < size
      · rw [if_pos hsz] at this; simp at this
      · rw [if_neg hsz] at this
        by_cases hst : w.st.stops = true
        · exact ⟨(hstop.mp hst).1, (hstop.mp hst).2, Or.inr ⟨_, _, _, rfl, by omega⟩⟩
        · rw [if_neg hst] at this
          split at this
          · split at this
            · simp at this
            · split at this <;> simp at this
          · split at this
            · simp at this
            · simp at this
            · rename_i hacq
              exact absurd hacq (Arena.acquire_not_panic _ _ _ _)
    · rintro ⟨a, c, ⟨_, _, e⟩ | ⟨_, _, _, e, hsz⟩⟩
      · cases e
      · cases e
        have : w.st.resize ptr size align = .panic := by
          unfold Arena.resize
          simp only []
          rw [if_neg hnb, if_neg (by omega), if_pos (hstop.mpr ⟨a, c⟩)]
        rw [this]
  | write addr v =>
    simp only [step]
    constructor
    · intro e; simp at e
    · rintro ⟨_, _, ⟨_, _, e⟩ | ⟨_, _, _, e, _⟩⟩ <;> cases e

/-- C70: a mark taken and reset to later gives back the blocks acquired since,
and only those. -/
theorem C70_reset (mem : Mem) (base len : Nat) (safe : Bool) (hf : base + len ≤ 2 ^ 62)
    (w : World Arena) (h : Reach arena (Arena.init mem base len safe) Arena.NoShrinkMove w)
    (mark : Nat) (hm : mark ≤ w.st.used) :
    (w.st.reset mark).mem = w.st.mem ∧ ∀ (size align p : Nat) (s : Arena) (zero : Bool),
      AlignOk align → (w.st.reset mark).acquire size zero align = .ok s p →
      ∀ b ∈ w.live, b.addr + b.size ≤ base + mark →
        b.addr + b.size ≤ p ∧ bytes s.mem b.addr b.size = bytes w.st.mem b.addr b.size := by
  obtain ⟨h, hb, hl⟩ := Arena.reach_inv hf h
  refine ⟨rfl, ?_⟩
  intro size align p s zero ha hacq b hbm hbe
  have hu := h.used
  obtain ⟨g1, g2, g3, g4, g5, g6, g7, g8, g9, g10, g11⟩ :=
    Arena.acquire_ok (s := w.st.reset mark) h.fits (by show mark ≤ w.st.len; omega) ha hacq
  have e1 : (w.st.reset mark).base = base := hb
  have e2 : (w.st.reset mark).used = mark := rfl
  rw [e1, e2] at g1 g9
  refine ⟨by omega, (bytes_eq_iff _ _ _ _ _).mpr fun i hi => ?_⟩
  exact g9 _ (Or.inl (by omega))

/-- C70 fails: a block can be moved into a smaller one, and then all of its old
bytes are copied, past the end of the new block. -/
theorem C70_move_copies_old_size (s s' : Arena) (b : Block) (size align p : Nat)
    (hf : s.base + s.len ≤ 2 ^ 62) (hu : s.used ≤ s.len) (hb : s.base + 8 ≤ b.addr)
    (hb' : b.addr + b.size < s.base + s.used) (hdr : rd64 s.mem (b.addr - 8) = b.size)
    (ha : AlignOk align) (hr : s.resize b.addr size align = .ok s' p) :
    b.addr + b.size < p ∧ p + size ≤ s.base + s.len ∧
      ∀ i, i < b.size → s'.mem (p + i) = s.mem (b.addr + i) := by
  obtain ⟨k, hk4, hk28, hke, hkd⟩ := alignFor_spec align ha
  unfold Arena.resize at hr
  simp only [arenaHeader, hdr] at hr
  split at hr
  · simp at hr
  · split at hr
    · simp at hr
    · split at hr
      · simp at hr
      · rw [wrap_eq (b.addr + b.size) (by omega), wrap_eq (s.base + s.used) (by omega)] at hr
        rw [if_neg (by omega)] at hr
        cases hacq : s.acquire size false (alignFor align) with
        | ok s1 q =>
          rw [hacq] at hr
          simp only [] at hr
          injection hr with hr hp
          have ha' : AlignOk (alignFor align) := Or.inr ⟨k, hk28, hke⟩
          obtain ⟨g1, g2, g3, g4, g5, g6, g7, g8, g9, g10, g11⟩ := Arena.acquire_ok hf hu ha' hacq
          subst hp
          subst hr
          refine ⟨by omega, g2, fun i hi => ?_⟩
          show copyMem _ _ _ _ _ = _
          rw [copyMem_at _ _ _ _ _ hi]
          exact g9 _ (Or.inl (by omega))
        | fault s1 => rw [hacq] at hr; simp at hr
        | panic => rw [hacq] at hr; simp at hr

/-- The program of the counterexample: two blocks of 16 and 1 bytes, the first
resized to 1 byte. -/
def shrinkWorld : World Arena :=
  match step arena ⟨Arena.init (fun x => if x = 24 then 7 else 0) 8 64 true, []⟩
      (.acquire 16 false 0) with
  | none => ⟨Arena.init (fun _ => 0) 0 0 false, []⟩
  | some w => match step arena w (.acquire 1 false 0) with
    | none => ⟨Arena.init (fun _ => 0) 0 0 false, []⟩
    | some w => w

theorem shrinkWorld_reach : Reach arena (Arena.init (fun x => if x = 24 then 7 else 0) 8 64 true)
    (fun _ _ => True) shrinkWorld := by
  refine Reach.step _ shrinkWorld (.acquire 1 false 0)
    (Reach.step _ _ (.acquire 16 false 0) Reach.init ?_ trivial rfl) ?_ trivial rfl
  · exact ⟨by omega, by omega, Or.inl rfl⟩
  · exact ⟨by omega, by omega, Or.inl rfl⟩

/-- C70 fails: resizing a block writes past the end of the arena. -/
theorem C70_writes_outside : ¬ C70_full := by
  intro h
  obtain ⟨_, h⟩ := h (fun x => if x = 24 then 7 else 0) 8 64 true (by omega) shrinkWorld
    shrinkWorld_reach
  have hal : (Op.resize 16 1 0).Allowed shrinkWorld.live :=
    ⟨⟨⟨16, 16, 0⟩, by decide, rfl, by decide⟩, by omega, by omega, Or.inl rfl⟩
  obtain ⟨w', hs, hk⟩ := h (.resize 16 1 0) hal
  have := hk.outside (fun _ _ e => by cases e) 72 (by omega)
  have e1 : (arena.mem w'.st) 72 = 7 := by
    have : some ((arena.mem w'.st) 72) = (step arena shrinkWorld (.resize 16 1 0)).map
        (fun w => (arena.mem w.st) 72) := by rw [hs]; rfl
    have e2 : (step arena shrinkWorld (.resize 16 1 0)).map (fun w => (arena.mem w.st) 72) =
        some 7 := by decide +kernel
    rw [e2] at this
    exact Option.some.inj this
  rw [e1] at this
  exact absurd this (by decide)

/-- C70 fails: in a program built with checks, filling the arena and giving the
block back stops the program. -/
theorem C70_full_arena_stops (mem : Mem) (base len : Nat) (hf : base + len ≤ 2 ^ 62)
    (hb : base % 16 = 8) (hl : 8 < len) :
    ∃ s, (Arena.init mem base len true).acquire (len - 8) false 0 = .ok s (base + 8) ∧
      s.release (base + 8) false = none := by
  have hacq : ∃ s, (Arena.init mem base len true).acquire (len - 8) false 0 = .ok s (base + 8) := by
    obtain ⟨a1, a2, a3⟩ := alignedOffset_spec (base + 8) 4 (by omega) (by omega)
    have e2 : alignedOffset (base + 8) (2 ^ 4) = base + 8 := by
      generalize alignedOffset (base + 8) (2 ^ 4) = q at *
      omega
    refine Arena.acquire_of_fits (Arena.init mem base len true) (len - 8) 0 (base + 8) false ?_ ?_ ?_
    · show ¬ len < len - 8
      omega
    · show alignedOffset (wrap (base + 8)) (2 ^ 4) = base + 8
      rw [wrap_eq _ (by omega), e2]
    · show ¬ len < wrap (sub64 (base + 8) base + (len - 8))
      rw [sub64_eq _ _ (by omega) (by omega), wrap_eq _ (by omega)]
      omega
  obtain ⟨s, hs⟩ := hacq
  refine ⟨s, hs, ?_⟩
  obtain ⟨g1, g2, g3, g4, g5, g6, g7, g8, g9, g10, g11⟩ := Arena.acquire_ok
    (s := Arena.init mem base len true) hf (Nat.zero_le _) (Or.inl rfl) hs
  have e1 : s.base = base := g4
  have e2 : s.len = len := g5
  have e3 : s.safe = true := g6
  have e4 : s.used = len := by
    rw [g3]
    show base + 8 + (len - 8) - base = len
    omega
  unfold Arena.release
  rw [if_neg (by simp only [e1, Bool.and_eq_true, decide_eq_true_eq]; omega), if_pos]
  unfold Arena.stops
  rw [e2, e3, e4]
  simp

example : Reach arena (Arena.init (fun x => if x = 24 then 7 else 0) 8 64 true)
    Arena.NoShrinkMove shrinkWorld := by
  refine Reach.step _ shrinkWorld (.acquire 1 false 0)
    (Reach.step _ _ (.acquire 16 false 0) Reach.init ?_ trivial rfl) ?_ trivial rfl
  · exact ⟨by omega, by omega, Or.inl rfl⟩
  · exact ⟨by omega, by omega, Or.inl rfl⟩

example : shrinkWorld.live = [⟨48, 1, 0⟩, ⟨16, 16, 0⟩] := by rfl

end C3.StdMem
