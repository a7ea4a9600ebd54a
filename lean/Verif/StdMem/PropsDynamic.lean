import Verif.StdMem.LemmasDynOps
import Verif.StdMem.PropsHeap

/-!
# DynamicArenaAllocator

C73: the blocks of a dynamic arena.  A page remembers the first block it was
made for as its last block (`current_stack_ptr`), and later blocks do not
change that.
-/

set_option autoImplicit false

namespace C3.StdMem

/-- C73, in full: whatever a program does within the contracts of the
interface, no call stops it, the blocks it has are sound and keep their
contents. -/
def C73_full : Prop :=
  ∀ (mem : Mem) (pageSize : Nat) (fn : List (Nat × Nat) → Nat → Option (Nat × Nat)),
    ProviderOk fn → ∀ w : World Dyn, Reach dynamic (Dyn.init mem pageSize fn) (fun _ _ => True) w →
    Sound w.st.own w.live ∧
      ∀ op : Op, op.Allowed w.live →
        ∃ w', step dynamic w op = some w' ∧ Keeps dynamic w'.st.own w w' op

/-- C73: as long as no block which the page wrongly takes for its last one is
released or resized (`Dyn.Fine`), the blocks are inside of the memory given to
the arena, aligned as asked for and apart. -/
theorem C73_sound_partial (mem : Mem) (pageSize : Nat)
    (fn : List (Nat × Nat) → Nat → Option (Nat × Nat)) (hf : ProviderOk fn) (w : World Dyn)
    (h : Reach dynamic (Dyn.init mem pageSize fn) Dyn.Fine w) : Sound w.st.own w.live :=
  (Dyn.reach_inv hf h).sound

/-- C73: such programs are not stopped, and the contents of blocks are kept. -/
theorem C73_keeps_partial (mem : Mem) (pageSize : Nat)
    (fn : List (Nat × Nat) → Nat → Option (Nat × Nat)) (hf : ProviderOk fn) (w : World Dyn)
    (h : Reach dynamic (Dyn.init mem pageSize fn) Dyn.Fine w) (op : Op) (ha : op.Allowed w.live)
    (hok : Dyn.Fine w op) :
    ∃ w', step dynamic w op = some w' ∧ Keeps dynamic w'.st.own w w' op ∧
      ∀ x, w.st.own x → w'.st.own x := by
  obtain ⟨w', h1, _, h2, h3⟩ := Dyn.step_spec (Dyn.reach_inv hf h) ha hok
  exact ⟨w', h1, h2, h3⟩

/-- C73: a block which its page takes for the last one grows over whatever
comes after it. -/
theorem C73_grow_overlaps (w w' : World Dyn) (page : DPage) (rest : List DPage) (b c : Block)
    (size : Nat) (hpg : w.st.pages = page :: rest) (hc : c ∈ w.live)
    (hcur : page.current = b.addr) (hdr : rd64 w.st.mem (b.addr - 8) = b.size)
    (hal : ptrIsAligned b.addr 16 = true) (hgrow : b.size < size)
    (hfit : wrap (size - b.size + page.used) ≤ page.total) (hlo : b.addr + b.size ≤ c.addr)
    (hhi : c.addr < b.addr + size) (hpos : 0 < b.size ∧ 0 < c.size)
    (hs : step dynamic w (.resize b.addr size 0) = some w') : ¬ w'.live.Pairwise Disjoint := by
  have hr : w.st.resize b.addr size 0 =
      .ok (w.st.grow page rest b.addr size (size - b.size)) b.addr := by
    unfold Dyn.resize
    rw [hpg]
    dsimp only
    have e : alignFor 0 = 16 := rfl
    rw [hdr, e, if_neg (by omega), if_pos ⟨hcur, hal, hfit⟩]
  simp only [step, dynamic, hr] at hs
  injection hs with hs
  subst hs
  intro h
  have hc' : c ∈ without w.live b.addr := (mem_without _ _ _).mpr ⟨hc, by omega⟩
  have := (List.pairwise_cons.mp h).1 c hc'
  unfold Disjoint at this
  dsimp only at this
  omega

/-- The next block of a page whose used part ends before the header of `a`. -/
theorem acquire_at (s : Dyn) (page : DPage) (rest : List DPage) (a size : Nat) (zero : Bool)
    (hpg : s.pages = page :: rest) (hu : page.used = a - 8 - page.memory)
    (hlo : page.memory + 8 ≤ a) (hal : 16 ∣ a) (hlt : a < 2 ^ 62)
    (hfit : a + size ≤ page.memory + page.total) (hpl : page.memory + page.total ≤ 2 ^ 62) :
    ∃ s2, s.acquire size zero 0 = .ok s2 a := by
  have hst : page.start 16 = a := by
    unfold DPage.start
    rw [hu, wrap_eq _ (by omega)]
    unfold alignedOffset wrap
    omega
  have hre : s.reuse = s := by
    unfold Dyn.reuse
    rw [hpg]
  have hap : s.allocPage size 16 = .ok (s.place page rest a size (a - page.memory + size)) a := by
    unfold Dyn.allocPage
    rw [hpg]
    dsimp only
    rw [hst, sub64_eq _ _ (by omega) (by omega), wrap_eq _ (by omega), if_neg (by omega)]
  have e : alignFor 0 = 16 := rfl
  unfold Dyn.acquire
  rw [hre, e, hap]
  exact ⟨_, rfl⟩

/-- C73: when a block which its page takes for the last one is released, the
next block gets its place, and overlaps whatever came after it. -/
theorem C73_release_reuses (s : Dyn) (page : DPage) (rest : List DPage) (b : Block) (size : Nat)
    (zero : Bool) (hpg : s.pages = page :: rest) (hcur : page.current = b.addr)
    (hlo : page.memory + 8 ≤ b.addr) (hal : 16 ∣ b.addr) (hlt : b.addr < 2 ^ 62)
    (hfit : b.addr + size ≤ page.memory + page.total) (hpl : page.memory + page.total ≤ 2 ^ 62) :
    ∃ s1 s2, s.release b.addr false = some s1 ∧ s1.acquire size zero 0 = .ok s2 b.addr := by
  have e1 : sub64 (b.addr - 8) page.memory = b.addr - 8 - page.memory :=
    sub64_eq _ _ (by omega) (by omega)
  obtain ⟨s2, h2⟩ := acquire_at { s with
      pages := ⟨page.memory, page.total, b.addr - 8 - page.memory, 0⟩ :: rest } _ rest b.addr size
    zero rfl rfl hlo hal hlt hfit hpl
  refine ⟨_, s2, ?_, h2⟩
  unfold Dyn.release
  rw [hpg]
  dsimp only
  rw [if_pos hcur.symm, e1]

/-- C73: when a block which its page takes for the last one is made smaller, it
stays where it is, and the next block gets the same place. -/
theorem C73_shrink_reuses (s : Dyn) (page : DPage) (rest : List DPage) (b : Block)
    (size next : Nat) (zero : Bool) (hpg : s.pages = page :: rest) (hcur : page.current = b.addr)
    (hdr : rd64 s.mem (b.addr - 8) = b.size) (hsize : size ≤ b.size)
    (hlo : page.memory + 8 ≤ b.addr) (hal : 16 ∣ b.addr) (hlt : b.addr < 2 ^ 62)
    (hfit : b.addr + next ≤ page.memory + page.total) (hpl : page.memory + page.total ≤ 2 ^ 62) :
    ∃ s1 s2, s.resize b.addr size 0 = .ok s1 b.addr ∧ s1.acquire next zero 0 = .ok s2 b.addr := by
  have e1 : sub64 (b.addr - 8) page.memory = b.addr - 8 - page.memory :=
    sub64_eq _ _ (by omega) (by omega)
  have hpa : ptrIsAligned b.addr 16 = true := (ptrIsAligned_iff b.addr 4).mpr hal
  obtain ⟨s2, h2⟩ := acquire_at { s with
      mem := wr64 s.mem (b.addr - 8) size
      pages := ⟨page.memory, page.total, b.addr - 8 - page.memory, page.current⟩ :: rest } _ rest
    b.addr next zero rfl rfl hlo hal hlt hfit hpl
  refine ⟨_, s2, ?_, h2⟩
  unfold Dyn.resize
  rw [hpg]
  dsimp only
  have e : alignFor 0 = 16 := rfl
  rw [hdr, e, if_pos ⟨hsize, hpa⟩]
  unfold Dyn.shrink
  rw [if_pos hcur, e1]

/-- C73: a resize which moves a block into a smaller one copies the old size. -/
theorem C73_move_copies_old_size (s s1 : Dyn) (page : DPage) (rest : List DPage)
    (old size align p : Nat) (hpg : s.pages = page :: rest)
    (hal : ptrIsAligned old (alignFor align) = false)
    (ha : s.acquire size false (alignFor align) = .ok s1 p) :
    s.resize old size align =
      .ok { s1 with mem := copyMem s1.mem p old (rd64 s.mem (old - 8)) } p := by
  unfold Dyn.resize
  rw [hpg]
  dsimp only
  rw [if_neg (by rw [hal]; simp), if_neg (by rw [hal]; simp), ha]
  rfl

/-- The world after two blocks of 16 bytes. -/
theorem two_blocks : ∃ w : World Dyn, Reach dynamic (Dyn.init (fun _ => 0) 1024 bump) Dyn.Fine w ∧
    w.st.pages = [⟨4096, 1024, 64, 4112⟩] ∧ w.live = [⟨4144, 16, 0⟩, ⟨4112, 16, 0⟩] := by
  refine ⟨_, Reach.step _ _ (.acquire 16 false 0) (Reach.step _ _ (.acquire 16 false 0) Reach.init
    ⟨by decide, by decide, Or.inl rfl⟩ (by show 16 < 2 ^ 63; decide) rfl)
    ⟨by decide, by decide, Or.inl rfl⟩ (by show 16 < 2 ^ 63; decide) rfl, rfl, rfl⟩

theorem Reach.weaken {S : Type} {A : Allocator S} {init : S} {ok : World S → Op → Prop} {w : World S}
    (h : Reach A init ok w) : Reach A init (fun _ _ => True) w := by
  induction h with
  | init => exact Reach.init
  | step w w' op _ ha _ hs ih => exact Reach.step w w' op ih ha trivial hs

/-- C73 fails: two blocks are acquired and the first one is made larger. -/
theorem C73_fails : ¬ C73_full := by
  intro h
  obtain ⟨w, hw, hpg, hl⟩ := two_blocks
  have hI := (Dyn.reach_inv bump_ok hw).blk ⟨4112, 16, 0⟩ (by rw [hl]; simp)
  have ha : (Op.resize 4112 64 0).Allowed w.live := by
    refine ⟨⟨⟨4112, 16, 0⟩, ?_, rfl, by decide⟩, by decide, by decide, Or.inl rfl⟩
    rw [hl]; simp
  obtain ⟨w', hs, _⟩ := (h _ _ _ bump_ok w hw.weaken).2 _ ha
  have hsnd := (h _ _ _ bump_ok w' (Reach.step w w' _ hw.weaken ha trivial hs)).1
  refine C73_grow_overlaps w w' _ [] ⟨4112, 16, 0⟩ ⟨4144, 16, 0⟩ 64 hpg ?_ rfl hI.hdr
    (by decide +kernel) (by decide) (by decide) (by decide) (by decide) (by decide) hs hsnd.disjoint
  rw [hl]; simp

/-- The second of two blocks may be resized and released. -/
example : ∃ w : World Dyn, Reach dynamic (Dyn.init (fun _ => 0) 1024 bump) Dyn.Fine w ∧
    w.live = [⟨4144, 16, 0⟩, ⟨4112, 16, 0⟩] ∧ Dyn.Fine w (.resize 4144 64 0) ∧
    Dyn.Fine w (.release 4144 false) := by
  obtain ⟨w, hw, hpg, hl⟩ := two_blocks
  refine ⟨w, hw, hl, ⟨by decide, ?_⟩, ?_⟩
  · intro b hb he
    rw [hl] at hb
    have hb' : b = ⟨4144, 16, 0⟩ := by
      rcases List.mem_cons.mp hb with e | e
      · exact e
      · rcases List.mem_cons.mp e with e | e
        · subst e; simp at he
        · simp at e
    subst hb'
    refine ⟨Or.inl (by decide), ?_, ?_⟩
    · intro page hp hcur
      rw [hpg] at hp
      simp at hp
      subst hp
      simp at hcur
    · intro page hp hcur
      rw [hpg] at hp
      simp at hp
      subst hp
      simp at hcur
  · intro b hb he page hp hcur
    rw [hpg] at hp
    simp at hp
    subst hp
    rw [he] at hcur
    simp at hcur

end C3.StdMem
