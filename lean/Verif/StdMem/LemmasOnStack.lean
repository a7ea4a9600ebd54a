import Verif.StdMem.OnStack
import Verif.StdMem.LemmasArena

set_option autoImplicit false

namespace C3.StdMem

/-- An allocator which refuses every request. -/
def nothing : Allocator Mem where
  mem := id
  setMem := fun _ m => m
  acquire := fun s _ _ _ => .fault s
  release := fun _ _ _ => none
  resize := fun s _ _ _ => .fault s

/-- The memory on the stack. -/
def OnStack.own {S : Type} (s : OnStack S) (x : Nat) : Prop := s.base ≤ x ∧ x < s.base + s.len

/-- The fixed memory is used as that of an arena. -/
def OnStack.arena (s : OnStack Mem) : Arena := ⟨s.back, s.base, s.len, s.used, false⟩

/-- What an arena does, for the allocator on the stack. -/
def OnStack.ofArena (s : OnStack Mem) : Res Arena → Res (OnStack Mem)
  | .ok a p => .ok ⟨a.mem, s.base, s.len, a.used, s.chunks⟩ p
  | .fault _ => .fault s
  | .panic => .panic

theorem OnStack.acquire_eq (s : OnStack Mem) (size align : Nat) (zero : Bool)
    (hf : s.base + s.len ≤ 2 ^ 62) (hu : s.used ≤ s.len) (hs : size < 2 ^ 63) (ha : AlignOk align) :
    s.acquire nothing size zero align = s.ofArena (s.arena.acquire size false align) := by
  obtain ⟨k, hk4, hk28, hke, hkd⟩ := alignFor_spec align ha
  have hp28 : (2 : Nat) ^ k ≤ 2 ^ 28 := Nat.pow_le_pow_right (by omega) hk28
  have hpl : s.place align = alignedOffset (s.base + s.used + 8) (2 ^ k) := by
    unfold OnStack.place
    rw [hke, wrap_eq _ (by omega)]
  obtain ⟨a1, a2, a3⟩ := alignedOffset_spec (s.base + s.used + 8) k hk28 (by omega)
  unfold OnStack.acquire Arena.acquire
  rw [hpl]
  have e1 : wrap (s.arena.base + s.arena.used + arenaHeader) = s.base + s.used + 8 :=
    wrap_eq _ (by show s.base + s.used + 8 < _; omega)
  dsimp only
  rw [hke, e1]
  generalize alignedOffset (s.base + s.used + 8) (2 ^ k) = q at *
  have e2 : sub64 q s.arena.base = q - s.base := sub64_eq _ _ (by show s.base ≤ q; omega) (by omega)
  rw [e2, sub64_eq q s.base (by omega) (by omega), wrap_eq (q - s.base + size) (by omega)]
  have e3 : s.arena.len = s.len := rfl
  rw [e3]
  by_cases h1 : s.len < q - s.base + size
  · rw [if_pos h1]
    by_cases h2 : s.len < size
    · rw [if_pos h2]; rfl
    · rw [if_neg h2, if_pos h1]; rfl
  · rw [if_neg h1, if_neg (by omega), if_neg h1]
    rfl

/-- What is asked for is not too large and need not be zero, and no block is
made smaller. -/
def OnStack.Fine {S : Type} (w : World (OnStack S)) : Op → Prop
  | .acquire size zero _ => size < 2 ^ 63 ∧ zero = false
  | .resize ptr size _ => size < 2 ^ 63 ∧ ∀ b ∈ w.live, b.addr = ptr → b.size ≤ size
  | _ => True

theorem OnStack.inStack_of {s : OnStack Mem} {live : List Block} {b : Block}
    (h : s.arena.Inv live) (hb : b ∈ live) : s.inStack b.addr = true := by
  have h1 := (h.blk b hb).lo
  have h2 := (h.blk b hb).hi
  have h3 := (h.blk b hb).pos
  have h4 := h.used
  have e1 : s.arena.base = s.base := rfl
  have e2 : s.arena.len = s.len := rfl
  unfold OnStack.inStack
  simp only [Bool.and_eq_true, decide_eq_true_eq]
  omega

theorem OnStack.acquire_spec {s : OnStack Mem} {live : List Block} {size align : Nat} {zero : Bool}
    (h : s.arena.Inv live) (h0 : 0 < size) (hs : size < 2 ^ 63) (ha : AlignOk align) :
    s.acquire nothing size zero align = .fault s ∨
    ∃ s' p, s.acquire nothing size zero align = .ok s' p ∧ s'.base = s.base ∧ s'.len = s.len ∧
      s'.arena.Inv (⟨p, size, align⟩ :: live) ∧ s.base + s.used + 8 ≤ p ∧
      p + size ≤ s.base + s.len ∧
      (∀ x, x < s.base + s.used ∨ p + size ≤ x → s'.back x = s.back x) := by
  rw [OnStack.acquire_eq s size align zero h.fits h.used hs ha]
  cases hacq : s.arena.acquire size false align with
  | panic => exact absurd hacq (Arena.acquire_not_panic _ _ _ _)
  | fault a => exact Or.inl rfl
  | ok a p =>
    right
    obtain ⟨g1, g2, g3, g4, g5, g6, g7, g8, g9, g10, g11⟩ := Arena.acquire_ok h.fits h.used ha hacq
    have e1 : s.arena.base = s.base := rfl
    have e2 : s.arena.len = s.len := rfl
    have e3 : s.arena.used = s.used := rfl
    refine ⟨_, p, rfl, rfl, rfl, ?_, g1, g2, g9⟩
    refine Arena.Inv.push h rfl rfl (by show s.used ≤ a.used; omega) (by show a.used ≤ s.len; omega)
      (fun x hx => g9 x (Or.inl hx)) ?_ g1
    exact ⟨by show s.base + 8 ≤ p; omega, by show p + size ≤ s.base + a.used; omega, g10, h0, g7, g8⟩

theorem OnStack.resize_fault {s : OnStack Mem} {live : List Block} {b : Block} {size align : Nat}
    (h : s.arena.Inv live) (hb : b ∈ live) (hacq : s.acquire nothing size false align = .fault s) :
    s.resize nothing b.addr size align = .fault s := by
  unfold OnStack.resize
  rw [if_pos (OnStack.inStack_of h hb)]
  dsimp only
  rw [hacq]
  rfl

theorem OnStack.resize_ok {s s1 : OnStack Mem} {live : List Block} {b : Block} {size align p : Nat}
    (h : s.arena.Inv live) (hb : b ∈ live) (hacq : s.acquire nothing size false align = .ok s1 p) :
    s.resize nothing b.addr size align =
      .ok { s1 with back := copyMem s1.back p b.addr b.size } p := by
  have hhdr : rd64 (nothing.mem s.back) (b.addr - 8) = b.size := (h.blk b hb).hdr
  unfold OnStack.resize
  rw [if_pos (OnStack.inStack_of h hb)]
  dsimp only
  rw [hacq, hhdr]
  rfl

theorem step_acquire_ok {S : Type} {A : Allocator S} {w : World S} {size align p : Nat} {zero : Bool}
    {s : S} (h : A.acquire w.st size zero align = .ok s p) :
    step A w (.acquire size zero align) = some ⟨s, ⟨p, size, align⟩ :: w.live⟩ := by
  simp only [step, h]

theorem step_acquire_fault {S : Type} {A : Allocator S} {w : World S} {size align : Nat}
    {zero : Bool} {s : S} (h : A.acquire w.st size zero align = .fault s) :
    step A w (.acquire size zero align) = some ⟨s, w.live⟩ := by
  simp only [step, h]

theorem OnStack.step_spec {w : World (OnStack Mem)} {op : Op} (h : w.st.arena.Inv w.live)
    (ha : op.Allowed w.live) (hok : OnStack.Fine w op) :
    ∃ w', step (onStack nothing) w op = some w' ∧ w'.st.arena.Inv w'.live ∧
      Keeps (onStack nothing) w.st.own w w' op ∧ w'.st.base = w.st.base ∧ w'.st.len = w.st.len := by
  obtain ⟨s, live⟩ := w
  dsimp only at h ha
  have hf := h.fits
  have hu := h.used
  have e1 : s.arena.base = s.base := rfl
  have e2 : s.arena.len = s.len := rfl
  have e3 : s.arena.used = s.used := rfl
  have same : ∀ op : Op, (∀ a v, op ≠ .write a v) →
      (∀ ptr size align, op = .resize ptr size align →
        s.resize nothing ptr size align = .fault s) →
      (∀ size align, op ≠ .acquire size true align) →
      ∀ live', Keeps (onStack nothing) s.own ⟨s, live⟩ ⟨s, live'⟩ op := by
    intro op hw hr hq live'
    refine ⟨fun _ _ _ _ => rfl, fun a v e => absurd e (hw a v), ?_, fun a v e => absurd e (hq a v),
      fun _ _ _ => rfl⟩
    intro ptr size align e s' p' e2
    have e2 : s.resize nothing ptr size align = _ := e2
    rw [hr _ _ _ e] at e2
    simp at e2
  cases op with
  | acquire size zero align =>
    obtain ⟨a1, a2, a3⟩ := ha
    have o1 : size < 2 ^ 63 := hok.1
    have o2 : zero = false := hok.2
    rcases OnStack.acquire_spec (zero := zero) h a1 o1 a3 with hacq | ⟨s1, p, hacq, b1, b2, g1, g2, g3, g4⟩
    · refine ⟨⟨s, live⟩, ?_, h, same _ ?_ ?_ ?_ _, rfl, rfl⟩
      · exact step_acquire_fault hacq
      · intro _ _ e; cases e
      · intro _ _ _ e; cases e
      · intro _ _ e; cases e; cases o2
    · refine ⟨⟨s1, _⟩, ?_, g1, ⟨?_, ?_, ?_, ?_, ?_⟩, b1, b2⟩
      · exact step_acquire_ok hacq
      · intro b hb _ _
        have := (h.blk b hb).hi
        exact (bytes_eq_iff _ _ _ _ _).mpr fun i hi => g4 _ (by omega)
      · intro _ _ e; cases e
      · intro _ _ _ e; cases e
      · intro _ _ e; cases e; cases o2
      · intro _ x hx
        refine g4 x ?_
        unfold OnStack.own at hx
        dsimp only at hx
        omega
  | release ptr al =>
    obtain ⟨b, hb, hp, _⟩ := ha
    subst hp
    have hrel : s.release nothing b.addr al = some s := by
      unfold OnStack.release
      rw [if_pos (OnStack.inStack_of h hb)]
    refine ⟨⟨s, _⟩, ?_, h.without b.addr, same _ ?_ ?_ ?_ _, rfl, rfl⟩
    · simp only [step, onStack, hrel]
      rfl
    · intro _ _ e; cases e
    · intro _ _ _ e; cases e
    · intro _ _ e; cases e
  | resize ptr size align =>
    obtain ⟨⟨b, hb, hp, _⟩, a1, a2, a3⟩ := ha
    subst hp
    obtain ⟨o1, o2⟩ := hok
    have o2 := o2 b hb rfl
    have hbh := (h.blk b hb).hi
    have hbl := (h.blk b hb).lo
    rcases OnStack.acquire_spec (zero := false) h a1 o1 a3 with hacq | ⟨s1, p, hacq, b1, b2, g1, g2, g3, g4⟩
    · have hrz : s.resize nothing b.addr size align = .fault s := OnStack.resize_fault h hb hacq
      refine ⟨⟨s, live⟩, ?_, h, same _ ?_ ?_ ?_ _, rfl, rfl⟩
      · simp only [step, onStack, hrz]
      · intro _ _ e; cases e
      · intro _ _ _ e; cases e; exact hrz
      · intro _ _ e; cases e
    · have hrz := OnStack.resize_ok h hb hacq
      have hnew := g1.blk _ List.mem_cons_self
      refine ⟨⟨{ s1 with back := copyMem s1.back p b.addr b.size },
        ⟨p, size, align⟩ :: without live b.addr⟩, ?_, ?_, ⟨?_, ?_, ?_, ?_, ?_⟩, b1, b2⟩
      · simp only [step, onStack, hrz]
      · refine ⟨g1.fits, g1.used, ?_, ?_⟩
        · intro c hc
          rcases List.mem_cons.mp hc with rfl | hc
          · refine hnew.mono rfl hnew.hi fun x h1 h2 => ?_
            exact copyMem_ne _ _ _ _ _ (Or.inl h2)
          · have hc' := (mem_without _ _ _).mp hc
            have hcs := g1.blk c (List.mem_cons_of_mem _ hc'.1)
            have := (h.blk c hc'.1).hi
            refine hcs.mono rfl hcs.hi fun x h1 h2 => ?_
            exact copyMem_ne _ _ _ _ _ (Or.inl (by omega))
        · have := List.pairwise_cons.mp g1.apart
          exact List.pairwise_cons.mpr
            ⟨fun c hc => this.1 c ((mem_without _ _ _).mp hc).1, this.2.filter _⟩
      · intro c hc hc' _
        have := (h.blk c hc).hi
        refine (bytes_eq_iff _ _ _ _ _).mpr fun i hi => ?_
        show copyMem _ _ _ _ _ = _
        rw [copyMem_ne _ _ _ _ _ (by omega)]
        exact g4 _ (by omega)
      · intro _ _ e; cases e
      · intro ptr' size' align' e s' p' hrz' c hc hcp
        cases e
        have e2 : Res.ok s' p' = Res.ok { s1 with back := copyMem s1.back p b.addr b.size } p := by
          rw [← hrz, ← hrz']; rfl
        injection e2 with e2 e3
        subst e2 e3
        have hcb := h.unique hb hc hcp
        subst hcb
        refine (bytes_eq_iff _ _ _ _ _).mpr fun i hi => ?_
        show copyMem _ _ _ _ _ = _
        rw [copyMem_at _ _ _ _ _ (by omega)]
        exact g4 _ (by omega)
      · intro _ _ e; cases e
      · intro _ x hx
        unfold OnStack.own at hx
        dsimp only at hx
        show copyMem _ _ _ _ _ = _
        rw [copyMem_ne _ _ _ _ _ (by omega)]
        exact g4 _ (by omega)
  | write addr v =>
    obtain ⟨b, hb, h1, h2⟩ := ha
    refine ⟨⟨{ s with back := setByte s.back addr v }, live⟩, rfl, ?_, ⟨?_, ?_, ?_, ?_, ?_⟩,
      rfl, rfl⟩
    · refine ⟨h.fits, h.used, ?_, h.apart⟩
      intro c hc
      refine (h.blk c hc).mono rfl (h.blk c hc).hi fun x hx1 hx2 => setByte_ne _ _ _ _ fun e => ?_
      subst e
      by_cases hne : b = c
      · subst hne
        omega
      · have := apart_of_mem h.apart hb hc hne
        unfold Apart at this
        omega
    · intro _ _ _ e; exact absurd rfl (e _ _)
    · intro _ _ e; cases e; rfl
    · intro _ _ _ e; cases e
    · intro _ _ e; cases e
    · intro e; exact absurd rfl (e _ _)

theorem OnStack.reach_inv {mem : Mem} {base len : Nat} (hf : base + len ≤ 2 ^ 62)
    {w : World (OnStack Mem)}
    (h : Reach (onStack nothing) (OnStack.init mem base len) OnStack.Fine w) :
    w.st.arena.Inv w.live ∧ w.st.base = base ∧ w.st.len = len := by
  induction h with
  | init => exact ⟨Arena.init_inv mem base len false hf, rfl, rfl⟩
  | step w w' op _ ha hok hs ih =>
    obtain ⟨w'', g0, g1, _, g2, g3⟩ := OnStack.step_spec ih.1 ha hok
    rw [g0] at hs
    injection hs with hs
    subst hs
    exact ⟨g1, by rw [g2, ih.2.1], by rw [g3, ih.2.2]⟩

end C3.StdMem
