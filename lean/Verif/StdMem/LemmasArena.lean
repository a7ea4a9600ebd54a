import Verif.StdMem.Arena
import Verif.StdMem.LemmasMem

set_option autoImplicit false

namespace C3.StdMem

/-- The headers as well as the blocks are apart. -/
def Apart (b c : Block) : Prop := b.addr + b.size + 8 ≤ c.addr ∨ c.addr + c.size + 8 ≤ b.addr

/-- What holds of one block of an arena. -/
structure Arena.Blk (s : Arena) (b : Block) : Prop where
  lo : s.base + 8 ≤ b.addr
  hi : b.addr + b.size ≤ s.base + s.used
  hdr : rd64 s.mem (b.addr - 8) = b.size
  pos : 0 < b.size
  al : 16 ∣ b.addr ∧ (b.align = 0 ∨ b.align ∣ b.addr)

/-- What holds of an arena and the blocks in it. -/
structure Arena.Inv (s : Arena) (live : List Block) : Prop where
  fits : s.base + s.len ≤ 2 ^ 62
  used : s.used ≤ s.len
  blk : ∀ b ∈ live, s.Blk b
  apart : live.Pairwise Apart

theorem Apart.symm {b c : Block} (h : Apart b c) : Apart c b := h.elim Or.inr Or.inl

theorem apart_of_mem {live : List Block} (h : live.Pairwise Apart) {b c : Block} (hb : b ∈ live)
    (hc : c ∈ live) (hne : b ≠ c) : Apart b c :=
  List.Pairwise.forall_of_forall_of_flip (R := fun x y => x ≠ y → Apart x y)
    (fun x _ hx => absurd rfl hx) (h.imp (S := fun x y => x ≠ y → Apart x y) fun h _ => h)
    (h.imp (S := fun x y => y ≠ x → Apart y x) fun h _ => h.symm) hb hc hne

theorem Arena.acquire_ok {s s' : Arena} {size align p : Nat} {zero : Bool}
    (hfit : s.base + s.len ≤ 2 ^ 62) (hused : s.used ≤ s.len)
    (ha : AlignOk align)
    (h : s.acquire size zero align = .ok s' p) :
    s.base + s.used + 8 ≤ p ∧ p + size ≤ s.base + s.len ∧ s'.used = p + size - s.base ∧
      s'.base = s.base ∧ s'.len = s.len ∧ s'.safe = s.safe ∧ 16 ∣ p ∧ (align = 0 ∨ align ∣ p) ∧
      (∀ x, x < s.base + s.used ∨ p + size ≤ x → s'.mem x = s.mem x) ∧
      rd64 s'.mem (p - 8) = size ∧
      (zero = true → ∀ i, i < size → s'.mem (p + i) = 0) := by
  obtain ⟨k, hk4, hk, hke, hkd⟩ := alignFor_spec align ha
  unfold Arena.acquire at h
  simp only [hke, arenaHeader] at h
  by_cases h1 : s.len < size
  · rw [if_pos h1] at h; simp at h
  · rw [if_neg h1] at h
    rw [wrap_eq (s.base + s.used + 8) (by omega)] at h
    obtain ⟨a1, a2, a3⟩ := alignedOffset_spec (s.base + s.used + 8) k hk (by omega)
    have hp28 : (2 : Nat) ^ k ≤ 2 ^ 28 := Nat.pow_le_pow_right (by omega) hk
    generalize alignedOffset (s.base + s.used + 8) (2 ^ k) = q at *
    rw [sub64_eq q s.base (by omega) (by omega), wrap_eq (q - s.base + size) (by omega)] at h
    by_cases h2 : s.len < q - s.base + size
    · rw [if_pos h2] at h; simp at h
    · rw [if_neg h2] at h
      injection h with hs hp
      subst hp
      subst hs
      refine ⟨by omega, by omega, by simp only []; omega, rfl, rfl, rfl,
        Nat.dvd_trans (Nat.pow_dvd_pow 2 hk4) a3, ?_, ?_, ?_, ?_⟩
      · exact hkd.imp id fun h => Nat.dvd_trans h a3
      · intro x hx
        cases zero
        · exact wr64_ne _ _ _ _ (by omega)
        · show clearMem _ _ _ _ = _
          rw [clearMem_ne _ _ _ _ (by omega)]
          exact wr64_ne _ _ _ _ (by omega)
      · cases zero
        · exact rd64_wr64 _ _ _ (by omega)
        · show rd64 (clearMem _ _ _) _ = _
          rw [rd64_congr _ (wr64 s.mem (q - 8) size) _
            (fun i hi => clearMem_ne _ _ _ _ (by omega))]
          exact rd64_wr64 _ _ _ (by omega)
      · intro hz i hi
        subst hz
        exact clearMem_at _ _ _ _ (by omega) (by omega)

theorem Arena.acquire_of_fits (s : Arena) (size align q : Nat) (zero : Bool) (h1 : ¬ s.len < size)
    (hq : alignedOffset (wrap (s.base + s.used + 8)) (alignFor align) = q)
    (h2 : ¬ s.len < wrap (sub64 q s.base + size)) : ∃ s', s.acquire size zero align = .ok s' q := by
  subst hq
  unfold Arena.acquire
  simp only []
  rw [if_neg h1, if_neg (by simp only [arenaHeader]; exact h2)]
  exact ⟨_, rfl⟩

theorem Arena.acquire_fault {s s' : Arena} {size align : Nat} {zero : Bool}
    (h : s.acquire size zero align = .fault s') : s' = s := by
  unfold Arena.acquire at h
  simp only [] at h
  split at h
  · injection h with h; exact h.symm
  · split at h
    · injection h with h; exact h.symm
    · simp at h

theorem Arena.acquire_not_panic (s : Arena) (size align : Nat) (zero : Bool) :
    s.acquire size zero align ≠ .panic := by
  unfold Arena.acquire
  simp only []
  split
  · simp
  · split <;> simp

/-- Blocks stay what they are if their bytes and headers are kept. -/
theorem Arena.Blk.mono {s s' : Arena} {b : Block} (h : s.Blk b) (hb : s'.base = s.base)
    (hu : b.addr + b.size ≤ s'.base + s'.used)
    (hm : ∀ x, b.addr - 8 ≤ x → x < b.addr → s'.mem x = s.mem x) : s'.Blk b := by
  refine ⟨by have := h.lo; omega, hu, ?_, h.pos, h.al⟩
  rw [rd64_congr s'.mem s.mem _ (fun i hi => hm _ (by omega) (by have := h.lo; omega))]
  exact h.hdr

/-- A new block above all others. -/
theorem Arena.Inv.push {s s' : Arena} {live : List Block} {b : Block} (h : s.Inv live)
    (hb : s'.base = s.base) (hl : s'.len = s.len) (hu : s.used ≤ s'.used) (hu' : s'.used ≤ s'.len)
    (hm : ∀ x, x < s.base + s.used → s'.mem x = s.mem x)
    (hn : s'.Blk b) (hlo : s.base + s.used + 8 ≤ b.addr) : s'.Inv (b :: live) := by
  refine ⟨by rw [hb, hl]; exact h.fits, hu', ?_, ?_⟩
  · intro c hc
    rcases List.mem_cons.mp hc with rfl | hc
    · exact hn
    · have hcb := h.blk c hc
      have := hcb.hi
      exact hcb.mono hb (by omega) fun x _ hx => hm x (by omega)
  · refine List.Pairwise.cons ?_ h.apart
    intro c hc
    have := (h.blk c hc).hi
    exact Or.inr (by omega)

theorem Arena.Inv.without {s : Arena} {live : List Block} (h : s.Inv live) (p : Nat) :
    s.Inv (without live p) :=
  ⟨h.fits, h.used, fun b hb => h.blk b ((mem_without live p b).mp hb).1, h.apart.filter _⟩

/-- The last block. -/
theorem Arena.Inv.below {s : Arena} {live : List Block} (h : s.Inv live) {b c : Block}
    (hb : b ∈ live) (hc : c ∈ live) (hlast : b.addr + b.size = s.base + s.used)
    (hne : c.addr ≠ b.addr) : c.addr + c.size + 8 ≤ b.addr := by
  have := apart_of_mem h.apart hb hc (fun e => hne (by rw [e]))
  have h1 := (h.blk c hc).hi
  have h2 := (h.blk c hc).pos
  rcases this with h3 | h3
  · omega
  · exact h3

theorem Arena.Inv.unique {s : Arena} {live : List Block} (h : s.Inv live) {b c : Block}
    (hb : b ∈ live) (hc : c ∈ live) (he : c.addr = b.addr) : c = b := by
  by_cases hne : b = c
  · exact hne.symm
  · have := apart_of_mem h.apart hb hc hne
    unfold Apart at this
    omega

theorem Arena.release_spec {s s' : Arena} {live : List Block} {b : Block} {al : Bool}
    (h : s.Inv live) (hb : b ∈ live) (hr : s.release b.addr al = some s') :
    s'.Inv (C3.StdMem.without live b.addr) ∧ s'.mem = s.mem ∧ s'.base = s.base ∧ s'.len = s.len := by
  have hk := h.blk b hb
  have h1 := hk.lo
  have h2 := hk.hi
  have h3 := h.fits
  have h4 := h.used
  unfold Arena.release at hr
  simp only [arenaHeader, hk.hdr] at hr
  split at hr
  · simp at hr
  · split at hr
    · simp at hr
    · rw [wrap_eq (b.addr + b.size) (by omega), wrap_eq (s.base + s.used) (by omega)] at hr
      by_cases he : b.addr + b.size = s.base + s.used
      · rw [if_pos he] at hr
        injection hr with hr
        rw [sub64_eq s.used (b.size + 8) (by omega) (by omega)] at hr
        subst hr
        refine ⟨⟨h.fits, by show s.used - _ ≤ s.len; omega, ?_, h.apart.filter _⟩, rfl, rfl, rfl⟩
        intro c hc
        have hc' := (mem_without live b.addr c).mp hc
        have := h.below hb hc'.1 he hc'.2
        exact (h.blk c hc'.1).mono rfl (by show _ ≤ s.base + (s.used - _); omega) fun _ _ _ => rfl
      · rw [if_neg he] at hr
        injection hr with hr
        subst hr
        exact ⟨h.without _, rfl, rfl, rfl⟩

/-- What a resize does, when it does not move a block into a smaller one. -/
theorem Arena.resize_spec {s s' : Arena} {live : List Block} {b : Block} {size align p : Nat}
    (h : s.Inv live) (hb : b ∈ live) (hs : 0 < size) (ha : AlignOk align)
    (hok : b.size ≤ size ∨ b.addr + b.size = s.base + s.used ∧ alignFor align ∣ b.addr)
    (hr : s.resize b.addr size align = .ok s' p) :
    s'.Inv (⟨p, size, align⟩ :: C3.StdMem.without live b.addr) ∧
      (∀ c ∈ live, c.addr ≠ b.addr → ∀ x, c.addr ≤ x → x < c.addr + c.size → s'.mem x = s.mem x) ∧
      (∀ i, i < min b.size size → s'.mem (p + i) = s.mem (b.addr + i)) ∧
      (∀ x, x < s.base ∨ s.base + s.len ≤ x → s'.mem x = s.mem x) ∧
      s'.base = s.base ∧ s'.len = s.len := by
  have hk := h.blk b hb
  have h1 := hk.lo
  have h2 := hk.hi
  have h3 := h.fits
  have h4 := h.used
  obtain ⟨k, hk4, hk28, hke, hkd⟩ := alignFor_spec align ha
  unfold Arena.resize at hr
  simp only [arenaHeader, hk.hdr] at hr
  split at hr
  · simp at hr
  · split at hr
    · simp at hr
    · rename_i hlen
      split at hr
      · simp at hr
      · rw [wrap_eq (b.addr + b.size) (by omega), wrap_eq (s.base + s.used) (by omega)] at hr
        by_cases he : s.base + s.used = b.addr + b.size ∧ ptrIsAligned b.addr (alignFor align) = true
        · rw [if_pos he] at hr
          have hal : 2 ^ k ∣ b.addr := by
            have := he.2
            rw [hke] at this
            exact (ptrIsAligned_iff _ _).mp this
          have key : ∀ (u : Nat), u = b.addr + size - s.base → u ≤ s.len →
              s' = { s with used := u, mem := wr64 s.mem (b.addr - 8) size } → p = b.addr →
              s'.Inv (⟨p, size, align⟩ :: C3.StdMem.without live b.addr) ∧
              (∀ c ∈ live, c.addr ≠ b.addr → ∀ x, c.addr ≤ x → x < c.addr + c.size →
                s'.mem x = s.mem x) ∧
              (∀ i, i < min b.size size → s'.mem (p + i) = s.mem (b.addr + i)) ∧
              (∀ x, x < s.base ∨ s.base + s.len ≤ x → s'.mem x = s.mem x) ∧
              s'.base = s.base ∧ s'.len = s.len := by
            intro u hu hul hs' hp
            subst hs' hp
            have hbelow : ∀ c ∈ live, c.addr ≠ b.addr → c.addr + c.size + 8 ≤ b.addr :=
              fun c hc hne => h.below hb hc he.1.symm hne
            refine ⟨⟨h.fits, hul, ?_, ?_⟩, ?_, ?_, ?_, rfl, rfl⟩
            · intro c hc
              rcases List.mem_cons.mp hc with rfl | hc
              · exact ⟨h1, by show b.addr + size ≤ s.base + u; omega,
                  rd64_wr64 _ _ _ (by omega), hs,
                  Nat.dvd_trans (Nat.pow_dvd_pow 2 hk4) hal,
                  hkd.imp id fun h => Nat.dvd_trans h hal⟩
              · have hc' := (mem_without live b.addr c).mp hc
                have := hbelow c hc'.1 hc'.2
                refine (h.blk c hc'.1).mono rfl (by show _ ≤ s.base + u; omega) fun x _ _ => ?_
                exact wr64_ne _ _ _ _ (by omega)
            · refine List.Pairwise.cons ?_ (h.apart.filter _)
              intro c hc
              have hc' := (mem_without live b.addr c).mp hc
              exact Or.inr (hbelow c hc'.1 hc'.2)
            · intro c hc hne x hx1 hx2
              have := hbelow c hc hne
              exact wr64_ne _ _ _ _ (by omega)
            · intro i hi
              exact wr64_ne _ _ _ _ (by omega)
            · intro x hx
              exact wr64_ne _ _ _ _ (by omega)
          by_cases hsz : size ≤ b.size
          · rw [if_pos hsz] at hr
            injection hr with hr hp
            refine key (sub64 s.used (b.size - size)) ?_ ?_ hr.symm hp.symm
            · rw [sub64_eq _ _ (by omega) (by omega)]; omega
            · rw [sub64_eq _ _ (by omega) (by omega)]; omega
          · rw [if_neg hsz] at hr
            split at hr
            · simp at hr
            · rename_i hnu
              injection hr with hr hp
              have e1 : wrap (s.used + size) = s.used + size := wrap_eq _ (by omega)
              have e2 : sub64 (wrap (s.used + size)) b.size = s.used + size - b.size := by
                rw [e1, sub64_eq _ _ (by omega) (by omega)]
              refine key (sub64 (wrap (s.used + size)) b.size) ?_ (by omega) hr.symm hp.symm
              rw [e2]; omega
        · rw [if_neg he] at hr
          have hgrow : b.size ≤ size := by
            rcases hok with h | ⟨h, h'⟩
            · exact h
            · exfalso
              apply he
              refine ⟨h.symm, ?_⟩
              rw [hke] at h' ⊢
              exact (ptrIsAligned_iff _ _).mpr h'
          cases hacq : s.acquire size false (alignFor align) with
          | ok s1 q =>
            rw [hacq] at hr
            simp only [] at hr
            injection hr with hr hp
            have ha' : AlignOk (alignFor align) := Or.inr ⟨k, hk28, hke⟩
            obtain ⟨g1, g2, g3, g4, g5, g6, g7, g8, g9, g10, g11⟩ :=
              Arena.acquire_ok h.fits h.used ha' hacq
            subst hp
            subst hr
            refine ⟨?_, ?_, ?_, ?_, g4, g5⟩
            · refine Arena.Inv.push (h.without b.addr) g4 g5 (by show s.used ≤ s1.used; omega)
                (by show s1.used ≤ s1.len; omega) ?_ ?_ g1
              · intro x hx
                show copyMem _ _ _ _ _ = _
                rw [copyMem_ne _ _ _ _ _ (by omega)]
                exact g9 x (Or.inl hx)
              · refine ⟨by show s1.base + 8 ≤ q; omega,
                  by show q + size ≤ s1.base + s1.used; omega, ?_, hs, g7, ?_⟩
                · show rd64 (copyMem _ _ _ _) (q - 8) = size
                  rw [rd64_congr _ s1.mem _ (fun i hi => copyMem_ne _ _ _ _ _ (by omega))]
                  exact g10
                · rcases g8 with g8 | g8
                  · rw [hke] at g8
                    have := Nat.two_pow_pos k
                    omega
                  · rw [hke] at g8
                    exact hkd.imp id fun h => Nat.dvd_trans h g8
            · intro c hc _ x hx1 hx2
              have := (h.blk c hc).hi
              show copyMem _ _ _ _ _ = _
              rw [copyMem_ne _ _ _ _ _ (by omega)]
              exact g9 x (Or.inl (by omega))
            · intro i hi
              show copyMem _ _ _ _ _ = _
              rw [copyMem_at _ _ _ _ _ (by omega)]
              exact g9 _ (Or.inl (by omega))
            · intro x hx
              show copyMem _ _ _ _ _ = _
              rw [copyMem_ne _ _ _ _ _ (by omega)]
              exact g9 x (by omega)
          | fault s1 => rw [hacq] at hr; simp at hr
          | panic => rw [hacq] at hr; simp at hr

theorem Arena.resize_fault {s s' : Arena} {p size align : Nat}
    (h : s.resize p size align = .fault s') : s' = s := by
  unfold Arena.resize at h
  simp only [] at h
  split at h
  · simp at h
  · split at h
    · injection h with h; exact h.symm
    · split at h
      · simp at h
      · split at h
        · split at h
          · simp at h
          · split at h
            · injection h with h; exact h.symm
            · simp at h
        · split at h
          · simp at h
          · rename_i hacq
            injection h with h
            rw [← h]
            exact Arena.acquire_fault hacq
          · simp at h

/-- The memory of an arena. -/
def Arena.own (s : Arena) (x : Nat) : Prop := s.base ≤ x ∧ x < s.base + s.len

/-- A resize does not move a block into a smaller one. -/
def Arena.NoShrinkMove (w : World Arena) : Op → Prop
  | .resize ptr size align => ∀ b ∈ w.live, b.addr = ptr →
      b.size ≤ size ∨ b.addr + b.size = w.st.base + w.st.used ∧ alignFor align ∣ b.addr
  | _ => True

theorem Arena.Inv.sound {s : Arena} {live : List Block} (h : s.Inv live) : Sound s.own live := by
  refine ⟨?_, fun b hb => (h.blk b hb).al, h.apart.imp ?_⟩
  · intro b hb x h1 h2
    have := (h.blk b hb).lo
    have := (h.blk b hb).hi
    have := h.used
    exact ⟨by omega, by omega⟩
  · intro b c h
    rcases h with h | h
    · exact Or.inl (by omega)
    · exact Or.inr (by omega)

theorem Arena.step_spec {w w' : World Arena} {op : Op} (h : w.st.Inv w.live)
    (ha : op.Allowed w.live) (hok : Arena.NoShrinkMove w op) (hs : step arena w op = some w') :
    w'.st.Inv w'.live ∧ Keeps arena w.st.own w w' op ∧ w'.st.base = w.st.base ∧
      w'.st.len = w.st.len := by
  obtain ⟨s, live⟩ := w
  simp only [] at h ha
  have hfit := h.fits
  have hused := h.used
  cases op with
  | acquire size zero align =>
    obtain ⟨a1, a2, a3⟩ := ha
    simp only [step, arena] at hs
    cases hacq : s.acquire size zero align with
    | ok s1 p =>
      rw [hacq] at hs
      injection hs with hs
      subst hs
      obtain ⟨g1, g2, g3, g4, g5, g6, g7, g8, g9, g10, g11⟩ := Arena.acquire_ok h.fits h.used a3 hacq
      refine ⟨?_, ⟨?_, ?_, ?_, ?_, ?_⟩, g4, g5⟩
      · refine Arena.Inv.push h g4 g5 (by show s.used ≤ s1.used; omega)
          (by show s1.used ≤ s1.len; omega) (fun x hx => g9 x (Or.inl hx)) ?_ g1
        exact ⟨by show s1.base + 8 ≤ p; omega, by show p + size ≤ s1.base + s1.used; omega, g10, a1,
          g7, g8⟩
      · intro b hb _ _
        refine (bytes_eq_iff _ _ _ _ _).mpr fun i hi => g9 _ (Or.inl ?_)
        have := (h.blk b hb).hi
        omega
      · intro _ _ e; cases e
      · intro _ _ _ e; cases e
      · intro size' align' e s' p' hacq'
        cases e
        have e2 : Res.ok s' p' = Res.ok s1 p := by rw [← hacq, ← hacq']; rfl
        injection e2 with e2 e3
        subst e2 e3
        exact (bytes_zero_iff _ _ _).mpr (g11 rfl)
      · intro _ x hx
        refine g9 x ?_
        unfold Arena.own at hx
        simp only [] at hx
        omega
    | fault s1 =>
      rw [hacq] at hs
      injection hs with hs
      subst hs
      have := Arena.acquire_fault hacq
      subst this
      refine ⟨h, ⟨fun _ _ _ _ => rfl, ?_, ?_, ?_, fun _ _ _ => rfl⟩, rfl, rfl⟩
      · intro _ _ e; cases e
      · intro _ _ _ e; cases e
      · intro size' align' e s' p' hacq'
        cases e
        have e2 : Res.ok s' p' = Res.fault s1 := by rw [← hacq, ← hacq']; rfl
        simp at e2
    | panic => rw [hacq] at hs; simp at hs
  | release ptr al =>
    obtain ⟨b, hb, hp, _⟩ := ha
    subst hp
    simp only [step, arena] at hs
    cases hrel : s.release b.addr al with
    | none => rw [hrel] at hs; simp at hs
    | some s1 =>
      rw [hrel] at hs
      injection hs with hs
      subst hs
      obtain ⟨g1, g2, g3, g4⟩ := Arena.release_spec h hb hrel
      refine ⟨g1, ⟨?_, ?_, ?_, ?_, ?_⟩, g3, g4⟩
      · intro c _ _ _
        show bytes s1.mem _ _ = bytes s.mem _ _
        rw [g2]
      · intro _ _ e; cases e
      · intro _ _ _ e; cases e
      · intro _ _ e; cases e
      · intro _ x _
        show s1.mem x = s.mem x
        rw [g2]
  | resize ptr size align =>
    obtain ⟨⟨b, hb, hp, _⟩, a1, a2, a3⟩ := ha
    subst hp
    simp only [step, arena] at hs
    have hok' := hok b hb rfl
    cases hrz : s.resize b.addr size align with
    | ok s1 p =>
      rw [hrz] at hs
      injection hs with hs
      subst hs
      obtain ⟨g1, g2, g3, g4, g5, g6⟩ := Arena.resize_spec h hb a1 a3 hok' hrz
      refine ⟨g1, ⟨?_, ?_, ?_, ?_, ?_⟩, g5, g6⟩
      · intro c hc hc' _
        refine (bytes_eq_iff _ _ _ _ _).mpr fun i hi => ?_
        by_cases hne : c.addr = b.addr
        · have hcb := h.unique hb hc hne
          subst hcb
          rcases List.mem_cons.mp hc' with e | e
          · have e1 : c.addr = p := by rw [e]
            have e2 : c.size = size := by rw [e]
            have := g3 i (by omega)
            rw [← e1] at this
            exact this
          · exact absurd rfl ((mem_without _ _ _).mp e).2
        · exact g2 c hc hne _ (by omega) (by omega)
      · intro _ _ e; cases e
      · intro ptr' size' align' e s' p' hrz' c hc hcp
        cases e
        have e2 : Res.ok s' p' = Res.ok s1 p := by rw [← hrz, ← hrz']; rfl
        injection e2 with e2 e3
        subst e2 e3
        have hcb := h.unique hb hc hcp
        subst hcb
        exact (bytes_eq_iff _ _ _ _ _).mpr g3
      · intro _ _ e; cases e
      · intro _ x hx
        refine g4 x ?_
        unfold Arena.own at hx
        simp only [] at hx
        omega
    | fault s1 =>
      rw [hrz] at hs
      injection hs with hs
      subst hs
      have := Arena.resize_fault hrz
      subst this
      refine ⟨h, ⟨fun _ _ _ _ => rfl, ?_, ?_, ?_, fun _ _ _ => rfl⟩, rfl, rfl⟩
      · intro _ _ e; cases e
      · intro ptr' size' align' e s' p' hrz'
        cases e
        have e2 : Res.ok s' p' = Res.fault s1 := by rw [← hrz, ← hrz']; rfl
        simp at e2
      · intro _ _ e; cases e
    | panic => rw [hrz] at hs; simp at hs
  | write addr v =>
    obtain ⟨b, hb, h1, h2⟩ := ha
    simp only [step, arena] at hs
    injection hs with hs
    subst hs
    refine ⟨⟨h.fits, h.used, ?_, h.apart⟩, ⟨?_, ?_, ?_, ?_, ?_⟩, rfl, rfl⟩
    · intro c hc
      refine (h.blk c hc).mono rfl (h.blk c hc).hi fun x hx1 hx2 => ?_
      refine setByte_ne _ _ _ _ fun e => ?_
      subst e
      by_cases hne : b = c
      · subst hne
        omega
      · have := apart_of_mem h.apart hb hc hne
        unfold Apart at this
        omega
    · intro _ _ _ e; exact absurd rfl (e _ _)
    · intro _ _ e; cases e; rfl
    · intro _ _ _ e; cases e
    · intro _ _ e; cases e
    · intro e; exact absurd rfl (e _ _)

theorem Arena.init_inv (mem : Mem) (base len : Nat) (safe : Bool) (h : base + len ≤ 2 ^ 62) :
    (Arena.init mem base len safe).Inv [] :=
  ⟨h, Nat.zero_le _, fun _ hb => absurd hb (by simp), List.Pairwise.nil⟩

theorem Arena.reach_inv {mem : Mem} {base len : Nat} {safe : Bool} (hf : base + len ≤ 2 ^ 62)
    {w : World Arena} (h : Reach arena (Arena.init mem base len safe) Arena.NoShrinkMove w) :
    w.st.Inv w.live ∧ w.st.base = base ∧ w.st.len = len := by
  induction h with
  | init => exact ⟨Arena.init_inv mem base len safe hf, rfl, rfl⟩
  | step w w' op _ ha hok hs ih =>
    obtain ⟨g1, _, g2, g3⟩ := Arena.step_spec ih.1 ha hok hs
    exact ⟨g1, by rw [g2, ih.2.1], by rw [g3, ih.2.2]⟩

end C3.StdMem
