import Verif.StdMem.LemmasDynamic

set_option autoImplicit false

namespace C3.StdMem

theorem Dyn.Inv.without {s : Dyn} {live : List Block} (h : s.Inv live) (p : Nat) :
    s.Inv (C3.StdMem.without live p) :=
  ⟨h.fn, h.none, h.ok, h.apart, fun b hb => h.blk b ((mem_without _ _ _).mp hb).1,
    h.sep.filter _⟩

theorem Dyn.Inv.ge8 {s : Dyn} {live : List Block} (h : s.Inv live) {b : Block} (hb : b ∈ live) :
    8 ≤ b.addr := by
  obtain ⟨p, _, hon⟩ := (h.blk b hb).page
  have := hon.lo
  omega

theorem Dyn.Inv.lt {s : Dyn} {live : List Block} (h : s.Inv live) {b : Block} (hb : b ∈ live) :
    b.addr + b.size ≤ 2 ^ 62 := by
  obtain ⟨p, hp, hon⟩ := (h.blk b hb).page
  have := hon.hi
  have := (h.ok p hp).used
  have := (h.ok p hp).lt
  omega

theorem Dyn.Inv.unique {s : Dyn} {live : List Block} (h : s.Inv live) {b c : Block}
    (hb : b ∈ live) (hc : c ∈ live) (he : c.addr = b.addr) : c = b := by
  refine Classical.byContradiction fun hne => ?_
  have := apart_of_mem h.sep hc hb hne
  unfold Apart at this
  omega

/-- A block on a fresh place is apart from all others. -/
theorem Dyn.Inv.fresh_apart {s : Dyn} {live : List Block} (h : s.Inv live) {p size : Nat}
    (hf : Fresh s.pages (p - 8) (p + size)) (h8 : 8 ≤ p) {b : Block} (hb : b ∈ live) :
    p + size + 8 ≤ b.addr ∨ b.addr + b.size + 8 ≤ p := by
  obtain ⟨q, hq, hon⟩ := (h.blk b hb).page
  have := hon.lo
  have := hon.hi
  rcases hf q hq with h1 | h1
  · exact Or.inl (by omega)
  · exact Or.inr (by omega)

theorem Dyn.Inv.push {s s1 : Dyn} {live : List Block} {size align p : Nat} (h : s.Inv live)
    (ha : s.Alloc s1 size align p) (hs : 0 < size) (m' : Mem)
    (hm : ∀ x, x < p ∨ p + size ≤ x → m' x = s1.mem x) :
    ({ s1 with mem := m' } : Dyn).Inv (⟨p, size, align⟩ :: live) ∧
    (∀ x, x < p - 8 ∨ p + size ≤ x → m' x = s.mem x) ∧
    (∀ x, p - 8 ≤ x → x < p + size → s1.own x) ∧ 8 ≤ p := by
  obtain ⟨q, hq, q1, q2⟩ := ha.page
  have h8 : 8 ≤ p := by omega
  have hmem : ∀ x, x < p - 8 ∨ p + size ≤ x → m' x = s.mem x := by
    intro x hx
    rw [hm x (by omega), ha.mem x (by omega)]
  refine ⟨⟨by show ProviderOk s1.fn; rw [ha.fn]; exact h.fn, ha.none, ha.ok, ha.apart, ?_, ?_⟩,
    hmem, ?_, h8⟩
  · intro b hb
    rcases List.mem_cons.mp hb with rfl | hb
    · refine ⟨⟨q, hq, q1, q2⟩, ha.al, ?_, hs⟩
      show rd64 m' (p - 8) = size
      rw [rd64_congr m' s1.mem _ (fun i hi => hm _ (by omega))]
      exact ha.hdr
    · have hfr := h.fresh_apart ha.fresh h8 hb
      exact (h.blk b hb).grown ha.grown fun x h1 h2 => hmem x (by omega)
  · refine List.pairwise_cons.mpr ⟨fun b hb => ?_, h.sep⟩
    exact h.fresh_apart ha.fresh h8 hb
  · intro x h1 h2
    obtain ⟨g, hg, g1, g2⟩ := (ha.ok q hq).giv
    have := (ha.ok q hq).used
    exact ⟨g, hg, by omega, by omega⟩

/-- What `acquire` does. -/
theorem Dyn.acquire_spec {s : Dyn} {live : List Block} {size align : Nat} {zero : Bool}
    (h : s.Inv live) (h0 : 0 < size) (hs : size < 2 ^ 63) (hal : AlignOk align) :
    s.acquire size zero align = .fault s ∨
    ∃ s' p, s.acquire size zero align = .ok s' p ∧ s'.Inv (⟨p, size, align⟩ :: live) ∧
      (∀ x, x < p - 8 ∨ p + size ≤ x → s'.mem x = s.mem x) ∧
      (∀ x, p - 8 ≤ x → x < p + size → s'.own x) ∧ (∀ x, s.own x → s'.own x) ∧ 8 ≤ p ∧
      (zero = true → ∀ i, i < size → s'.mem (p + i) = 0) := by
  unfold Dyn.acquire
  rcases Dyn.alloc_spec h hs hal with ha | ⟨s1, p, ha, hA⟩
  · rw [ha]
    exact Or.inl rfl
  · right
    rw [ha]
    cases zero with
    | false =>
      obtain ⟨g1, g2, g3, g4⟩ := h.push hA h0 s1.mem fun _ _ => rfl
      exact ⟨s1, p, rfl, g1, g2, g3, hA.own, g4, fun e => by cases e⟩
    | true =>
      obtain ⟨g1, g2, g3, g4⟩ := h.push hA h0 (clearMem s1.mem p size)
        fun x hx => clearMem_ne _ _ _ _ hx
      exact ⟨_, p, rfl, g1, g2, g3, hA.own, g4,
        fun _ i hi => clearMem_at _ _ _ _ (by omega) (by omega)⟩

/-- The block which `current` is, if it is the last one, is on the current page
and above all others. -/
theorem Dyn.Inv.top {s : Dyn} {live : List Block} {page : DPage} {rest : List DPage}
    (h : s.Inv live) (hpg : s.pages = page :: rest) {b : Block} (hb : b ∈ live)
    (hc : page.current = b.addr) (ht : b.addr + b.size = page.memory + page.used) :
    page.memory + 8 ≤ b.addr ∧ ∀ c ∈ live, c.addr ≠ b.addr → ∀ q ∈ s.pages, OnPage c q →
      q = page ∧ c.addr + c.size + 8 ≤ b.addr ∨ q ∈ rest := by
  have hcur := (h.ok page (by rw [hpg]; exact List.mem_cons_self)).cur
  have h8 := h.ge8 hb
  refine ⟨by omega, fun c hc' hne q hq hon => ?_⟩
  rw [hpg] at hq
  rcases List.mem_cons.mp hq with rfl | hq
  · refine Or.inl ⟨rfl, ?_⟩
    have hne' : c ≠ b := fun e => hne (by rw [e])
    have := hon.hi
    have := apart_of_mem h.sep hc' hb hne'
    unfold Apart at this
    omega
  · exact Or.inr hq

/-- Changing the current page, with its last block. -/
theorem Dyn.Inv.setTop {s : Dyn} {live : List Block} {page : DPage} {rest : List DPage}
    (h : s.Inv live) (hpg : s.pages = page :: rest) {b : Block} (hb : b ∈ live)
    (hc : page.current = b.addr) (ht : b.addr + b.size = page.memory + page.used)
    (page' : DPage) (m' : Mem) (hm : page'.memory = page.memory) (htot : page'.total = page.total)
    (hle : page'.used ≤ page'.total) (hlow : b.addr - 8 ≤ page.memory + page'.used)
    (hcur : page'.current = 0 ∨ page'.current = page.current)
    (hmem : ∀ x, x < b.addr - 8 ∨ b.addr ≤ x → m' x = s.mem x) :
    ({ s with mem := m', pages := page' :: rest } : Dyn).Inv (C3.StdMem.without live b.addr) := by
  obtain ⟨t1, t2⟩ := h.top hpg hb hc ht
  have hok := h.ok page (by rw [hpg]; exact List.mem_cons_self)
  have hap := h.apart
  rw [hpg] at hap
  obtain ⟨ap1, ap2⟩ := List.pairwise_cons.mp hap
  refine ⟨h.fn, h.none, ?_, ?_, ?_, h.sep.filter _⟩
  · intro q hq
    rcases List.mem_cons.mp hq with rfl | hq
    · refine ⟨hle, by rw [hm, htot]; exact hok.lt, by rw [hm, htot]; exact hok.giv, ?_⟩
      rw [hm]
      rcases hcur with e | e
      · exact Or.inl e
      · rw [e]; exact hok.cur
    · exact h.ok q (by rw [hpg]; exact List.mem_cons_of_mem _ hq)
  · refine List.pairwise_cons.mpr ⟨fun q hq => ?_, ap2⟩
    have := ap1 q hq
    unfold PageSep at *
    rw [hm, htot]
    exact this
  · intro c hc'
    obtain ⟨hc1, hc2⟩ := (mem_without _ _ _).mp hc'
    obtain ⟨q, hq, hon⟩ := (h.blk c hc1).page
    have hne' : c ≠ b := fun e => hc2 (by rw [e])
    have hsep := apart_of_mem h.sep hc1 hb hne'
    have hlo := hon.lo
    unfold Apart at hsep
    refine ⟨?_, (h.blk c hc1).al, ?_, (h.blk c hc1).pos⟩
    · rcases t2 c hc1 hc2 q hq hon with ⟨rfl, e⟩ | e
      · exact ⟨page', List.mem_cons_self, by rw [hm]; exact hlo, by rw [hm]; omega⟩
      · exact ⟨q, List.mem_cons_of_mem _ e, hon⟩
    · show rd64 m' _ = _
      rw [rd64_congr m' s.mem _ (fun i hi => hmem _ (by omega))]
      exact (h.blk c hc1).hdr

/-- Replacing the current page by one with the same used part. -/
theorem Dyn.Inv.setCur {s : Dyn} {live : List Block} {page : DPage} {rest : List DPage}
    (h : s.Inv live) (hpg : s.pages = page :: rest) :
    ({ s with pages := { page with current := 0 } :: rest } : Dyn).Inv live := by
  have hap := h.apart
  rw [hpg] at hap
  obtain ⟨ap1, ap2⟩ := List.pairwise_cons.mp hap
  have hok := h.ok page (by rw [hpg]; exact List.mem_cons_self)
  refine ⟨h.fn, h.none, ?_, List.pairwise_cons.mpr ⟨ap1, ap2⟩, ?_, h.sep⟩
  · intro q hq
    rcases List.mem_cons.mp hq with rfl | hq
    · exact ⟨hok.used, hok.lt, hok.giv, Or.inl rfl⟩
    · exact h.ok q (by rw [hpg]; exact List.mem_cons_of_mem _ hq)
  · intro b hb
    refine (h.blk b hb).grown ?_ fun _ _ _ => rfl
    intro q hq
    rw [hpg] at hq
    rcases List.mem_cons.mp hq with rfl | hq
    · exact ⟨_, List.mem_cons_self, rfl, Nat.le_refl _⟩
    · exact ⟨q, List.mem_cons_of_mem _ hq, rfl, Nat.le_refl _⟩

theorem Dyn.Inv.some_page {s : Dyn} {live : List Block} (h : s.Inv live) {b : Block}
    (hb : b ∈ live) : ∃ page rest, s.pages = page :: rest := by
  obtain ⟨p, hp, _⟩ := (h.blk b hb).page
  cases hpg : s.pages with
  | nil => rw [hpg] at hp; simp at hp
  | cons page rest => exact ⟨page, rest, rfl⟩

/-- The block is the last one of the current page, if it is the one that page
thinks to be the last one. -/
def Dyn.LastIfCurrent (s : Dyn) (b : Block) : Prop :=
  ∀ page ∈ s.pages.head?, page.current = b.addr → b.addr + b.size = page.memory + page.used

theorem Dyn.release_spec {s : Dyn} {live : List Block} {b : Block} {al : Bool} (h : s.Inv live)
    (hb : b ∈ live) (hl : s.LastIfCurrent b) :
    ∃ s', s.release b.addr al = some s' ∧ s'.Inv (C3.StdMem.without live b.addr) ∧
      s'.mem = s.mem ∧ s'.given = s.given := by
  obtain ⟨page, rest, hpg⟩ := h.some_page hb
  unfold Dyn.release
  rw [hpg]
  dsimp only
  by_cases hc : b.addr = page.current
  · rw [if_pos hc]
    have ht := hl page (by rw [hpg]; rfl) hc.symm
    obtain ⟨t1, _⟩ := h.top hpg hb hc.symm ht
    have hlt := h.lt hb
    have hok := h.ok page (by rw [hpg]; exact List.mem_cons_self)
    have hu := hok.used
    have e : sub64 (b.addr - 8) page.memory = b.addr - 8 - page.memory :=
      sub64_eq _ _ (by omega) (by omega)
    refine ⟨_, rfl, ?_, rfl, rfl⟩
    refine h.setTop hpg hb hc.symm ht _ s.mem rfl rfl ?_ ?_ (Or.inl rfl) (fun _ _ => rfl)
    · show sub64 (b.addr - 8) page.memory ≤ page.total
      rw [e]; omega
    · show b.addr - 8 ≤ page.memory + sub64 (b.addr - 8) page.memory
      rw [e]; omega
  · rw [if_neg hc]
    exact ⟨_, rfl, (h.setCur hpg).without _, rfl, rfl⟩

theorem Dyn.Inv.setMem {s : Dyn} {live : List Block} (h : s.Inv live) (m' : Mem)
    (hm : ∀ b ∈ live, ∀ x, b.addr - 8 ≤ x → x < b.addr → m' x = s.mem x) :
    ({ s with mem := m' } : Dyn).Inv live :=
  ⟨h.fn, h.none, h.ok, h.apart, fun b hb => (h.blk b hb).grown
    (fun q hq => ⟨q, hq, rfl, Nat.le_refl _⟩) (hm b hb), h.sep⟩

theorem Dyn.Inv.put {s : Dyn} {live : List Block} (h : s.Inv live) {b : Block}
    (hb : DBlk s.mem s.pages b) (ha : ∀ c ∈ live, Apart b c) : s.Inv (b :: live) :=
  ⟨h.fn, h.none, h.ok, h.apart, fun c hc => by
    rcases List.mem_cons.mp hc with rfl | hc
    · exact hb
    · exact h.blk c hc, List.pairwise_cons.mpr ⟨ha, h.sep⟩⟩

theorem Dyn.Inv.tail {s : Dyn} {live : List Block} {b : Block} (h : s.Inv (b :: live)) :
    s.Inv live :=
  ⟨h.fn, h.none, h.ok, h.apart, fun c hc => h.blk c (List.mem_cons_of_mem _ hc),
    (List.pairwise_cons.mp h.sep).2⟩

theorem Dyn.Inv.owns {s : Dyn} {live : List Block} (h : s.Inv live) {b : Block} (hb : b ∈ live)
    (x : Nat) (h1 : b.addr - 8 ≤ x) (h2 : x < b.addr + b.size) : s.own x := by
  obtain ⟨q, hq, hon⟩ := (h.blk b hb).page
  obtain ⟨g, hg, g1, g2⟩ := (h.ok q hq).giv
  have := (h.ok q hq).used
  have := hon.lo
  have := hon.hi
  exact ⟨g, hg, by omega, by omega⟩

/-- What a resize does, if it does not move a block into a smaller one, and the
block is not taken for the last one wrongly. -/
theorem Dyn.resize_spec {s : Dyn} {live : List Block} {b : Block} {size align : Nat}
    (h : s.Inv live) (hb : b ∈ live) (h0 : 0 < size) (hs : size < 2 ^ 63) (ha : AlignOk align)
    (hfit : b.size ≤ size ∨ alignFor align ∣ b.addr) (hl : s.LastIfCurrent b)
    (hcur : ∀ page ∈ s.pages.head?, page.current = b.addr → b.size < size) :
    s.resize b.addr size align = .fault s ∨
    ∃ s' p, s.resize b.addr size align = .ok s' p ∧
      s'.Inv (⟨p, size, align⟩ :: C3.StdMem.without live b.addr) ∧
      (∀ c ∈ live, c.addr ≠ b.addr → ∀ x, c.addr ≤ x → x < c.addr + c.size → s'.mem x = s.mem x) ∧
      (∀ i, i < min b.size size → s'.mem (p + i) = s.mem (b.addr + i)) ∧
      (∀ x, ¬ s'.own x → s'.mem x = s.mem x) ∧ (∀ x, s.own x → s'.own x) := by
  obtain ⟨page, rest, hpg⟩ := h.some_page hb
  have hk := h.blk b hb
  have hlt := h.lt hb
  have h8 := h.ge8 hb
  have hpok := h.ok page (by rw [hpg]; exact List.mem_cons_self)
  have hu := hpok.used
  have hpl := hpok.lt
  have hl := hl page (by rw [hpg]; rfl)
  have hcur := hcur page (by rw [hpg]; rfl)
  obtain ⟨k, hk4, hk28, hke, hkd⟩ := alignFor_spec align ha
  have hap : ∀ c ∈ C3.StdMem.without live b.addr, Apart c b := by
    intro c hc
    obtain ⟨hc1, hc2⟩ := (mem_without _ _ _).mp hc
    exact apart_of_mem h.sep hc1 hb fun e => hc2 (by rw [e])
  unfold Dyn.resize
  rw [hpg]
  dsimp only
  rw [hk.hdr]
  by_cases hsh : size ≤ b.size ∧ ptrIsAligned b.addr (alignFor align) = true
  · rw [if_pos hsh]
    have hal : 2 ^ k ∣ b.addr := by
      have := hsh.2
      rw [hke] at this
      exact (ptrIsAligned_iff _ _).mp this
    right
    have hshr : s.shrink page rest b.addr size = { s with mem := wr64 s.mem (b.addr - 8) size } := by
      unfold Dyn.shrink
      rw [if_neg (fun e => by have := hcur e; omega)]
      dsimp only
      rw [← hpg]
    rw [hshr]
    refine ⟨_, _, rfl, ?_, ?_, ?_, ?_, fun _ h => h⟩
    · refine Dyn.Inv.put ((h.without b.addr).setMem _ fun c hc x h1 h2 => ?_) ?_ ?_
      · have := hap c hc
        unfold Apart at this
        exact wr64_ne _ _ _ _ (by omega)
      · obtain ⟨q, hq, hon⟩ := hk.page
        have := hon.hi
        exact ⟨⟨q, hq, hon.lo, by show b.addr + size ≤ _; omega⟩,
          ⟨Nat.dvd_trans (Nat.pow_dvd_pow 2 hk4) hal, hkd.imp id fun h => Nat.dvd_trans h hal⟩,
          rd64_wr64 _ _ _ (by omega), h0⟩
      · intro c hc
        have := hap c hc
        unfold Apart at *
        dsimp only
        omega
    · intro c hc hne x h1 h2
      have := hap c ((mem_without _ _ _).mpr ⟨hc, hne⟩)
      unfold Apart at this
      exact wr64_ne _ _ _ _ (by omega)
    · intro i hi
      exact wr64_ne _ _ _ _ (by omega)
    · intro x hx
      refine wr64_ne _ _ _ _ (Classical.byContradiction fun hc => hx ?_)
      exact h.owns hb x (by omega) (by omega)
  · rw [if_neg hsh]
    by_cases hgr : page.current = b.addr ∧ ptrIsAligned b.addr (alignFor align) = true ∧
        wrap (size - b.size + page.used) ≤ page.total
    · rw [if_pos hgr]
      obtain ⟨e1, e2, e3⟩ := hgr
      have ht := hl e1
      have hlow := hcur e1
      rw [wrap_eq _ (by omega)] at e3
      have hal : 2 ^ k ∣ b.addr := by
        rw [hke] at e2
        exact (ptrIsAligned_iff _ _).mp e2
      obtain ⟨t1, _⟩ := h.top hpg hb e1 ht
      right
      refine ⟨_, _, rfl, ?_, ?_, ?_, ?_, fun _ h => h⟩
      · unfold Dyn.grow
        dsimp only
        have hw : wrap (page.used + (size - b.size)) = page.used + (size - b.size) :=
          wrap_eq _ (by omega)
        refine Dyn.Inv.put (h.setTop hpg hb e1 ht
          { page with used := wrap (page.used + (size - b.size)) } _ rfl rfl ?_ ?_ (Or.inr rfl) ?_) ?_ ?_
        · show wrap (page.used + (size - b.size)) ≤ page.total
          omega
        · show b.addr - 8 ≤ page.memory + wrap (page.used + (size - b.size))
          omega
        · intro x hx
          exact wr64_ne _ _ _ _ (by omega)
        · refine ⟨⟨_, List.mem_cons_self, t1, ?_⟩,
            ⟨Nat.dvd_trans (Nat.pow_dvd_pow 2 hk4) hal, hkd.imp id fun h => Nat.dvd_trans h hal⟩,
            rd64_wr64 _ _ _ (by omega), h0⟩
          show b.addr + size ≤ page.memory + wrap (page.used + (size - b.size))
          omega
        · intro c hc
          have hc' := (mem_without _ _ _).mp hc
          obtain ⟨q, hq, hon⟩ := (h.blk c hc'.1).page
          have hlo := hon.lo
          have hhi := hon.hi
          unfold Apart
          dsimp only
          rcases (h.top hpg hb e1 ht).2 c hc'.1 hc'.2 q hq hon with ⟨_, e⟩ | e
          · exact Or.inr (by omega)
          · have hap := h.apart
            rw [hpg] at hap
            have := (List.pairwise_cons.mp hap).1 q e
            have := (h.ok q hq).used
            unfold PageSep at *
            omega
      · intro c hc hne x h1 h2
        have := hap c ((mem_without _ _ _).mpr ⟨hc, hne⟩)
        unfold Apart at this
        exact wr64_ne _ _ _ _ (by omega)
      · intro i hi
        exact wr64_ne _ _ _ _ (by omega)
      · intro x hx
        refine wr64_ne _ _ _ _ (Classical.byContradiction fun hc => hx ?_)
        exact h.owns hb x (by omega) (by omega)
    · rw [if_neg hgr]
      have hsz : b.size ≤ size := by
        rcases hfit with h | h
        · exact h
        · refine Nat.le_of_lt (Nat.lt_of_not_le fun hle => hsh ⟨hle, ?_⟩)
          rw [hke] at h ⊢
          exact (ptrIsAligned_iff _ _).mpr h
      rcases Dyn.acquire_spec (zero := false) h h0 hs
        (align := alignFor align) (Or.inr ⟨k, hk28, hke⟩) with hacq | ⟨s1, p, hacq, g1, g2, g3, g4, g5, _⟩
      · rw [hacq]
        exact Or.inl rfl
      · right
        rw [hacq]
        have hnew := g1.blk _ List.mem_cons_self
        have hsep := (List.pairwise_cons.mp g1.sep).1
        have hold := hsep b hb
        unfold Apart at hold
        dsimp only at hold
        refine ⟨_, p, rfl, ?_, ?_, ?_, ?_, g4⟩
        · refine Dyn.Inv.put ((g1.tail.without b.addr).setMem _ fun c hc x h1 h2 => ?_) ?_ ?_
          · have := hsep c ((mem_without _ _ _).mp hc).1
            unfold Apart at this
            dsimp only at this
            exact copyMem_ne _ _ _ _ _ (by omega)
          · obtain ⟨q, hq, hon⟩ := hnew.page
            refine ⟨⟨q, hq, hon.lo, hon.hi⟩, ⟨hnew.al.1, ?_⟩, ?_, h0⟩
            · have := hnew.al.2
              dsimp only at this
              rw [hke] at this
              rcases this with e | e
              · have := Nat.two_pow_pos k
                omega
              · exact hkd.imp id fun h => Nat.dvd_trans h e
            · show rd64 (copyMem _ _ _ _) (p - 8) = size
              rw [rd64_congr _ s1.mem _ (fun i hi => copyMem_ne _ _ _ _ _ (by omega))]
              exact hnew.hdr
          · intro c hc
            exact hsep c ((mem_without _ _ _).mp hc).1
        · intro c hc hne x h1 h2
          have := hsep c hc
          unfold Apart at this
          dsimp only at this
          show copyMem _ _ _ _ _ = _
          rw [copyMem_ne _ _ _ _ _ (by omega)]
          exact g2 x (by omega)
        · intro i hi
          show copyMem _ _ _ _ _ = _
          rw [copyMem_at _ _ _ _ _ (by omega)]
          exact g2 _ (by omega)
        · intro x hx
          have hx' : ¬ (p - 8 ≤ x ∧ x < p + size) := fun hc => hx (g3 x hc.1 hc.2)
          show copyMem _ _ _ _ _ = _
          rw [copyMem_ne _ _ _ _ _ (by omega)]
          exact g2 x (by omega)

theorem Dyn.Inv.sound {s : Dyn} {live : List Block} (h : s.Inv live) : Sound s.own live := by
  refine ⟨fun b hb x h1 h2 => h.owns hb x (by omega) h2, fun b hb => (h.blk b hb).al, h.sep.imp ?_⟩
  intro b c h
  rcases h with h | h
  · exact Or.inl (by omega)
  · exact Or.inr (by omega)

/-- The block is really the last one of its page if the current page thinks so
when it is released or resized, it is then made larger, and no resize moves a
block into a smaller one. -/
def Dyn.Fine (w : World Dyn) : Op → Prop
  | .acquire size _ _ => size < 2 ^ 63
  | .release ptr _ => ∀ b ∈ w.live, b.addr = ptr → w.st.LastIfCurrent b
  | .resize ptr size align => size < 2 ^ 63 ∧ ∀ b ∈ w.live, b.addr = ptr →
      (b.size ≤ size ∨ alignFor align ∣ ptr) ∧ w.st.LastIfCurrent b ∧
      ∀ page ∈ w.st.pages.head?, page.current = ptr → b.size < size
  | .write _ _ => True

theorem Dyn.step_spec {w : World Dyn} {op : Op} (h : w.st.Inv w.live)
    (ha : op.Allowed w.live) (hok : Dyn.Fine w op) :
    ∃ w', step dynamic w op = some w' ∧ w'.st.Inv w'.live ∧ Keeps dynamic w'.st.own w w' op ∧
      ∀ x, w.st.own x → w'.st.own x := by
  obtain ⟨s, live⟩ := w
  dsimp only at h ha
  have fault : ∀ op : Op, (∀ a v, op ≠ .write a v) →
      (∀ ptr size align, op = .resize ptr size align → s.resize ptr size align = .fault s) →
      (∀ size align, op = .acquire size true align → s.acquire size true align = .fault s) →
      Keeps dynamic s.own ⟨s, live⟩ ⟨s, live⟩ op := by
    intro op hw hr hq
    refine ⟨fun _ _ _ _ => rfl, fun a v e => absurd e (hw a v), ?_, ?_, fun _ _ _ => rfl⟩
    · intro ptr size align e s' p' e2
      have e2 : s.resize ptr size align = _ := e2
      rw [hr _ _ _ e] at e2
      simp at e2
    · intro size align e s' p' e2
      have e2 : s.acquire size true align = _ := e2
      rw [hq _ _ e] at e2
      simp at e2
  cases op with
  | acquire size zero align =>
    obtain ⟨a1, a2, a3⟩ := ha
    rcases Dyn.acquire_spec (zero := zero) h a1 hok a3 with hacq | ⟨s1, p, hacq, g1, g2, g3, g4, g5, g6⟩
    · refine ⟨⟨s, live⟩, ?_, h, fault _ ?_ ?_ ?_, fun _ h => h⟩
      · simp only [step, dynamic, hacq]
      · intro _ _ e; cases e
      · intro _ _ _ e; cases e
      · intro _ _ e; cases e; exact hacq
    · refine ⟨⟨s1, _⟩, ?_, g1, ⟨?_, ?_, ?_, ?_, ?_⟩, g4⟩
      · simp only [step, dynamic, hacq]
      · intro b hb _ _
        have := (List.pairwise_cons.mp g1.sep).1 b hb
        unfold Apart at this
        dsimp only at this
        exact (bytes_eq_iff _ _ _ _ _).mpr fun i hi => g2 _ (by omega)
      · intro _ _ e; cases e
      · intro _ _ _ e; cases e
      · intro size' align' e s' p' hacq'
        cases e
        have e2 : Res.ok s' p' = Res.ok s1 p := by rw [← hacq, ← hacq']; rfl
        injection e2 with e2 e3
        subst e2 e3
        exact (bytes_zero_iff _ _ _).mpr (g6 rfl)
      · intro _ x hx
        have hx' : ¬ (p - 8 ≤ x ∧ x < p + size) := fun hc => hx (g3 x hc.1 hc.2)
        exact g2 x (by omega)
  | release ptr al =>
    obtain ⟨b, hb, hp, _⟩ := ha
    subst hp
    obtain ⟨s1, hrel, g1, g2, g3⟩ := Dyn.release_spec (al := al) h hb (hok b hb rfl)
    refine ⟨⟨s1, _⟩, ?_, g1, ⟨?_, ?_, ?_, ?_, ?_⟩, ?_⟩
    · simp only [step, dynamic, hrel]
      rfl
    · intro c _ _ _
      show bytes s1.mem _ _ = bytes s.mem _ _
      rw [g2]
    · intro _ _ e; cases e
    · intro _ _ _ e; cases e
    · intro _ _ e; cases e
    · intro _ x _
      show s1.mem x = s.mem x
      rw [g2]
    · intro x hx
      show ∃ g ∈ s1.given, _
      rw [g3]
      exact hx
  | resize ptr size align =>
    obtain ⟨⟨b, hb, hp, _⟩, a1, a2, a3⟩ := ha
    subst hp
    obtain ⟨o1, o2⟩ := hok
    obtain ⟨o2, o3, o4⟩ := o2 b hb rfl
    rcases Dyn.resize_spec h hb a1 o1 a3 o2 o3 o4 with hrz | ⟨s1, p, hrz, g1, g2, g3, g4, g5⟩
    · refine ⟨⟨s, live⟩, ?_, h, fault _ ?_ ?_ ?_, fun _ h => h⟩
      · simp only [step, dynamic, hrz]
      · intro _ _ e; cases e
      · intro _ _ _ e; cases e; exact hrz
      · intro _ _ e; cases e
    · refine ⟨⟨s1, _⟩, ?_, g1, ⟨?_, ?_, ?_, ?_, ?_⟩, g5⟩
      · simp only [step, dynamic, hrz]
      · intro c hc hc' _
        refine (bytes_eq_iff _ _ _ _ _).mpr fun i hi => ?_
        by_cases hne : c.addr = b.addr
        · have hcb := h.unique hb hc hne
          subst hcb
          rcases List.mem_cons.mp hc' with e | e
          · have e1 : c.addr = p := by rw [e]
            have e2 : c.size = size := by rw [e]
            have := g3 i (by omega)
            rw [← e1] at this
            exact this
          · exact absurd rfl ((mem_without _ _ _).mp e).2
        · exact g2 c hc hne _ (by omega) (by omega)
      · intro _ _ e; cases e
      · intro ptr' size' align' e s' p' hrz' c hc hcp
        cases e
        have e2 : Res.ok s' p' = Res.ok s1 p := by rw [← hrz, ← hrz']; rfl
        injection e2 with e2 e3
        subst e2 e3
        have hcb := h.unique hb hc hcp
        subst hcb
        exact (bytes_eq_iff _ _ _ _ _).mpr g3
      · intro _ _ e; cases e
      · intro _ x hx
        exact g4 x hx
  | write addr v =>
    obtain ⟨b, hb, h1, h2⟩ := ha
    refine ⟨⟨{ s with mem := setByte s.mem addr v }, live⟩, rfl, ?_, ⟨?_, ?_, ?_, ?_, ?_⟩,
      fun _ h => h⟩
    · refine h.setMem _ fun c hc x hx1 hx2 => setByte_ne _ _ _ _ fun e => ?_
      subst e
      by_cases hne : b = c
      · subst hne
        omega
      · have := apart_of_mem h.sep hb hc hne
        unfold Apart at this
        omega
    · intro _ _ _ e; exact absurd rfl (e _ _)
    · intro _ _ e; cases e; rfl
    · intro _ _ _ e; cases e
    · intro _ _ e; cases e
    · intro e; exact absurd rfl (e _ _)

theorem Dyn.reach_inv {mem : Mem} {pageSize : Nat} {fn : List (Nat × Nat) → Nat → Option (Nat × Nat)}
    (hf : ProviderOk fn) {w : World Dyn}
    (h : Reach dynamic (Dyn.init mem pageSize fn) Dyn.Fine w) : w.st.Inv w.live := by
  induction h with
  | init =>
    exact ⟨hf, rfl, fun _ h => absurd h (by simp [Dyn.init]), List.Pairwise.nil,
      fun _ h => absurd h (by simp), List.Pairwise.nil⟩
  | step w w' op _ ha hok hs ih =>
    obtain ⟨w'', g0, g1, _⟩ := Dyn.step_spec ih ha hok
    rw [g0] at hs
    injection hs with hs
    rw [← hs]
    exact g1

end C3.StdMem
