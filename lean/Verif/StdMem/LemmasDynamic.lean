import Verif.StdMem.Dynamic
import Verif.StdMem.LemmasArena
import Verif.StdMem.LemmasHeapOps

set_option autoImplicit false

namespace C3.StdMem

/-- The memory given to the dynamic arena. -/
def Dyn.own (s : Dyn) (x : Nat) : Prop := ∃ g ∈ s.given, g.1 ≤ x ∧ x < g.1 + g.2

/-- Two pages have no byte in common. -/
def PageSep (p q : DPage) : Prop := p.memory + p.total ≤ q.memory ∨ q.memory + q.total ≤ p.memory

/-- A block is on the used part of a page. -/
structure OnPage (b : Block) (p : DPage) : Prop where
  lo : p.memory + 8 ≤ b.addr
  hi : b.addr + b.size ≤ p.memory + p.used

structure DPage.Ok (given : List (Nat × Nat)) (p : DPage) : Prop where
  used : p.used ≤ p.total
  lt : p.memory + p.total ≤ 2 ^ 62
  giv : ∃ g ∈ given, p.memory = g.1 ∧ p.total ≤ g.2
  cur : p.current = 0 ∨ p.memory + 8 ≤ p.current

structure DBlk (m : Mem) (pages : List DPage) (b : Block) : Prop where
  page : ∃ p ∈ pages, OnPage b p
  al : 16 ∣ b.addr ∧ (b.align = 0 ∨ b.align ∣ b.addr)
  hdr : rd64 m (b.addr - 8) = b.size
  pos : 0 < b.size

structure Dyn.Inv (s : Dyn) (live : List Block) : Prop where
  fn : ProviderOk s.fn
  none : s.unused = []
  ok : ∀ p ∈ s.pages, p.Ok s.given
  apart : s.pages.Pairwise PageSep
  blk : ∀ b ∈ live, DBlk s.mem s.pages b
  sep : live.Pairwise Apart

/-- Bytes which are not on the used part of a page. -/
def Fresh (pages : List DPage) (a z : Nat) : Prop :=
  ∀ p ∈ pages, z ≤ p.memory ∨ p.memory + p.used ≤ a

/-- What allocating does to the pages: the used parts only grow. -/
def Grown (pages pages' : List DPage) : Prop :=
  ∀ p ∈ pages, ∃ q ∈ pages', q.memory = p.memory ∧ p.used ≤ q.used

theorem OnPage.grown {b : Block} {p q : DPage} (h : OnPage b p) (hm : q.memory = p.memory)
    (hu : p.used ≤ q.used) : OnPage b q :=
  ⟨by have := h.lo; omega, by have := h.hi; omega⟩

theorem DBlk.grown {m m' : Mem} {pages pages' : List DPage} {b : Block} (h : DBlk m pages b)
    (hg : Grown pages pages') (hm : ∀ x, b.addr - 8 ≤ x → x < b.addr → m' x = m x) :
    DBlk m' pages' b := by
  obtain ⟨p, hp, hon⟩ := h.page
  obtain ⟨q, hq, h1, h2⟩ := hg p hp
  have := hon.lo
  refine ⟨⟨q, hq, hon.grown h1 h2⟩, h.al, ?_, h.pos⟩
  rw [rd64_congr m' m _ (fun i hi => hm _ (by omega) (by omega))]
  exact h.hdr

/-- The result of allocating without clearing. -/
structure Dyn.Alloc (s s' : Dyn) (size align p : Nat) : Prop where
  fn : s'.fn = s.fn
  none : s'.unused = []
  ok : ∀ q ∈ s'.pages, q.Ok s'.given
  apart : s'.pages.Pairwise PageSep
  grown : Grown s.pages s'.pages
  own : ∀ x, s.own x → s'.own x
  page : ∃ q ∈ s'.pages, q.memory + 8 ≤ p ∧ p + size ≤ q.memory + q.used
  fresh : Fresh s.pages (p - 8) (p + size)
  al : 16 ∣ p ∧ (align = 0 ∨ align ∣ p)
  hdr : rd64 s'.mem (p - 8) = size
  mem : ∀ x, x < p - 8 ∨ p ≤ x → s'.mem x = s.mem x

theorem DPage.start_spec {p : DPage} {k : Nat} (hk4 : 4 ≤ k) (hk : k ≤ 28)
    (h : p.memory + p.used ≤ 2 ^ 62) :
    p.memory + p.used + 8 ≤ p.start (2 ^ k) ∧ p.start (2 ^ k) < p.memory + p.used + 8 + 2 ^ k ∧
      2 ^ k ∣ p.start (2 ^ k) ∧ 16 ∣ p.start (2 ^ k) := by
  unfold DPage.start
  rw [wrap_eq _ (by omega)]
  obtain ⟨a1, a2, a3⟩ := alignedOffset_spec (p.memory + p.used + 8) k hk (by omega)
  exact ⟨a1, a2, a3, Nat.dvd_trans (Nat.pow_dvd_pow 2 hk4) a3⟩

theorem Dyn.allocNew_spec {s : Dyn} {live : List Block} {size align k : Nat} (h : s.Inv live)
    (hs : size < 2 ^ 63) (hk4 : 4 ≤ k) (hk28 : k ≤ 28) (hkd : align = 0 ∨ align ∣ 2 ^ k) :
    s.allocNew size (2 ^ k) = .fault s ∨
    ∃ s' p, s.allocNew size (2 ^ k) = .ok s' p ∧ s.Alloc s' size align p := by
  have hp28 : (2 : Nat) ^ k ≤ 2 ^ 28 := Nat.pow_le_pow_right (by omega) hk28
  unfold Dyn.allocNew
  rw [wrap_eq (size + 8 + 2 ^ k) (by omega)]
  obtain ⟨a1, a2, a3⟩ := alignedOffset_spec (size + 8 + 2 ^ k) k hk28 (by omega)
  generalize alignedOffset (size + 8 + 2 ^ k) (2 ^ k) = ao at *
  have hps : ao ≤ max s.pageSize ao := Nat.le_max_right _ _
  generalize max s.pageSize ao = ps at *
  dsimp only
  rw [wrap_eq (size + 8) (by omega), if_neg (by have := Nat.two_pow_pos k; omega)]
  cases hf : s.fn s.given ps with
  | none => exact Or.inl rfl
  | some g =>
    obtain ⟨memory, len⟩ := g
    right
    obtain ⟨p1, p2, p3, p4, p5⟩ := h.fn _ _ _ _ hf
    dsimp only
    rw [wrap_eq (memory + 8) (by omega), wrap_eq (memory + ps) (by omega)]
    obtain ⟨b1, b2, b3⟩ := alignedOffset_spec (memory + 8) k hk28 (by omega)
    generalize alignedOffset (memory + 8) (2 ^ k) = st at *
    have h16 : 16 ∣ st := Nat.dvd_trans (Nat.pow_dvd_pow 2 hk4) b3
    rw [wrap_eq (st + size) (by omega), if_neg (by omega),
      sub64_eq (st + size) memory (by omega) (by omega)]
    have hsep : ∀ q ∈ s.pages, PageSep ⟨memory, ps, st + size - memory, st⟩ q := by
      intro q hq
      obtain ⟨g, hg, g1, g2⟩ := (h.ok q hq).giv
      unfold PageSep
      dsimp only
      rcases p5 g hg with h5 | h5
      · exact Or.inl (by omega)
      · exact Or.inr (by omega)
    refine ⟨_, st, rfl, ⟨rfl, h.none, ?_, ?_, ?_, ?_, ?_, ?_, ⟨h16, ?_⟩, ?_, ?_⟩⟩
    · intro q hq
      rcases List.mem_cons.mp hq with rfl | hq
      · exact ⟨by show st + size - memory ≤ ps; omega, by show memory + ps ≤ _; omega,
          ⟨(memory, len), List.mem_cons_self, rfl, p1⟩, Or.inr b1⟩
      · obtain ⟨g, hg, hgg⟩ := (h.ok q hq).giv
        exact ⟨(h.ok q hq).used, (h.ok q hq).lt, ⟨g, List.mem_cons_of_mem _ hg, hgg⟩, (h.ok q hq).cur⟩
    · exact List.pairwise_cons.mpr ⟨hsep, h.apart⟩
    · exact fun q hq => ⟨q, List.mem_cons_of_mem _ hq, rfl, Nat.le_refl _⟩
    · rintro x ⟨g, hg, hx⟩
      exact ⟨g, List.mem_cons_of_mem _ hg, hx⟩
    · exact ⟨_, List.mem_cons_self, b1, by show st + size ≤ memory + (st + size - memory); omega⟩
    · intro q hq
      have := hsep q hq
      unfold PageSep at this
      dsimp only at this
      have := (h.ok q hq).used
      omega
    · exact hkd.imp id fun hd => Nat.dvd_trans hd b3
    · exact rd64_wr64 _ _ _ (by omega)
    · intro x hx
      exact wr64_ne _ _ _ _ (by omega)

theorem Dyn.alloc_spec {s : Dyn} {live : List Block} {size align : Nat} (h : s.Inv live)
    (hs : size < 2 ^ 63) (hal : AlignOk align) :
    s.reuse.allocPage size (alignFor align) = .fault s ∨
    ∃ s' p, s.reuse.allocPage size (alignFor align) = .ok s' p ∧ s.Alloc s' size align p := by
  obtain ⟨k, hk4, hk28, hke, hkd⟩ := alignFor_spec align hal
  have hp28 : (2 : Nat) ^ k ≤ 2 ^ 28 := Nat.pow_le_pow_right (by omega) hk28
  have hr : s.reuse = s := by
    unfold Dyn.reuse
    rw [h.none]
    cases s.pages <;> rfl
  rw [hr, hke]
  have hnew := Dyn.allocNew_spec (align := align) h hs hk4 hk28 hkd
  unfold Dyn.allocPage
  cases hpg : s.pages with
  | nil => exact hnew
  | cons page rest =>
    dsimp only
    have hpok := h.ok page (by rw [hpg]; exact List.mem_cons_self)
    have hu := hpok.used
    have hl := hpok.lt
    obtain ⟨a1, a2, a3, a4⟩ := DPage.start_spec hk4 hk28 (p := page) (by omega)
    generalize page.start (2 ^ k) = st at *
    rw [sub64_eq st page.memory (by omega) (by omega), wrap_eq _ (by omega)]
    by_cases hfit : page.total < st - page.memory + size
    · rw [if_pos hfit]
      have : s.allocOther size (2 ^ k) = s.allocNew size (2 ^ k) := by
        unfold Dyn.allocOther
        rw [h.none]
      rw [this]
      exact hnew
    · rw [if_neg hfit]
      right
      have hap := h.apart
      rw [hpg] at hap
      obtain ⟨ap1, ap2⟩ := List.pairwise_cons.mp hap
      refine ⟨_, st, rfl, ⟨rfl, h.none, ?_, ?_, ?_, fun _ h => h, ?_, ?_, ⟨a4, ?_⟩, ?_, ?_⟩⟩
      · intro q hq
        rcases List.mem_cons.mp hq with rfl | hq
        · exact ⟨by show st - page.memory + size ≤ page.total; omega, hl, hpok.giv, hpok.cur⟩
        · exact h.ok q (by rw [hpg]; exact List.mem_cons_of_mem _ hq)
      · exact List.pairwise_cons.mpr ⟨ap1, ap2⟩
      · rw [hpg]
        intro q hq
        rcases List.mem_cons.mp hq with rfl | hq
        · exact ⟨_, List.mem_cons_self, rfl, by show q.used ≤ st - q.memory + size; omega⟩
        · exact ⟨q, List.mem_cons_of_mem _ hq, rfl, Nat.le_refl _⟩
      · exact ⟨_, List.mem_cons_self, by show page.memory + 8 ≤ st; omega,
          by show st + size ≤ page.memory + (st - page.memory + size); omega⟩
      · rw [hpg]
        intro q hq
        rcases List.mem_cons.mp hq with rfl | hq
        · exact Or.inr (by omega)
        · have := ap1 q hq
          have hq2 := (h.ok q (by rw [hpg]; exact List.mem_cons_of_mem _ hq)).used
          unfold PageSep at this
          rcases this with this | this
          · exact Or.inl (by omega)
          · exact Or.inr (by omega)
      · exact hkd.imp id fun hd => Nat.dvd_trans hd a3
      · exact rd64_wr64 _ _ _ (by omega)
      · intro x hx
        exact wr64_ne _ _ _ _ (by omega)

end C3.StdMem
