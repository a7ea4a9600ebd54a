import Verif.StdMem.LemmasPages
import Verif.StdMem.Arena

/-!
# TempAllocator and BackedArenaAllocator

C72: a block is in the free part of the arena, or inside of a page which the
backing allocator gave.
-/

set_option autoImplicit false

namespace C3.StdMem

/-- The block of `size` bytes at `q` is in the free part of the arena. -/
def Pages.InArena {S : Type} (s : Pages S) (size q : Nat) : Prop :=
  s.base + s.used + 8 ≤ q ∧ q + size ≤ s.base + s.capacity

/-- The block is inside of `n` bytes at `start` that the backing allocator gave,
after the header of the page. -/
def Pages.InPage {S : Type} (A : Allocator S) (s : Pages S) (zero : Bool) (size q : Nat) : Prop :=
  ∃ n al b start, A.acquire s.back n zero al = .ok b start ∧ start + s.header ≤ q ∧
    q + size ≤ start + n

/-- What the backing allocator has to do: its blocks are aligned, and the memory
is in the lower part of the addresses. -/
def BackOk {S : Type} (A : Allocator S) (b : S) : Prop :=
  ∀ n zero al b' start, A.acquire b n zero al = .ok b' start →
    16 ∣ start ∧ (al = 0 ∨ al ∣ start) ∧ start + n ≤ 2 ^ 62

/-- C72, in full: a block is in the free part of the arena or in a page. -/
def C72_full : Prop :=
  ∀ (S : Type) (A : Allocator S) (s s' : Pages S) (size align q : Nat) (zero : Bool),
    s.header = 32 ∨ s.header = 40 → s.base + s.used ≤ 2 ^ 62 → s.base + s.capacity ≤ 2 ^ 62 →
    BackOk A s.back → (Op.acquire size zero align).Allowed [] →
    s.acquire A size zero align = .ok s' q → s.InArena size q ∨ s.InPage A zero size q

/-- C72: of the sizes up to `isz.max`, and unless a page for an alignment of
more than 16 has to be made, a block is in the free part of the arena or in a
page.  For larger alignments it is if the size or the header is a multiple of
the alignment, or the rests of both are together larger than it. -/
theorem C72_acquire_partial {S : Type} (A : Allocator S) (s s' : Pages S) (size align q : Nat)
    (zero : Bool) (hh : s.header = 32 ∨ s.header = 40) (hb : s.base + s.used ≤ 2 ^ 62)
    (hc : s.base + s.capacity ≤ 2 ^ 62) (hA : BackOk A s.back)
    (ha : (Op.acquire size zero align).Allowed []) (hs : size < 2 ^ 63)
    (hfit : align ≤ 16 ∨ s.header % align = 0 ∨ size % align = 0 ∨
      align < s.header % align + size % align)
    (h : s.acquire A size zero align = .ok s' q) :
    (s.InArena size q ∨ s.InPage A zero size q) ∧ 16 ∣ q ∧ (align = 0 ∨ align ∣ q) := by
  obtain ⟨k, hk4, hk28, hke, hkd⟩ := alignFor_spec align ha.2.2
  have hp28 : (2 : Nat) ^ k ≤ 2 ^ 28 := Nat.pow_le_pow_right (by omega) hk28
  have hp4 : (2 : Nat) ^ 4 ≤ 2 ^ k := Nat.pow_le_pow_right (by omega) hk4
  obtain ⟨p1, p2, p3, p4, p5⟩ := s.place_spec align hb ha.2.2
  unfold Pages.acquire at h
  simp only [] at h
  by_cases hn : wrap (sub64 (s.place align) s.base + size) ≤ s.capacity
  · rw [if_pos hn] at h
    injection h with _ h
    subst h
    rw [sub64_eq _ _ (by omega) (by omega), wrap_eq _ (by omega)] at hn
    refine ⟨Or.inl ⟨p1, by omega⟩, p5, hkd.imp id fun h => ?_⟩
    rw [hke] at p4
    exact Nat.dvd_trans h p4
  · rw [if_neg hn] at h
    have hda : defaultAlign = 16 := rfl
    rw [hda] at h
    by_cases h16 : 16 < alignFor align
    · rw [if_pos h16, if_pos h16, if_pos h16] at h
      have hal : alignFor align = align := by
        unfold alignFor at h16 ⊢
        by_cases hlt : align < defaultAlign
        · rw [if_pos hlt] at h16
          omega
        · rw [if_neg hlt]
      rw [hal] at h h16
      have hle : align ≤ 2 ^ 28 := by rw [← hal, hke]; exact hp28
      cases hacq : A.acquire s.back (alignedOffset (wrap (s.header + size)) align) zero align with
      | fault b => rw [hacq] at h; simp at h
      | panic => rw [hacq] at h; simp at h
      | ok b start =>
        rw [hacq] at h
        simp only [] at h
        injection h with _ h
        obtain ⟨q1, q2, q3⟩ := hA _ _ _ _ _ hacq
        rw [wrap_eq (s.header + size) (by omega)] at hacq q3
        have hal2 : align = 2 ^ k := by rw [← hal, hke]
        obtain ⟨o1, o2, o3⟩ := alignedOffset_spec s.header k hk28 (by omega)
        rw [← hal2] at o1 o2 o3
        rw [wrap_eq _ (by omega)] at h
        subst h
        have hf := (page_fits align s.header size hle (by omega) (by omega)).mpr
          (hfit.resolve_left (by omega))
        have hdv : align ∣ start + alignedOffset s.header align :=
          Nat.dvd_add (q2.resolve_left (by omega)) o3
        refine ⟨Or.inr ⟨_, _, _, _, hacq, by omega, by omega⟩, ?_, Or.inr hdv⟩
        refine Nat.dvd_trans ?_ hdv
        rw [hal2]
        exact Nat.pow_dvd_pow 2 hk4
    · rw [if_neg h16, if_neg h16, if_neg h16] at h
      cases hacq : A.acquire s.back (wrap (alignedOffset s.header 16 + size)) zero 0 with
      | fault b => rw [hacq] at h; simp at h
      | panic => rw [hacq] at h; simp at h
      | ok b start =>
        rw [hacq] at h
        simp only [] at h
        injection h with _ h
        obtain ⟨q1, q2, q3⟩ := hA _ _ _ _ _ hacq
        obtain ⟨o1, o2, o3⟩ := alignedOffset_spec s.header 4 (by omega) (by omega)
        rw [show (2 : Nat) ^ 4 = 16 by rfl] at o1 o2 o3
        rw [wrap_eq (alignedOffset s.header 16 + size) (by omega)] at hacq q3
        rw [wrap_eq _ (by omega)] at h
        subst h
        have hd : 16 ∣ start + alignedOffset s.header 16 := Nat.dvd_add q1 o3
        refine ⟨Or.inr ⟨_, _, _, _, hacq, by omega, by omega⟩, hd, hkd.imp id fun h => ?_⟩
        refine Nat.dvd_trans h (Nat.dvd_trans ?_ hd)
        have : 2 ^ k = 2 ^ 4 := by rw [hke] at h16; omega
        rw [this]
        decide

/-- The memory after a block was acquired. -/
theorem Pages.acquire_memory {S : Type} (A : Allocator S) (hm : ∀ b m, A.mem (A.setMem b m) = m)
    (s s' : Pages S) (size align q : Nat)
    (zero : Bool) (hh : s.header = 32 ∨ s.header = 40) (hb : s.base + s.used ≤ 2 ^ 62)
    (hc : s.base + s.capacity ≤ 2 ^ 62) (hA : BackOk A s.back)
    (ha : (Op.acquire size zero align).Allowed []) (hs : size < 2 ^ 63)
    (hfit : align ≤ 16 ∨ s.header % align = 0 ∨ size % align = 0 ∨
      align < s.header % align + size % align)
    (h : s.acquire A size zero align = .ok s' q) :
    (s.InArena size q ∧ A.mem s'.back = (if zero then clearMem (wr64 (A.mem s.back) (q - 8) size) q size
      else wr64 (A.mem s.back) (q - 8) size)) ∨
    (∃ n al b start, A.acquire s.back n zero al = .ok b start ∧ start + s.header ≤ q ∧
      q + size ≤ start + n ∧ A.mem s'.back = wr64 (A.mem b) (q - 8) (2 ^ 64 - 1)) := by
  obtain ⟨k, hk4, hk28, hke, hkd⟩ := alignFor_spec align ha.2.2
  have hp28 : (2 : Nat) ^ k ≤ 2 ^ 28 := Nat.pow_le_pow_right (by omega) hk28
  have hp4 : (2 : Nat) ^ 4 ≤ 2 ^ k := Nat.pow_le_pow_right (by omega) hk4
  obtain ⟨p1, p2, p3, p4, p5⟩ := s.place_spec align hb ha.2.2
  unfold Pages.acquire at h
  simp only [] at h
  by_cases hn : wrap (sub64 (s.place align) s.base + size) ≤ s.capacity
  · rw [if_pos hn] at h
    injection h with hs' h
    subst h
    rw [sub64_eq _ _ (by omega) (by omega), wrap_eq _ (by omega)] at hn
    refine Or.inl ⟨⟨p1, by omega⟩, ?_⟩
    rw [← hs', hm]
  · rw [if_neg hn] at h
    have hda : defaultAlign = 16 := rfl
    rw [hda] at h
    by_cases h16 : 16 < alignFor align
    · rw [if_pos h16, if_pos h16, if_pos h16] at h
      have hal : alignFor align = align := by
        unfold alignFor at h16 ⊢
        by_cases hlt : align < defaultAlign
        · rw [if_pos hlt] at h16
          omega
        · rw [if_neg hlt]
      rw [hal] at h h16
      have hle : align ≤ 2 ^ 28 := by rw [← hal, hke]; exact hp28
      cases hacq : A.acquire s.back (alignedOffset (wrap (s.header + size)) align) zero align with
      | fault b => rw [hacq] at h; simp at h
      | panic => rw [hacq] at h; simp at h
      | ok b start =>
        rw [hacq] at h
        simp only [] at h
        injection h with hs' h
        obtain ⟨q1, q2, q3⟩ := hA _ _ _ _ _ hacq
        rw [wrap_eq (s.header + size) (by omega)] at hacq q3
        have hal2 : align = 2 ^ k := by rw [← hal, hke]
        obtain ⟨o1, o2, o3⟩ := alignedOffset_spec s.header k hk28 (by omega)
        rw [← hal2] at o1 o2 o3
        rw [wrap_eq _ (by omega)] at h
        subst h
        have hf := (page_fits align s.header size hle (by omega) (by omega)).mpr
          (hfit.resolve_left (by omega))
        refine Or.inr ⟨_, _, _, _, hacq, by omega, by omega, ?_⟩
        rw [← hs', hm, wrap_eq _ (by omega)]
    · rw [if_neg h16, if_neg h16, if_neg h16] at h
      cases hacq : A.acquire s.back (wrap (alignedOffset s.header 16 + size)) zero 0 with
      | fault b => rw [hacq] at h; simp at h
      | panic => rw [hacq] at h; simp at h
      | ok b start =>
        rw [hacq] at h
        simp only [] at h
        injection h with hs' h
        obtain ⟨q1, q2, q3⟩ := hA _ _ _ _ _ hacq
        obtain ⟨o1, o2, o3⟩ := alignedOffset_spec s.header 4 (by omega) (by omega)
        rw [show (2 : Nat) ^ 4 = 16 by rfl] at o1 o2 o3
        rw [wrap_eq (alignedOffset s.header 16 + size) (by omega)] at hacq q3
        rw [wrap_eq _ (by omega)] at h
        subst h
        refine Or.inr ⟨_, _, _, _, hacq, by omega, by omega, ?_⟩
        rw [← hs', hm, wrap_eq _ (by omega)]

/-- What the backing allocator has to do with memory: a block asked for as zero
is zero, and nothing outside of the block is changed. -/
def BackKeeps {S : Type} (A : Allocator S) (b : S) : Prop :=
  ∀ n zero al b' start, A.acquire b n zero al = .ok b' start →
    (zero = true → ∀ i, i < n → A.mem b' (start + i) = 0) ∧
    ∀ x, x < start ∨ start + n ≤ x → A.mem b' x = A.mem b x

/-- C72: a block asked for as zero is zero, and in memory nothing is changed but
the block with the 8 bytes before it, or the page. -/
theorem C72_acquire_memory_partial {S : Type} (A : Allocator S)
    (hm : ∀ b m, A.mem (A.setMem b m) = m)
    (s s' : Pages S) (size align q : Nat)
    (zero : Bool) (hh : s.header = 32 ∨ s.header = 40) (hb : s.base + s.used ≤ 2 ^ 62)
    (hc : s.base + s.capacity ≤ 2 ^ 62) (hA : BackOk A s.back) (hK : BackKeeps A s.back)
    (ha : (Op.acquire size zero align).Allowed []) (hs : size < 2 ^ 63)
    (hfit : align ≤ 16 ∨ s.header % align = 0 ∨ size % align = 0 ∨
      align < s.header % align + size % align)
    (h : s.acquire A size zero align = .ok s' q) :
    (zero = true → ∀ i, i < size → A.mem s'.back (q + i) = 0) ∧
    ((s.InArena size q ∧ ∀ x, x < q - 8 ∨ q + size ≤ x → A.mem s'.back x = A.mem s.back x) ∨
     (∃ n al b start, A.acquire s.back n zero al = .ok b start ∧ start + s.header ≤ q ∧
       q + size ≤ start + n ∧ ∀ x, x < start ∨ start + n ≤ x → A.mem s'.back x = A.mem s.back x)) := by
  rcases Pages.acquire_memory A hm s s' size align q zero hh hb hc hA ha hs hfit h with
    ⟨h1, h2⟩ | ⟨n, al, b, start, h1, h2, h3, h4⟩
  · have hq8 : 8 ≤ q := by have := h1.1; omega
    refine ⟨fun hz i hi => ?_, Or.inl ⟨h1, fun x hx => ?_⟩⟩
    · rw [h2, if_pos hz]
      exact clearMem_at _ _ _ _ (by omega) (by omega)
    · rw [h2]
      cases zero with
      | true =>
        rw [if_pos rfl, clearMem_ne _ _ _ _ (by omega), wr64_ne _ _ _ _ (by omega)]
      | false => rw [if_neg Bool.false_ne_true, wr64_ne _ _ _ _ (by omega)]
  · obtain ⟨k1, k2⟩ := hK _ _ _ _ _ h1
    refine ⟨fun hz i hi => ?_, Or.inr ⟨n, al, b, start, h1, h2, h3, fun x hx => ?_⟩⟩
    · rw [h4, wr64_ne _ _ _ _ (by omega)]
      have := k1 hz (q + i - start) (by omega)
      rw [show start + (q + i - start) = q + i by omega] at this
      exact this
    · rw [h4, wr64_ne _ _ _ _ (by omega), k2 x hx]

/-- C72: for larger alignments, the block for which a page has to be made is
inside of that page just under these conditions. -/
theorem C72_page_iff {S : Type} (A : Allocator S) (s s' : Pages S) (size align q : Nat)
    (zero : Bool) (hh : s.header = 32 ∨ s.header = 40) (hb : s.base + s.used ≤ 2 ^ 62)
    (hc : s.base + s.capacity ≤ 2 ^ 62) (hA : BackOk A s.back)
    (ha : (Op.acquire size zero align).Allowed []) (hs : size < 2 ^ 63) (h16 : 16 < align)
    (hfull : s.base + s.capacity < s.place align + size)
    (h : s.acquire A size zero align = .ok s' q) :
    ∃ n b start, A.acquire s.back n zero align = .ok b start ∧ start ≤ q ∧
      (q + size ≤ start + n ↔
        s.header % align = 0 ∨ size % align = 0 ∨ align < s.header % align + size % align) := by
  obtain ⟨k, hk4, hk28, hke, hkd⟩ := alignFor_spec align ha.2.2
  have hp28 : (2 : Nat) ^ k ≤ 2 ^ 28 := Nat.pow_le_pow_right (by omega) hk28
  obtain ⟨p1, p2, p3, p4, p5⟩ := s.place_spec align hb ha.2.2
  have hal : alignFor align = align := by
    unfold alignFor
    exact if_neg (by show ¬ align < 16; omega)
  have hal2 : align = 2 ^ k := by rw [← hal, hke]
  unfold Pages.acquire at h
  simp only [hal] at h
  rw [sub64_eq (s.place align) _ (by omega) (by omega), wrap_eq (s.place align - s.base + size) (by omega),
    if_neg (by omega)] at h
  have hda : defaultAlign = 16 := rfl
  rw [hda, if_pos h16, if_pos h16, if_pos h16] at h
  cases hacq : A.acquire s.back (alignedOffset (wrap (s.header + size)) align) zero align with
  | fault b => rw [hacq] at h; simp at h
  | panic => rw [hacq] at h; simp at h
  | ok b start =>
    rw [hacq] at h
    simp only [] at h
    injection h with _ h
    obtain ⟨q1, q2, q3⟩ := hA _ _ _ _ _ hacq
    rw [wrap_eq (s.header + size) (by omega)] at hacq q3
    obtain ⟨o1, o2, o3⟩ := alignedOffset_spec s.header k hk28 (by omega)
    rw [← hal2] at o1 o2 o3
    rw [wrap_eq _ (by omega)] at h
    subst h
    refine ⟨_, _, _, hacq, by omega, ?_⟩
    have := page_fits align s.header size (by omega) (by omega) (by omega)
    omega

/-- C72: sizes so large that the end of the block would be past the end of the
address space are taken from the arena. -/
theorem C72_huge {S : Type} (A : Allocator S) (s : Pages S) (size align : Nat) (zero : Bool)
    (hb : s.base + s.used ≤ 2 ^ 62) (ha : (Op.acquire size zero align).Allowed [])
    (hp : s.place align ≤ s.base + s.capacity + 1) (hs : 2 ^ 64 ≤ s.place align - s.base + size) :
    ∃ s', s.acquire A size zero align = .ok s' (s.place align) := by
  obtain ⟨p1, p2, p3, p4, p5⟩ := s.place_spec align hb ha.2.2
  have hlt := ha.2.1
  unfold Pages.acquire
  simp only []
  rw [if_pos]
  · exact ⟨_, rfl⟩
  · rw [sub64_eq _ _ (by omega) (by omega)]
    unfold wrap
    omega

/-- C72: the last block of a temp allocator stays where it is when it is made
larger, whatever alignment is asked for. -/
theorem C72_resize_alignment {S : Type} (A : Allocator S) (s : Pages S) (old size align : Nat)
    (hold : old + rd64 (A.mem s.back) (old - 8) = s.base + s.used)
    (hb : s.base + s.capacity ≤ 2 ^ 62) (hu : s.used ≤ s.capacity)
    (hs : rd64 (A.mem s.back) (old - 8) < size)
    (hfit : size - rd64 (A.mem s.back) (old - 8) < s.capacity - s.used) :
    ∃ s', s.tempResize A old size align = .ok s' old := by
  have hl : s.isLast A old = true := by
    unfold Pages.isLast
    rw [decide_eq_true_eq, Nat.add_comm, hold]
  have hd : sub64 size (rd64 (A.mem s.back) (old - 8)) = size - rd64 (A.mem s.back) (old - 8) :=
    sub64_eq _ _ (by omega) (by omega)
  have hst : s.staysPut (size - rd64 (A.mem s.back) (old - 8)) = true := by
    unfold Pages.staysPut
    rw [sub64_eq s.capacity s.used hu (by omega)]
    simp only [Bool.or_eq_true, decide_eq_true_eq]
    exact Or.inr hfit
  have hne : decide (size - rd64 (A.mem s.back) (old - 8) = 0) = false := by
    rw [decide_eq_false_iff_not]
    omega
  unfold Pages.tempResize
  rw [hd, hl]
  dsimp only
  rw [hst, hne]
  exact ⟨_, rfl⟩

/-- C72: resizing a block of a backed arena copies its whole contents, also past
the end of a smaller block. -/
theorem C72_resize_copies_old_size {S : Type} (A : Allocator S)
    (hm : ∀ b m, A.mem (A.setMem b m) = m) (s s' : Pages S) (old size align q : Nat)
    (hb : s.base + s.used ≤ 2 ^ 62) (hc : s.base + s.capacity ≤ 2 ^ 62)
    (ha : (Op.acquire size false align).Allowed []) (h8 : 8 ≤ old)
    (hold : old + rd64 (A.mem s.back) (old - 8) ≤ s.base + s.used)
    (hroom : s.place align + size ≤ s.base + s.capacity)
    (h : s.backedResize A old size align = .ok s' q) :
    s.InArena size q ∧ ∀ i, i < rd64 (A.mem s.back) (old - 8) →
      A.mem s'.back (q + i) = A.mem s.back (old + i) := by
  obtain ⟨p1, p2, p3, p4, p5⟩ := s.place_spec align hb ha.2.2
  generalize hpl : s.place align = pl at *
  obtain ⟨s1, e1, e2⟩ := Pages.backedResize_room A s size align pl old hm hpl
    (by rw [sub64_eq _ _ (by omega) (by omega), wrap_eq _ (by omega)]; omega) (by omega) (by omega)
  rw [e1] at h
  injection h with h hq
  subst hq
  rw [← h, e2]
  refine ⟨⟨p1, hroom⟩, fun i hi => ?_⟩
  rw [copyMem_at _ _ _ _ _ hi]
  exact wr64_ne _ _ _ _ (by omega)

/-- C72: a block of a temp allocator's arena that is resized keeps its contents
as far as they fit, and one that does not move is the last one if it gets
larger.  Blocks for which a page has to be made are left out. -/
theorem C72_resize_partial {S : Type} (A : Allocator S)
    (hm : ∀ b m, A.mem (A.setMem b m) = m) (s s' : Pages S) (old size align q : Nat)
    (hb : s.base + s.used ≤ 2 ^ 62) (hc : s.base + s.capacity ≤ 2 ^ 62) (hu : s.used ≤ s.capacity)
    (ha : (Op.acquire size false align).Allowed []) (h8 : 8 ≤ old) (hs : size < 2 ^ 62)
    (hin : s.base ≤ old) (hold : old + rd64 (A.mem s.back) (old - 8) ≤ s.base + s.used)
    (hroom : s.place align + size ≤ s.base + s.capacity)
    (h : s.tempResize A old size align = .ok s' q) :
    (∀ i, i < rd64 (A.mem s.back) (old - 8) → i < size →
      A.mem s'.back (q + i) = A.mem s.back (old + i)) ∧
    (s.InArena size q ∨
      (q = old ∧ old + rd64 (A.mem s.back) (old - 8) = s.base + s.used ∧
        old + size ≤ s.base + s.capacity ∧ s.base + s'.used = old + size)) := by
  have hlast : s.isLast A old = true ↔ old + rd64 (A.mem s.back) (old - 8) = s.base + s.used := by
    unfold Pages.isLast
    rw [decide_eq_true_eq, wrap_eq _ (by omega), wrap_eq _ (by omega)]
    omega
  generalize ho : rd64 (A.mem s.back) (old - 8) = o at *
  unfold Pages.tempResize at h
  rw [ho] at h
  dsimp only at h
  by_cases h1 : (s.isLast A old && decide (sub64 size o = 0)) = true
  · rw [if_pos h1] at h
    injection h with e1 e2
    subst e1 e2
    rw [Bool.and_eq_true, decide_eq_true_eq] at h1
    have hl := hlast.1 h1.1
    have hz : size = o := by
      have h2 := h1.2
      unfold sub64 at h2
      omega
    exact ⟨fun i _ _ => rfl, Or.inr ⟨rfl, hl, by omega, by omega⟩⟩
  · rw [if_neg h1] at h
    by_cases h2 : (s.isLast A old && s.staysPut (sub64 size o)) = true
    · rw [if_pos h2] at h
      injection h with e1 e2
      subst e1 e2
      rw [Bool.and_eq_true] at h2
      have hl := hlast.1 h2.1
      have hst := h2.2
      unfold Pages.staysPut at hst
      rw [Bool.or_eq_true, decide_eq_true_eq, decide_eq_true_eq] at hst
      rw [sub64_eq s.capacity s.used hu (by omega)] at hst
      refine ⟨fun i hi _ => ?_, Or.inr ⟨rfl, hl, ?_, ?_⟩⟩
      · unfold Pages.resizeLast
        dsimp only
        rw [hm, wr64_ne _ _ _ _ (by omega)]
      · unfold sub64 at hst
        omega
      · show s.base + wrap (s.used + sub64 size o) = old + size
        unfold sub64 wrap at *
        omega
    · rw [if_neg h2] at h
      obtain ⟨p1, p2, p3, p4, p5⟩ := s.place_spec align hb ha.2.2
      generalize hpl : s.place align = pl at *
      unfold Pages.resizeMove at h
      rw [Pages.acquire_room A s size align pl false hpl
        (by rw [sub64_eq _ _ (by omega) (by omega), wrap_eq _ (by omega)]; omega)] at h
      simp only [Res.next, Bool.false_eq_true, if_false, hm] at h
      injection h with e1 e2
      subst e2
      rw [rd64_wr64_ne _ _ _ _ (by omega), ho] at e1
      refine ⟨fun i hi hi2 => ?_, Or.inl ⟨p1, hroom⟩⟩
      rw [← e1]
      dsimp only
      rw [hm, copyMem_at _ _ _ _ _ (by split <;> omega), wr64_ne _ _ _ _ (by omega)]

/-- The pointer that is returned. -/
def Res.ptr {S : Type} : Res S → Option Nat
  | .ok _ p => some p
  | _ => none

/-- A backing allocator: an arena at 4096. -/
def backArena : Arena := Arena.init (fun _ => 0) 4096 65536 true

/-- A temp allocator which is full. -/
def fullTemp : Pages Arena := ⟨backArena, 1024, 64, 64, 32, false⟩

/-- C72 fails: of a temp allocator which is full, a block of 32 bytes aligned to
64 is entirely outside of the page for it. -/
theorem C72_page_too_small :
    (fullTemp.acquire arena 32 false 64).ptr = some 4224 ∧
    (arena.acquire backArena 64 false 64).ptr = some 4160 ∧ ¬ 4224 < 4160 + 64 := by
  decide +kernel

/-- The end of the address space is reached from an arena that is not full. -/
theorem C72_fails : ¬ C72_full := by
  intro h
  -- a backing allocator that has nothing
  let A : Allocator Unit := ⟨fun _ _ => 0, fun s _ => s, fun s _ _ _ => .fault s, fun s _ _ => some s,
    fun s _ _ _ => .fault s⟩
  let s : Pages Unit := ⟨(), 1024, 0, 64, 32, false⟩
  have hal : (Op.acquire (2 ^ 64 - 8) false 0).Allowed [] := ⟨by omega, by omega, Or.inl rfl⟩
  have hpl : s.place 0 = 1040 := by decide
  obtain ⟨s', hs'⟩ := C72_huge A s (2 ^ 64 - 8) 0 false (by decide) hal (by rw [hpl]; decide)
    (by rw [hpl]; decide)
  rcases h Unit A s s' (2 ^ 64 - 8) 0 (s.place 0) false (Or.inl rfl) (by decide) (by decide)
    (by intro n z al b st hh; cases hh) hal hs' with ⟨_, h2⟩ | ⟨n, al, b, st, h2, _⟩
  · rw [hpl] at h2
    exact absurd h2 (by decide)
  · cases h2

/-- An allocation of 100 bytes from an arena with room. -/
example : ((⟨backArena, 1024, 0, 256, 32, false⟩ : Pages Arena).acquire arena 100 true 0).ptr =
    some 1040 := by decide +kernel

/-- A page for 64 bytes aligned to 64. -/
example : (fullTemp.acquire arena 64 false 64).ptr = some 4224 := by decide +kernel

/-- The last block is at 1040, and is asked to be aligned to 64. -/
example : ∃ s', (⟨{ backArena with mem := wr64 (fun _ => 0) 1032 10 }, 1024, 26, 256, 32, false⟩ :
    Pages Arena).tempResize arena 1040 100 64 = .ok s' 1040 := by
  refine C72_resize_alignment _ _ _ _ _ ?_ ?_ ?_ ?_ ?_ <;> decide +kernel

/-- A block of 40 bytes made smaller to 8 bytes. -/
example : ((⟨{ backArena with mem := wr64 (fun _ => 0) 1032 40 }, 1024, 56, 112, 40, true⟩ :
    Pages Arena).backedResize arena 1040 8 0).ptr = some 1088 := by decide +kernel

/-- A block of 10 bytes that is not the last one moves when it grows, one that
is the last does not. -/
example : ((⟨{ backArena with mem := wr64 (fun _ => 7) 1032 10 }, 1024, 64, 256, 32, false⟩ :
      Pages Arena).tempResize arena 1040 100 0).ptr = some 1104 ∧
    ((⟨{ backArena with mem := wr64 (fun _ => 7) 1032 10 }, 1024, 26, 256, 32, false⟩ :
      Pages Arena).tempResize arena 1040 100 0).ptr = some 1040 := by decide +kernel

end C3.StdMem
