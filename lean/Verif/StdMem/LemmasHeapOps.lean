import Verif.StdMem.LemmasHeapAlloc

set_option autoImplicit false

namespace C3.StdMem

/-- Bytes after the header of a chunk in use may be written. -/
theorem HInv.write {s : Heap} {F B : List Chunk} {k : Chunk} (h : HInv s F (k :: B)) (m' : Mem)
    (hm : ∀ x, x < k.h + 16 ∨ k.fin ≤ x → m' x = s.mem x) :
    HInv { s with mem := m' } F (k :: B) ∧ Frame s.mem m' s.own B := by
  have hB := List.pairwise_cons.mp h.lay.sepB
  have hfin : k.fin = k.h + 16 + k.c := rfl
  have hfr : Frame s.mem m' s.own B := by
    constructor
    · intro b hb x h1 h2
      have := hB.1 b hb
      unfold Sep at this
      exact hm x (by omega)
    · intro x hx
      refine hm x ?_
      by_cases h1 : k.h ≤ x
      · by_cases h2 : x < k.fin
        · exact absurd ((h.lay.goodB k List.mem_cons_self).inside x h1 h2) hx
        · omega
      · omega
  refine ⟨⟨h.lay, h.strict, h.cover, ?_, ?_⟩, hfr⟩
  · refine chain_congr s.mem m' F _ _ (fun f hf x h1 h2 => ?_) h.chain
    have := h.lay.sepFB f hf k List.mem_cons_self
    have hf : f.fin = f.h + 16 + f.c := rfl
    unfold Sep at this
    exact hm x (by omega)
  · intro b hb
    rcases List.mem_cons.mp hb with rfl | hb
    · have := h.hdr b List.mem_cons_self
      show sizeOf' m' b.h = _ ∧ nextOf m' b.h = _
      rw [sizeOf_congr s.mem m' _ (fun x h1 h2 => hm x (by omega)),
        nextOf_congr s.mem m' _ (fun x h1 h2 => hm x (by omega))]
      exact this
    · exact hdr_frame hfr (fun k hk => h.hdr k (List.mem_cons_of_mem _ hk)) b hb

theorem Heap.zalloc_spec {s : Heap} {F B : List Chunk} {bytes : Nat} {zero : Bool} (h : HInv s F B)
    (hfn : ProviderOk s.fn) (hb : bytes + 128 < 2 ^ 64) :
    (s.zalloc bytes zero = .fault s ∧ s.fn s.given (16 * ((bytes + 15) / 16) + 16) = none) ∨
    ∃ s' F' k, s.zalloc bytes zero = .ok s' (k.h + 16) ∧ HInv s' F' (k :: B) ∧ bytes ≤ k.c ∧
      Frame s.mem s'.mem s'.own B ∧ s'.fn = s.fn ∧ (∀ x, s.own x → s'.own x) ∧
      (zero = true → ∀ i, i < bytes → s'.mem (k.h + 16 + i) = 0) ∧
      ((∃ f ∈ F, 16 * ((bytes + 15) / 16) ≤ f.c) → s'.given = s.given) := by
  unfold Heap.zalloc
  rcases Heap.alloc_spec h hfn hb with ⟨ha, hno, _⟩ | ⟨s', F', k, ha, i1, i2, i3, i4, i5, i6⟩
  · rw [ha]
    exact Or.inl ⟨rfl, hno⟩
  · rw [ha]
    right
    cases zero with
    | false => exact ⟨s', F', k, rfl, i1, i2, i3, i4, i5, by simp, i6⟩
    | true =>
      have hfin : k.fin = k.h + 16 + k.c := rfl
      obtain ⟨j1, j2⟩ := i1.write (clearMem s'.mem (k.h + 16) bytes)
        (fun x hx => clearMem_ne _ _ _ _ (by omega))
      exact ⟨_, F', k, rfl, j1, i2, i3.trans j2, i4, i5,
        fun _ i hi => clearMem_at _ _ _ _ (by omega) (by omega), i6⟩

/-- The alignment `@aligned_alloc` uses. -/
theorem alignMin_spec (a : Nat) (h : AlignOk a) (h0 : 0 < a) :
    ∃ k, 3 ≤ k ∧ k ≤ 28 ∧ (if a < 8 then 8 else a) = 2 ^ k ∧ a ∣ 2 ^ k := by
  rcases h with h | ⟨k, hk, h⟩
  · omega
  · subst h
    by_cases hk3 : k < 3
    · refine ⟨3, by omega, by omega, ?_, Nat.pow_dvd_pow 2 (by omega)⟩
      have : (2 : Nat) ^ k < 2 ^ 3 := Nat.pow_lt_pow_right (by omega) hk3
      rw [if_pos (by omega)]
    · refine ⟨k, by omega, hk, ?_, Nat.dvd_refl _⟩
      have : (2 : Nat) ^ 3 ≤ 2 ^ k := Nat.pow_le_pow_right (by omega) (by omega)
      rw [if_neg (by omega)]

theorem Heap.alignedAlloc_spec {s : Heap} {F B : List Chunk} {bytes align : Nat} {zero : Bool}
    (h : HInv s F B) (hfn : ProviderOk s.fn) (hb : bytes + 2 ^ 29 < 2 ^ 64) (hal : AlignOk align)
    (h0 : 0 < align) :
    s.alignedAlloc bytes align zero = .fault s ∨
    ∃ s' F' k p, s.alignedAlloc bytes align zero = .ok s' p ∧ HInv s' F' (k :: B) ∧
      k.h + 32 ≤ p ∧ p + bytes ≤ k.fin ∧ 16 ∣ p ∧ align ∣ p ∧ rd64 s'.mem (p - 8) = k.h + 16 ∧
      rd64 s'.mem (p - 16) = bytes ∧
      Frame s.mem s'.mem s'.own B ∧ s'.fn = s.fn ∧ (∀ x, s.own x → s'.own x) ∧
      (zero = true → ∀ i, i < bytes → s'.mem (p + i) = 0) := by
  obtain ⟨e, he3, he28, hea, hed⟩ := alignMin_spec align hal h0
  have hp28 : (2 : Nat) ^ e ≤ 2 ^ 28 := Nat.pow_le_pow_right (by omega) he28
  have hp3 : (2 : Nat) ^ 3 ≤ 2 ^ e := Nat.pow_le_pow_right (by omega) he3
  unfold Heap.alignedAlloc
  simp only [hea]
  rw [wrap_eq (bytes + (16 + 2 ^ e)) (by omega)]
  rcases Heap.zalloc_spec (bytes := bytes + (16 + 2 ^ e)) (zero := zero) h hfn (by omega) with
    ⟨ha, _⟩ | ⟨s', F', k, ha, i1, i2, i3, i4, i5, i6, _⟩
  · rw [ha]
    exact Or.inl rfl
  · rw [ha]
    right
    have gk := i1.lay.goodB k List.mem_cons_self
    have hfin : k.fin = k.h + 16 + k.c := rfl
    have hlt := gk.lt
    have h16 := gk.al
    simp only []
    rw [wrap_eq (k.h + 16 + 16) (by omega)]
    obtain ⟨a1, a2, a3⟩ := alignedOffset_spec (k.h + 16 + 16) e he28 (by omega)
    have hp16 : 16 ∣ alignedOffset (k.h + 16 + 16) (2 ^ e) := by
      by_cases h3 : e = 3
      · subst h3
        generalize alignedOffset (k.h + 16 + 16) (2 ^ 3) = p at *
        omega
      · have : (2 : Nat) ^ 4 ∣ 2 ^ e := Nat.pow_dvd_pow 2 (by omega)
        exact Nat.dvd_trans this a3
    generalize alignedOffset (k.h + 16 + 16) (2 ^ e) = p at *
    rw [if_neg (by omega)]
    have hm : ∀ x, x < p - 16 ∨ p ≤ x →
        wr64 (wr64 s'.mem (p - 16) bytes) (p - 8) (k.h + 16) x = s'.mem x := by
      intro x hx
      rw [wr64_ne _ _ _ _ (by omega), wr64_ne _ _ _ _ (by omega)]
    obtain ⟨j1, j2⟩ := i1.write _ (fun x hx => hm x (by omega))
    refine ⟨_, F', k, p, rfl, j1, by omega, by omega, hp16, Nat.dvd_trans hed a3, ?_, ?_,
      i3.trans j2, i4, i5, ?_⟩
    · exact rd64_wr64 _ _ _ (by omega)
    · show rd64 (wr64 _ _ _) _ = _
      rw [rd64_wr64_ne _ _ _ _ (by omega), rd64_wr64 _ _ _ (by omega)]
    · intro hz i hi
      show wr64 _ _ _ _ = _
      rw [hm _ (by omega)]
      have := i6 hz (p - (k.h + 16) + i) (by omega)
      rw [show k.h + 16 + (p - (k.h + 16) + i) = p + i by omega] at this
      exact this

/-- Where the chunk of a block starts, after its header. -/
def startOf (m : Mem) (b : Block) : Nat := if b.align = 0 then b.addr else rd64 m (b.addr - 8)

/-- The chunk of a block. -/
def chunkOf (m : Mem) (b : Block) : Chunk :=
  ⟨startOf m b - 16, sizeOf' m (startOf m b - 16)⟩

/-- What holds of a block and its chunk. -/
structure LiveOk (m : Mem) (b : Block) : Prop where
  st : 16 ≤ startOf m b
  desc : b.align ≠ 0 → startOf m b + 16 ≤ b.addr ∧ rd64 m (b.addr - 16) = b.size
  hi : b.addr + b.size ≤ (chunkOf m b).fin
  pos : 0 < b.size
  al : 16 ∣ b.addr ∧ (b.align = 0 ∨ b.align ∣ b.addr)

theorem LiveOk.start_le {m : Mem} {b : Block} (h : LiveOk m b) : startOf m b ≤ b.addr := by
  by_cases ha : b.align = 0
  · unfold startOf
    rw [if_pos ha]
    exact Nat.le_refl _
  · have := (h.desc ha).1
    omega

theorem LiveOk.lo {m : Mem} {b : Block} (h : LiveOk m b) : (chunkOf m b).h + 16 ≤ b.addr := by
  have := h.start_le
  have := h.st
  show startOf m b - 16 + 16 ≤ b.addr
  omega

theorem LiveOk.frame {m m' : Mem} {b : Block} (h : LiveOk m b)
    (hm : ∀ x, (chunkOf m b).h ≤ x → x < (chunkOf m b).fin →
      ¬ (b.addr ≤ x ∧ x < b.addr + b.size) → m' x = m x) :
    startOf m' b = startOf m b ∧ chunkOf m' b = chunkOf m b ∧ LiveOk m' b := by
  have hst := h.st
  have hlo := h.lo
  have hhi := h.hi
  have hh : (chunkOf m b).h = startOf m b - 16 := rfl
  have hs : startOf m' b = startOf m b := by
    unfold startOf
    by_cases ha : b.align = 0
    · rw [if_pos ha, if_pos ha]
    · rw [if_neg ha, if_neg ha]
      have := (h.desc ha).1
      exact rd64_congr _ _ _ fun i hi => hm _ (by omega) (by omega) (by omega)
  have hc : chunkOf m' b = chunkOf m b := by
    unfold chunkOf
    rw [hs]
    congr 1
    exact sizeOf_congr _ _ _ fun x h1 h2 => hm x (by omega) (by omega) (by omega)
  refine ⟨hs, hc, ⟨by rw [hs]; exact hst, ?_, by rw [hc]; exact hhi, h.pos, h.al⟩⟩
  intro ha
  have hd := h.desc ha
  refine ⟨by rw [hs]; exact hd.1, ?_⟩
  rw [rd64_congr m' m _ (fun i hi => hm _ (by omega) (by omega) (by omega))]
  exact hd.2

/-- What holds of a heap and the blocks of the program. -/
structure Heap.Inv (s : Heap) (live : List Block) : Prop where
  inv : ∃ F, HInv s F (live.map (chunkOf s.mem))
  ok : ∀ b ∈ live, LiveOk s.mem b
  fn : ProviderOk s.fn

theorem map_chunk_frame {m m' : Mem} {own : Nat → Prop} {live : List Block}
    (hok : ∀ b ∈ live, LiveOk m b) (hf : Frame m m' own (live.map (chunkOf m))) :
    live.map (chunkOf m') = live.map (chunkOf m) ∧ (∀ b ∈ live, LiveOk m' b) ∧
      ∀ b ∈ live, ∀ x, b.addr ≤ x → x < b.addr + b.size → m' x = m x := by
  have key : ∀ b ∈ live, ∀ x, (chunkOf m b).h ≤ x → x < (chunkOf m b).fin → m' x = m x :=
    fun b hb x h1 h2 => hf.1 (chunkOf m b) (List.mem_map_of_mem hb) x h1 h2
  refine ⟨?_, ?_, ?_⟩
  · exact List.map_congr_left fun b hb => ((hok b hb).frame fun x h1 h2 _ => key b hb x h1 h2).2.1
  · exact fun b hb => ((hok b hb).frame fun x h1 h2 _ => key b hb x h1 h2).2.2
  · intro b hb x h1 h2
    have := (hok b hb).lo
    have := (hok b hb).hi
    exact key b hb x (by omega) (by omega)

theorem perm_without (live : List Block) (b : Block)
    (hp : live.Pairwise (fun a b => a.addr ≠ b.addr)) (hb : b ∈ live) :
    live.Perm (b :: without live b.addr) := by
  induction live with
  | nil => simp at hb
  | cons c L ih =>
    have hp := List.pairwise_cons.mp hp
    rcases List.mem_cons.mp hb with rfl | hb'
    · have : without (b :: L) b.addr = L := by
        unfold without
        rw [List.filter_cons_of_neg (by simp)]
        exact List.filter_eq_self.mpr fun c hc => by simp [Ne.symm (hp.1 c hc)]
      rw [this]
    · have : without (c :: L) b.addr = c :: without L b.addr := by
        unfold without
        rw [List.filter_cons_of_pos (by simp [hp.1 b hb'])]
      rw [this]
      exact ((ih hp.2 hb').cons c).trans (List.Perm.swap b c _)

theorem Heap.Inv.addr_ne {s : Heap} {live : List Block} (h : s.Inv live) :
    live.Pairwise (fun a b => a.addr ≠ b.addr) := by
  obtain ⟨F, hF⟩ := h.inv
  have hs := List.pairwise_map.mp hF.lay.sepB
  refine hs.imp_of_mem ?_
  intro a b ha hb hab he
  have a1 := (h.ok a ha).lo
  have a2 := (h.ok a ha).hi
  have a3 := (h.ok a ha).pos
  have b1 := (h.ok b hb).lo
  have b2 := (h.ok b hb).hi
  have b3 := (h.ok b hb).pos
  unfold Sep at hab
  omega

theorem Heap.Inv.take {s : Heap} {live : List Block} (h : s.Inv live) {b : Block} (hb : b ∈ live) :
    ∃ F, HInv s F (chunkOf s.mem b :: (without live b.addr).map (chunkOf s.mem)) := by
  obtain ⟨F, hF⟩ := h.inv
  exact ⟨F, hF.perm ((perm_without live b h.addr_ne hb).map (chunkOf s.mem))⟩

/-- A new block in a new chunk. -/
theorem Heap.Inv.push {s s' : Heap} {live : List Block} {F : List Chunk} {k : Chunk} {b : Block}
    (hok : ∀ c ∈ live, LiveOk s.mem c) (hfn : ProviderOk s'.fn)
    (hi : HInv s' F (k :: live.map (chunkOf s.mem)))
    (hf : Frame s.mem s'.mem s'.own (live.map (chunkOf s.mem)))
    (hk : chunkOf s'.mem b = k) (hb : LiveOk s'.mem b) :
    s'.Inv (b :: live) ∧ ∀ c ∈ live, ∀ x, c.addr ≤ x → x < c.addr + c.size → s'.mem x = s.mem x := by
  obtain ⟨m1, m2, m3⟩ := map_chunk_frame hok hf
  refine ⟨⟨⟨F, ?_⟩, ?_, hfn⟩, m3⟩
  · rw [List.map_cons, hk, m1]
    exact hi
  · intro c hc
    rcases List.mem_cons.mp hc with rfl | hc
    · exact hb
    · exact m2 c hc

theorem liveOk_plain {s : Heap} {F B : List Chunk} {k : Chunk} {size : Nat} (hi : HInv s F (k :: B))
    (hs : 0 < size) (hk : size ≤ k.c) :
    chunkOf s.mem ⟨k.h + 16, size, 0⟩ = k ∧ LiveOk s.mem ⟨k.h + 16, size, 0⟩ := by
  have gk := hi.lay.goodB k List.mem_cons_self
  have hst : startOf s.mem ⟨k.h + 16, size, 0⟩ = k.h + 16 := rfl
  have hc : chunkOf s.mem ⟨k.h + 16, size, 0⟩ = k := by
    unfold chunkOf
    rw [hst, Nat.add_sub_cancel, (hi.hdr k List.mem_cons_self).1]
  refine ⟨hc, ⟨by rw [hst]; omega, fun h => absurd rfl h, ?_, hs, ?_, Or.inl rfl⟩⟩
  · rw [hc]
    show k.h + 16 + size ≤ k.h + 16 + k.c
    omega
  · have := gk.al
    show 16 ∣ k.h + 16
    omega

theorem liveOk_aligned {s : Heap} {F B : List Chunk} {k : Chunk} {p size align : Nat}
    (hi : HInv s F (k :: B)) (hs : 0 < size) (h0 : 0 < align) (h1 : k.h + 32 ≤ p)
    (h2 : p + size ≤ k.fin) (h16 : 16 ∣ p) (hal : align ∣ p) (hd : rd64 s.mem (p - 8) = k.h + 16)
    (hl : rd64 s.mem (p - 16) = size) :
    chunkOf s.mem ⟨p, size, align⟩ = k ∧ LiveOk s.mem ⟨p, size, align⟩ := by
  have hst : startOf s.mem ⟨p, size, align⟩ = k.h + 16 := by
    unfold startOf
    rw [if_neg (by show ¬ align = 0; omega)]
    exact hd
  have hc : chunkOf s.mem ⟨p, size, align⟩ = k := by
    unfold chunkOf
    rw [hst, Nat.add_sub_cancel, (hi.hdr k List.mem_cons_self).1]
  refine ⟨hc, ⟨by rw [hst]; omega, fun _ => ⟨by rw [hst]; show k.h + 16 + 16 ≤ p; omega, hl⟩, ?_, hs,
    h16, Or.inr hal⟩⟩
  rw [hc]
  exact h2

/-- What a successful call leaves. -/
structure HeapKeeps (s s' : Heap) (live : List Block) : Prop where
  others : ∀ c ∈ live, ∀ x, c.addr ≤ x → x < c.addr + c.size → s'.mem x = s.mem x
  outside : ∀ x, ¬ s'.own x → s'.mem x = s.mem x
  own : ∀ x, s.own x → s'.own x

theorem Heap.acquire_spec {s : Heap} {live : List Block} {size align : Nat} {zero : Bool}
    (h : s.Inv live) (hs : 0 < size) (hsz : size + 2 ^ 29 < 2 ^ 64) (hal : AlignOk align) :
    s.acquire size zero align = .fault s ∨
    ∃ s' p, s.acquire size zero align = .ok s' p ∧ s'.Inv (⟨p, size, align⟩ :: live) ∧
      HeapKeeps s s' live ∧ (zero = true → ∀ i, i < size → s'.mem (p + i) = 0) := by
  obtain ⟨F, hF⟩ := h.inv
  unfold Heap.acquire
  by_cases h0 : 0 < align
  · rw [if_pos h0]
    rcases Heap.alignedAlloc_spec (zero := zero) hF h.fn hsz hal h0 with
      ha | ⟨s', F', k, p, ha, i1, i2, i3, i4, i5, i6, i7, i8, i9, i10, i11⟩
    · exact Or.inl ha
    · right
      obtain ⟨j1, j2⟩ := liveOk_aligned i1 hs h0 i2 i3 i4 i5 i6 i7
      obtain ⟨k1, k2⟩ := Heap.Inv.push h.ok (by rw [i9]; exact h.fn) i1 i8 j1 j2
      exact ⟨s', p, ha, k1, ⟨k2, i8.2, i10⟩, i11⟩
  · rw [if_neg h0]
    have hz : align = 0 := by omega
    subst hz
    rcases Heap.zalloc_spec (zero := zero) hF h.fn (bytes := size) (by omega) with
      ⟨ha, _⟩ | ⟨s', F', k, ha, i1, i2, i3, i4, i5, i6, _⟩
    · exact Or.inl ha
    · right
      obtain ⟨j1, j2⟩ := liveOk_plain i1 hs i2
      obtain ⟨k1, k2⟩ := Heap.Inv.push h.ok (by rw [i4]; exact h.fn) i1 i3 j1 j2
      exact ⟨s', k.h + 16, ha, k1, ⟨k2, i3.2, i5⟩, i6⟩

theorem own_congr {s s' : Heap} (h : s'.given = s.given) : s'.own = s.own := by
  funext x
  unfold Heap.own
  rw [h]

theorem Heap.release_spec {s : Heap} {live : List Block} {b : Block} (h : s.Inv live) (hb : b ∈ live) :
    ∃ s', s.free (startOf s.mem b) = some s' ∧ s'.Inv (without live b.addr) ∧
      HeapKeeps s s' (without live b.addr) := by
  obtain ⟨F, hF⟩ := h.take hb
  obtain ⟨s', F', hfree, i1, _, i2, i3, i4⟩ := Heap.free_spec hF
  have hst := (h.ok b hb).st
  have hkh : (chunkOf s.mem b).h + 16 = startOf s.mem b := by
    show startOf s.mem b - 16 + 16 = _
    omega
  rw [hkh] at hfree
  have hok : ∀ c ∈ without live b.addr, LiveOk s.mem c :=
    fun c hc => h.ok c ((mem_without _ _ _).mp hc).1
  obtain ⟨m1, m2, m3⟩ := map_chunk_frame hok i2
  refine ⟨s', hfree, ⟨⟨F', by rw [m1]; exact i1⟩, m2, by rw [i3]; exact h.fn⟩, m3, ?_, ?_⟩
  · rw [own_congr i4]
    exact i2.2
  · rw [own_congr i4]
    exact fun _ h => h

theorem Heap.resize_spec {s : Heap} {live : List Block} {b : Block} {size align : Nat}
    (h : s.Inv live) (hb : b ∈ live) (hs : 0 < size) (hsz : size + 2 ^ 29 < 2 ^ 64)
    (hal : AlignOk align) (hkind : 0 < align ↔ 0 < b.align) :
    s.resize b.addr size align = .fault s ∨
    ∃ s' p, s.resize b.addr size align = .ok s' p ∧
      s'.Inv (⟨p, size, align⟩ :: without live b.addr) ∧ HeapKeeps s s' (without live b.addr) ∧
      ∀ i, i < min b.size size → s'.mem (p + i) = s.mem (b.addr + i) := by
  obtain ⟨F, hF⟩ := h.take hb
  have hbo := h.ok b hb
  have hok : ∀ c ∈ without live b.addr, LiveOk s.mem c :=
    fun c hc => h.ok c ((mem_without _ _ _).mp hc).1
  have hst := hbo.st
  have hlo := hbo.lo
  have hhi := hbo.hi
  have hfinb : (chunkOf s.mem b).fin = (chunkOf s.mem b).h + 16 + (chunkOf s.mem b).c := rfl
  have hkh : (chunkOf s.mem b).h + 16 = startOf s.mem b := by
    show startOf s.mem b - 16 + 16 = _
    omega
  -- the last part of both ways: free the old chunk
  have finish : ∀ (s1 : Heap) (F1 : List Chunk) (k : Chunk) (p n : Nat),
      HInv s1 F1 (k :: chunkOf s.mem b :: (without live b.addr).map (chunkOf s.mem)) →
      Frame s.mem s1.mem s1.own (chunkOf s.mem b :: (without live b.addr).map (chunkOf s.mem)) →
      s1.fn = s.fn → (∀ x, s.own x → s1.own x) → k.h + 16 ≤ p → p + n ≤ k.fin →
      min b.size size ≤ n → b.addr + n ≤ (chunkOf s.mem b).fin →
      (∀ s2 F2 B2, HInv s2 F2 (k :: B2) →
        (∀ x, k.h ≤ x → x < k.fin → x < p ∨ p + n ≤ x → s2.mem x = s1.mem x) →
        chunkOf s2.mem ⟨p, size, align⟩ = k ∧ LiveOk s2.mem ⟨p, size, align⟩) →
      ∃ s', Heap.free { s1 with mem := copyMem s1.mem p b.addr n } (startOf s.mem b) = some s' ∧
        s'.Inv (⟨p, size, align⟩ :: without live b.addr) ∧ HeapKeeps s s' (without live b.addr) ∧
        ∀ i, i < min b.size size → s'.mem (p + i) = s.mem (b.addr + i) := by
    intro s1 F1 k p n i1 i2 i3 i4 i5 i6 i7 i8 hfin
    obtain ⟨j1, j2⟩ := i1.write (copyMem s1.mem p b.addr n)
      (fun x hx => copyMem_ne _ _ _ _ _ (by omega))
    have j3 := j1.perm (List.Perm.swap (chunkOf s.mem b) k _)
    obtain ⟨s', F', hfree, l1, _, l2, l3, l4⟩ := Heap.free_spec j3
    rw [hkh] at hfree
    have hown : s'.own = s1.own := own_congr l4
    have hfr : Frame s.mem s'.mem s'.own ((without live b.addr).map (chunkOf s.mem)) := by
      rw [hown]
      refine Frame.trans (m' := s1.mem) (i2.mono (fun _ h => h) fun k hk => List.mem_cons_of_mem _ hk) ?_
      refine Frame.trans (m' := copyMem s1.mem p b.addr n)
        (j2.mono (fun _ h => h) fun k hk => List.mem_cons_of_mem _ hk) ?_
      exact l2.mono (fun _ h => h) fun k hk => List.mem_cons_of_mem _ hk
    have hkmem : ∀ x, k.h ≤ x → x < k.fin → s'.mem x = copyMem s1.mem p b.addr n x :=
      fun x h1 h2 => l2.1 k List.mem_cons_self x h1 h2
    obtain ⟨c1, c2⟩ := hfin s' F' _ l1 (fun x h1 h2 h3 => by
      rw [hkmem x h1 h2]
      exact copyMem_ne _ _ _ _ _ (by omega))
    obtain ⟨d1, d2⟩ := Heap.Inv.push hok (by rw [l3]; show ProviderOk s1.fn; rw [i3]; exact h.fn)
      l1 hfr c1 c2
    refine ⟨s', hfree, d1, ⟨d2, hfr.2, by rw [hown]; exact i4⟩, ?_⟩
    intro i hi
    rw [hkmem _ (by omega) (by omega), copyMem_at _ _ _ _ _ (by omega)]
    exact i2.1 _ List.mem_cons_self _ (by omega) (by omega)
  unfold Heap.resize
  by_cases h0 : 0 < align
  · rw [if_pos h0]
    have hb0 : b.align ≠ 0 := by have := hkind.mp h0; omega
    have hd := hbo.desc hb0
    unfold Heap.alignedRealloc
    have hstart : rd64 s.mem (b.addr - 8) = startOf s.mem b := by
      unfold startOf
      rw [if_neg hb0]
    simp only [hstart]
    rcases Heap.alignedAlloc_spec (zero := true) hF h.fn hsz hal h0 with
      ha | ⟨s1, F1, k, p, ha, i1, i2, i3, i4, i5, i6, i7, i8, i9, i10, i11⟩
    · left
      rw [ha]
    · right
      rw [ha]
      simp only []
      have hlen : rd64 s1.mem (b.addr - 16) = b.size := by
        rw [rd64_congr s1.mem s.mem _ (fun i hi =>
          i8.1 _ List.mem_cons_self _ (by omega) (by omega))]
        exact hd.2
      rw [hlen]
      have hn : (if b.size < size then b.size else size) = min b.size size := by
        split <;> omega
      rw [hn]
      obtain ⟨s', e1, e2⟩ := finish s1 F1 k p (min b.size size) i1 i8 i9 i10 (by omega) (by omega)
        (Nat.le_refl _) (by omega) (fun s2 F2 B2 g1 g2 => by
          refine liveOk_aligned g1 hs h0 i2 i3 i4 i5 ?_ ?_
          · rw [rd64_congr s2.mem s1.mem _ (fun i hi => g2 _ (by omega) (by omega) (by omega))]
            exact i6
          · rw [rd64_congr s2.mem s1.mem _ (fun i hi => g2 _ (by omega) (by omega) (by omega))]
            exact i7)
      rw [e1]
      exact ⟨s', p, rfl, e2⟩
  · rw [if_neg h0]
    have hz : align = 0 := by omega
    have hb0 : b.align = 0 := by
      by_cases hb0 : b.align = 0
      · exact hb0
      · exact absurd (hkind.mpr (by omega)) h0
    have hsb : startOf s.mem b = b.addr := by
      unfold startOf
      rw [if_pos hb0]
    subst hz
    unfold Heap.realloc
    simp only []
    have hbh : b.addr - headerSize = (chunkOf s.mem b).h := by
      show _ = startOf s.mem b - 16
      rw [hsb]
      rfl
    rw [hbh]
    have hcap : sizeOf' s.mem (chunkOf s.mem b).h = (chunkOf s.mem b).c := rfl
    rw [hcap]
    by_cases hle : size ≤ (chunkOf s.mem b).c
    · rw [if_pos hle]
      right
      obtain ⟨c1, c2⟩ := liveOk_plain hF hs hle
      rw [hkh, hsb] at c1 c2
      obtain ⟨d1, d2⟩ := Heap.Inv.push (s' := s) hok h.fn hF (Frame.refl _ _ _) c1 c2
      exact ⟨s, b.addr, rfl, d1, ⟨d2, fun _ _ => rfl, fun _ h => h⟩, fun _ _ => rfl⟩
    · rw [if_neg hle]
      rcases Heap.alloc_spec hF h.fn (bytes := size) (by omega) with
        ⟨ha, _⟩ | ⟨s1, F1, k, ha, i1, i2, i3, i4, i5, _⟩
      · left
        rw [ha]
        rfl
      · right
        rw [ha]
        simp only [outcome]
        have hc1 : sizeOf' s1.mem (chunkOf s.mem b).h = (chunkOf s.mem b).c :=
          (i1.hdr _ (List.mem_cons_of_mem _ List.mem_cons_self)).1
        rw [hc1]
        have hfk : k.fin = k.h + 16 + k.c := rfl
        obtain ⟨s', e1, e2⟩ := finish s1 F1 k (k.h + 16) (min (chunkOf s.mem b).c size) i1 i3 i4 i5
          (Nat.le_refl _) (by omega) (by omega) (by omega) (fun s2 F2 B2 g1 g2 => by
            exact liveOk_plain g1 hs i2)
        rw [hsb] at e1
        rw [e1]
        exact ⟨s', k.h + 16, rfl, e2⟩

/-- The sizes of requests are at most `isz.max`. -/
def NotHuge {S : Type} (_ : World S) : Op → Prop
  | .acquire size _ _ => size < 2 ^ 63
  | .resize _ size _ => size < 2 ^ 63
  | _ => True

theorem Heap.Inv.sound {s : Heap} {live : List Block} (h : s.Inv live) : Sound s.own live := by
  obtain ⟨F, hF⟩ := h.inv
  refine ⟨?_, fun b hb => (h.ok b hb).al, ?_⟩
  · intro b hb x h1 h2
    have := (h.ok b hb).lo
    have := (h.ok b hb).hi
    exact (hF.lay.goodB _ (List.mem_map_of_mem hb)).inside x (by omega) (by omega)
  · refine (List.pairwise_map.mp hF.lay.sepB).imp_of_mem ?_
    intro a b ha hb hab
    have a1 := (h.ok a ha).lo
    have a2 := (h.ok a ha).hi
    have b1 := (h.ok b hb).lo
    have b2 := (h.ok b hb).hi
    rcases hab with hab | hab
    · exact Or.inl (by omega)
    · exact Or.inr (by omega)

theorem Heap.Inv.unique {s : Heap} {live : List Block} (h : s.Inv live) {b c : Block}
    (hb : b ∈ live) (hc : c ∈ live) (he : c.addr = b.addr) : c = b := by
  have hp := perm_without live b h.addr_ne hb
  rcases List.mem_cons.mp (hp.mem_iff.mp hc) with e | e
  · exact e
  · exact absurd he ((mem_without _ _ _).mp e).2

theorem Heap.step_spec {w : World Heap} {op : Op} (h : w.st.Inv w.live)
    (ha : op.Allowed w.live) (hok : NotHuge w op) :
    ∃ w', step heap w op = some w' ∧ w'.st.Inv w'.live ∧ Keeps heap w'.st.own w w' op ∧
      ∀ x, w.st.own x → w'.st.own x := by
  obtain ⟨s, live⟩ := w
  simp only [] at h ha
  cases op with
  | acquire size zero align =>
    obtain ⟨a1, a2, a3⟩ := ha
    simp only [step, heap]
    rcases Heap.acquire_spec (zero := zero) h a1 (by have : size < 2 ^ 63 := hok; omega) a3 with hacq | ⟨s', p, hacq, i1, i2, i3⟩
    · rw [hacq]
      refine ⟨_, rfl, h, ⟨fun _ _ _ _ => rfl, ?_, ?_, ?_, fun _ _ _ => rfl⟩, fun _ h => h⟩
      · intro _ _ e; cases e
      · intro _ _ _ e; cases e
      · intro size' align' e s' p' hacq'
        cases e
        have e2 : Res.ok s' p' = Res.fault s := by rw [← hacq, ← hacq']
        simp at e2
    · rw [hacq]
      refine ⟨_, rfl, i1, ⟨?_, ?_, ?_, ?_, fun _ x hx => i2.outside x hx⟩, i2.own⟩
      · intro b hb _ _
        exact (bytes_eq_iff _ _ _ _ _).mpr fun i hi => i2.others b hb _ (by omega) (by omega)
      · intro _ _ e; cases e
      · intro _ _ _ e; cases e
      · intro size' align' e s1 p1 hacq'
        cases e
        have e2 : Res.ok s1 p1 = Res.ok s' p := by rw [← hacq, ← hacq']
        injection e2 with e2 e3
        subst e2 e3
        exact (bytes_zero_iff _ _ _).mpr (i3 rfl)
  | release ptr al =>
    obtain ⟨b, hb, hp, hal⟩ := ha
    subst hp
    obtain ⟨s', hfree, i1, i2⟩ := Heap.release_spec h hb
    have hrel : s.release b.addr al = some s' := by
      unfold Heap.release
      unfold startOf at hfree
      by_cases hz : b.align = 0
      · rw [if_pos hz] at hfree
        have : al ≠ true := fun e => by have := hal.mp e; omega
        rw [if_neg this]
        exact hfree
      · rw [if_neg hz] at hfree
        rw [if_pos (hal.mpr (by omega))]
        exact hfree
    simp only [step, heap, hrel]
    refine ⟨_, rfl, i1, ⟨?_, ?_, ?_, ?_, fun _ x hx => i2.outside x hx⟩, i2.own⟩
    · intro c _ hc _
      exact (bytes_eq_iff _ _ _ _ _).mpr fun i hi => i2.others c hc _ (by omega) (by omega)
    · intro _ _ e; cases e
    · intro _ _ _ e; cases e
    · intro _ _ e; cases e
  | resize ptr size align =>
    obtain ⟨⟨b, hb, hp, hkind⟩, a1, a2, a3⟩ := ha
    subst hp
    simp only [step, heap]
    rcases Heap.resize_spec h hb a1 (by have : size < 2 ^ 63 := hok; omega) a3 hkind with hrz | ⟨s', p, hrz, i1, i2, i3⟩
    · rw [hrz]
      refine ⟨_, rfl, h, ⟨fun _ _ _ _ => rfl, ?_, ?_, ?_, fun _ _ _ => rfl⟩, fun _ h => h⟩
      · intro _ _ e; cases e
      · intro ptr' size' align' e s1 p1 hrz'
        cases e
        have e2 : Res.ok s1 p1 = Res.fault s := by rw [← hrz, ← hrz']
        simp at e2
      · intro _ _ e; cases e
    · rw [hrz]
      refine ⟨_, rfl, i1, ⟨?_, ?_, ?_, ?_, fun _ x hx => i2.outside x hx⟩, i2.own⟩
      · intro c hc hc' _
        refine (bytes_eq_iff _ _ _ _ _).mpr fun i hi => ?_
        by_cases hne : c.addr = b.addr
        · have hcb := h.unique hb hc hne
          subst hcb
          rcases List.mem_cons.mp hc' with e | e
          · have e1 : c.addr = p := by rw [e]
            have e2 : c.size = size := by rw [e]
            have := i3 i (by omega)
            rw [← e1] at this
            exact this
          · exact absurd rfl ((mem_without _ _ _).mp e).2
        · exact i2.others c ((mem_without _ _ _).mpr ⟨hc, hne⟩) _ (by omega) (by omega)
      · intro _ _ e; cases e
      · intro ptr' size' align' e s1 p1 hrz' c hc hcp
        cases e
        have e2 : Res.ok s1 p1 = Res.ok s' p := by rw [← hrz, ← hrz']
        injection e2 with e2 e3
        subst e2 e3
        have hcb := h.unique hb hc hcp
        subst hcb
        exact (bytes_eq_iff _ _ _ _ _).mpr i3
      · intro _ _ e; cases e
  | write addr v =>
    obtain ⟨b, hb, h1, h2⟩ := ha
    have hbo := h.ok b hb
    have hlo := hbo.lo
    have hhi := hbo.hi
    obtain ⟨F, hF⟩ := h.take hb
    obtain ⟨j1, j2⟩ := hF.write (setByte s.mem addr v)
      (fun x hx => setByte_ne _ _ _ _ (by omega))
    have hok' : ∀ c ∈ without live b.addr, LiveOk s.mem c :=
      fun c hc => h.ok c ((mem_without _ _ _).mp hc).1
    obtain ⟨m1, m2, m3⟩ := map_chunk_frame hok' j2
    obtain ⟨f1, f2, f3⟩ := hbo.frame (m' := setByte s.mem addr v)
      (fun x _ _ hx => setByte_ne _ _ _ _ fun e => hx (by omega))
    have hperm := perm_without live b h.addr_ne hb
    simp only [step, heap]
    refine ⟨_, rfl, ⟨⟨F, ?_⟩, ?_, h.fn⟩, ⟨?_, ?_, ?_, ?_, ?_⟩, fun _ h => h⟩
    · refine HInv.perm ?_ (hperm.map (chunkOf (setByte s.mem addr v))).symm
      rw [List.map_cons, f2, m1]
      exact j1
    · intro c hc
      rcases List.mem_cons.mp (hperm.mem_iff.mp hc) with rfl | hc
      · exact f3
      · exact m2 c hc
    · intro _ _ _ e; exact absurd rfl (e _ _)
    · intro _ _ e; cases e; rfl
    · intro _ _ _ e; cases e
    · intro _ _ e; cases e
    · intro e; exact absurd rfl (e _ _)

/-- A region given to the heap is in one free chunk if nothing is in use. -/
theorem HInv.region {s : Heap} {F : List Chunk} (h : HInv s F []) {g : Nat × Nat}
    (hg : g ∈ s.given) (hl : 0 < g.2) : ∃ k ∈ F, k.h ≤ g.1 ∧ g.1 + g.2 ≤ k.fin := by
  have hin : ∀ x, g.1 ≤ x → x < g.1 + g.2 → In x F := by
    intro x h1 h2
    rcases h.cover x ⟨g, hg, h1, h2⟩ with hx | ⟨k, hk, _⟩
    · exact hx
    · simp at hk
  obtain ⟨k, hk, h1, h2⟩ := hin g.1 (by omega) (by omega)
  refine ⟨k, hk, h1, ?_⟩
  refine Nat.le_of_not_lt fun hlt => ?_
  obtain ⟨k', hk', h3, h4⟩ := hin k.fin (by omega) hlt
  have hkf : k.h ≤ k.fin := by unfold Chunk.fin; omega
  have hord : ∀ (L : List Chunk), L.Pairwise (fun a b => a.fin < b.h) → k ∈ L → k' ∈ L →
      k = k' ∨ k.fin < k'.h ∨ k'.fin < k.h := by
    intro L hL
    induction L with
    | nil => intro e; simp at e
    | cons f L ih =>
      obtain ⟨p1, p2⟩ := List.pairwise_cons.mp hL
      intro e1 e2
      rcases List.mem_cons.mp e1 with e1 | e1 <;> rcases List.mem_cons.mp e2 with e2 | e2
      · exact Or.inl (e1.trans e2.symm)
      · exact Or.inr (Or.inl (by rw [e1]; exact p1 _ e2))
      · exact Or.inr (Or.inr (by rw [e2]; exact p1 _ e1))
      · exact ih p2 e1 e2
  rcases hord F h.strict hk hk' with e | e | e
  · rw [← e] at h4; omega
  · omega
  · omega

theorem Heap.init_inv (mem : Mem) (fn : List (Nat × Nat) → Nat → Option (Nat × Nat))
    (h : ProviderOk fn) : (Heap.init mem fn).Inv [] := by
  refine ⟨⟨[], ⟨⟨List.Pairwise.nil, by simp, by simp, List.Pairwise.nil, by simp⟩,
    List.Pairwise.nil, ?_, rfl, by simp⟩⟩, by simp, h⟩
  rintro x ⟨g, hg, _⟩
  simp [Heap.init] at hg

theorem Heap.reach_inv {mem : Mem} {fn : List (Nat × Nat) → Nat → Option (Nat × Nat)}
    (hf : ProviderOk fn) {w : World Heap} (h : Reach heap (Heap.init mem fn) NotHuge w) :
    w.st.Inv w.live := by
  induction h with
  | init => exact Heap.init_inv mem fn hf
  | step w w' op _ ha hok hs ih =>
    obtain ⟨w1, h1, h2, _⟩ := Heap.step_spec ih ha hok
    rw [h1] at hs
    injection hs with hs
    subst hs
    exact h2

end C3.StdMem
