import Verif.StdMem.LemmasChunk

set_option autoImplicit false

namespace C3.StdMem

/-- The memory that was given to the heap. -/
def Heap.own (s : Heap) (x : Nat) : Prop := ∃ g ∈ s.given, g.1 ≤ x ∧ x < g.1 + g.2

/-- A byte is in one of the chunks. -/
def In (x : Nat) (L : List Chunk) : Prop := ∃ k ∈ L, k.h ≤ x ∧ x < k.fin

/-- What holds of a heap, its free chunks `F` and the chunks `B` in use. -/
structure HInv (s : Heap) (F B : List Chunk) : Prop where
  lay : Lay s.own F B
  strict : F.Pairwise (fun a b => a.fin < b.h)
  cover : ∀ x, s.own x → In x F ∨ In x B
  chain : Chain s.mem s.freeList F 0
  hdr : ∀ k ∈ B, sizeOf' s.mem k.h = k.c ∧ nextOf s.mem k.h = 0

theorem HInv.perm {s : Heap} {F B B' : List Chunk} (h : HInv s F B) (hp : B.Perm B') :
    HInv s F B' :=
  ⟨h.lay.perm hp, h.strict, fun x hx => (h.cover x hx).imp id
    fun ⟨k, hk, hk'⟩ => ⟨k, hp.mem_iff.mp hk, hk'⟩, h.chain,
    fun k hk => h.hdr k (hp.mem_iff.mpr hk)⟩

theorem In.append {x : Nat} {F G : List Chunk} : In x (F ++ G) ↔ In x F ∨ In x G := by
  constructor
  · rintro ⟨k, hk, hx⟩
    rcases List.mem_append.mp hk with hk | hk
    · exact Or.inl ⟨k, hk, hx⟩
    · exact Or.inr ⟨k, hk, hx⟩
  · rintro (⟨k, hk, hx⟩ | ⟨k, hk, hx⟩)
    · exact ⟨k, List.mem_append_left _ hk, hx⟩
    · exact ⟨k, List.mem_append_right _ hk, hx⟩

theorem In.cons {x : Nat} {k : Chunk} {G : List Chunk} :
    In x (k :: G) ↔ (k.h ≤ x ∧ x < k.fin) ∨ In x G := by
  constructor
  · rintro ⟨c, hc, hx⟩
    rcases List.mem_cons.mp hc with rfl | hc
    · exact Or.inl hx
    · exact Or.inr ⟨c, hc, hx⟩
  · rintro (hx | ⟨c, hc, hx⟩)
    · exact ⟨k, List.mem_cons_self, hx⟩
    · exact ⟨c, List.mem_cons_of_mem _ hc, hx⟩

/-- The address of the first chunk, 0 if there is none. -/
def headAddr : List Chunk → Nat
  | [] => 0
  | k :: _ => k.h

theorem chain_head {m : Mem} {a : Nat} {F : List Chunk} (h : Chain m a F 0) : a = headAddr F := by
  cases F with
  | nil => exact h
  | cons k F => exact h.1

theorem freeLoop_spec (m : Mem) (block : Nat) (Q : List Chunk) (hQ : ∀ q ∈ Q, block < q.h) :
    ∀ (P : List Chunk) (cur prev : Nat), (∀ p ∈ P, 0 < p.h ∧ p.h < block) →
      Chain m cur (P ++ Q) 0 → prev < block →
      freeLoop m block cur prev = some (headAddr Q, (P.getLast?.map Chunk.h).getD prev)
  | [], cur, prev, _, hc, hprev => by
    have := chain_head hc
    simp only [List.nil_append] at this
    rw [freeLoop]
    cases Q with
    | nil =>
      have : cur = 0 := this
      rw [if_pos this, this]
      rfl
    | cons q Q =>
      have hq := hQ q List.mem_cons_self
      have e : cur = q.h := this
      rw [if_neg (by omega), if_pos ⟨by omega, Or.inl hprev⟩, e]
      rfl
  | p :: P, cur, prev, hP, hc, _ => by
    obtain ⟨h1, h2⟩ := hP p List.mem_cons_self
    obtain ⟨c1, c2, c3⟩ := hc
    rw [freeLoop, if_neg (by omega), if_neg (by omega), c1,
      freeLoop_spec m block Q hQ P _ p.h (fun q hq => hP q (List.mem_cons_of_mem _ hq)) c3 h2]
    congr 1
    cases P with
    | nil => rfl
    | cons p' P => simp [List.getLast?_cons]

theorem freeLoop_init (m : Mem) (block : Nat) (P Q : List Chunk) (hd : Nat)
    (hne : P ++ Q ≠ []) (hQ : ∀ q ∈ Q, block < q.h) (hP : ∀ p ∈ P, 0 < p.h ∧ p.h < block)
    (hc : Chain m hd (P ++ Q) 0) :
    freeLoop m block hd hd = some (headAddr Q, (P.getLast?.map Chunk.h).getD (headAddr Q)) := by
  cases P with
  | nil =>
    have e := chain_head hc
    simp only [List.nil_append] at e hne
    rw [freeLoop]
    cases Q with
    | nil => exact absurd rfl hne
    | cons q Q =>
      have hq := hQ q List.mem_cons_self
      have e : hd = q.h := e
      rw [if_neg (by omega), if_pos ⟨by omega, Or.inr rfl⟩, e]
      rfl
  | cons p P =>
    obtain ⟨h1, h2⟩ := hP p List.mem_cons_self
    obtain ⟨c1, c2, c3⟩ := hc
    rw [freeLoop, if_neg (by omega), if_neg (by omega), c1,
      freeLoop_spec m block Q hQ P _ p.h (fun q hq => hP q (List.mem_cons_of_mem _ hq)) c3 h2]
    congr 1
    cases P with
    | nil => rfl
    | cons p' P => simp [List.getLast?_cons]

/-- What a call leaves: the chunks in use, and what is not the heap's. -/
def Frame (m m' : Mem) (own : Nat → Prop) (B : List Chunk) : Prop :=
  (∀ k ∈ B, ∀ x, k.h ≤ x → x < k.fin → m' x = m x) ∧ ∀ x, ¬ own x → m' x = m x

theorem Frame.refl (m : Mem) (own : Nat → Prop) (B : List Chunk) : Frame m m own B :=
  ⟨fun _ _ _ _ _ => rfl, fun _ _ => rfl⟩

theorem Frame.trans {m m' m'' : Mem} {own : Nat → Prop} {B : List Chunk} (h : Frame m m' own B)
    (h' : Frame m' m'' own B) : Frame m m'' own B :=
  ⟨fun k hk x h1 h2 => by rw [h'.1 k hk x h1 h2, h.1 k hk x h1 h2],
    fun x hx => by rw [h'.2 x hx, h.2 x hx]⟩

theorem Frame.mono {m m' : Mem} {own own' : Nat → Prop} {B B' : List Chunk} (h : Frame m m' own B)
    (ho : ∀ x, own x → own' x) (hb : ∀ k ∈ B', k ∈ B) : Frame m m' own' B' :=
  ⟨fun k hk => h.1 k (hb k hk), fun x hx => h.2 x fun hx' => hx (ho x hx')⟩

/-- If only bytes of free chunks change, the rest is left. -/
theorem frame_of {m m' : Mem} {own : Nat → Prop} {F B : List Chunk} (hl : Lay own F B)
    (hm : ∀ x, (∀ f ∈ F, x < f.h ∨ f.fin ≤ x) → m' x = m x) : Frame m m' own B := by
  constructor
  · intro k hk x h1 h2
    apply hm
    intro f hf
    have := hl.sepFB f hf k hk
    unfold Sep at this
    omega
  · intro x hx
    apply hm
    intro f hf
    by_cases h1 : f.h ≤ x
    · by_cases h2 : x < f.fin
      · exact absurd ((hl.goodF f hf).inside x h1 h2) hx
      · omega
    · omega

theorem HInv.build {s s' : Heap} {F F0 B : List Chunk} (hl : Lay s'.own F B)
    (hst : F.Pairwise (fun a b => a.fin < b.h)) (hcov : ∀ x, s'.own x → In x F ∨ In x B)
    (hl0 : Lay s.own F0 B) (hc : Chain s'.mem s'.freeList F 0)
    (hh : ∀ k ∈ B, sizeOf' s.mem k.h = k.c ∧ nextOf s.mem k.h = 0)
    (hm : ∀ x, (∀ f ∈ F0, x < f.h ∨ f.fin ≤ x) → s'.mem x = s.mem x) : HInv s' F B := by
  refine ⟨hl, hst, hcov, hc, fun k hk => ?_⟩
  have hf := (frame_of hl0 hm).1 k hk
  have hlt : k.h + 16 ≤ k.fin := by unfold Chunk.fin; omega
  rw [sizeOf_congr s.mem s'.mem _ (fun x h1 h2 => hf x h1 (by omega)),
    nextOf_congr s.mem s'.mem _ (fun x h1 h2 => hf x h1 (by omega))]
  exact hh k hk

theorem headAddr_lt {own : Nat → Prop} {F B : List Chunk} (h : Lay own F B) :
    headAddr F < 2 ^ 64 := by
  cases F with
  | nil => exact Nat.two_pow_pos 64
  | cons k F =>
    have := (h.goodF k List.mem_cons_self).lt
    unfold Chunk.fin at this
    show k.h < 2 ^ 64
    omega

/-- The first part of linking: the block and the free chunk after it. -/
theorem link_after {own : Nat → Prop} {m : Mem} {P Q B : List Chunk} {k : Chunk}
    (hl : Lay own (P ++ k :: Q) B) (hstr : Q.Pairwise (fun a b => a.fin < b.h))
    (hk : sizeOf' m k.h = k.c) (hn : nextOf m k.h = 0)
    (hc : Chain m (headAddr Q) Q 0) :
    ∃ m1 k1 Q1, (if headAddr Q ≠ 0 then
        if headAddr Q = wrap (k.h + headerSize + sizeOf' m k.h) then
          setNext (setSize m k.h (wrap (sizeOf' m k.h + (sizeOf' m (headAddr Q) + headerSize)))) k.h
            (nextOf (setSize m k.h (wrap (sizeOf' m k.h + (sizeOf' m (headAddr Q) + headerSize))))
              (headAddr Q))
        else setNext m k.h (headAddr Q)
      else m) = m1 ∧ Lay own (P ++ k1 :: Q1) B ∧ k1.h = k.h ∧ sizeOf' m1 k.h = k1.c ∧
      k.c ≤ k1.c ∧
      Chain m1 (nextOf m1 k.h) Q1 0 ∧ (∀ x, x < k.h ∨ k.h + 16 ≤ x → m1 x = m x) ∧
      (∀ q ∈ Q1, k1.fin < q.h) ∧ Q1.Pairwise (fun a b => a.fin < b.h) ∧
      (∀ x, In x (k :: Q) → In x (k1 :: Q1)) := by
  have hord := sep_of_sorted_mem hl.sorted
  have hkm : k ∈ P ++ k :: Q := List.mem_append_right _ List.mem_cons_self
  have gk := hl.goodF k hkm
  have gp := gk.pos
  have gl := gk.lt
  have hfin : k.fin = k.h + 16 + k.c := rfl
  cases Q with
  | nil =>
    rw [if_neg (by simp [headAddr])]
    exact ⟨m, k, [], rfl, hl, rfl, hk, Nat.le_refl _, by rw [hn]; rfl, fun _ _ => rfl,
      by simp, List.Pairwise.nil, fun _ h => h⟩
  | cons q Q =>
    have hqm : q ∈ P ++ k :: q :: Q :=
      List.mem_append_right _ (List.mem_cons_of_mem _ List.mem_cons_self)
    have gq := hl.goodF q hqm
    have gqp := gq.pos
    have gql := gq.lt
    have hqfin : q.fin = q.h + 16 + q.c := rfl
    have hkq := hord.2 q List.mem_cons_self
    obtain ⟨_, c2, c3⟩ := hc
    have hQk : ∀ f ∈ Q, k.fin ≤ f.h := fun f hf => hord.2 f (List.mem_cons_of_mem _ hf)
    have hha : headAddr (q :: Q) = q.h := rfl
    have hhs : headerSize = 16 := rfl
    rw [hha, hhs, if_pos (by omega), hk, c2]
    rw [wrap_eq (k.h + 16 + k.c) (by omega), wrap_eq (k.c + (q.c + 16)) (by omega)]
    by_cases he : q.h = k.h + 16 + k.c
    · rw [if_pos he]
      have hnx : nextOf (setSize m k.h (k.c + (q.c + 16))) q.h = nextOf m q.h :=
        nextOf_congr _ _ _ fun x h1 h2 => setSize_ne _ _ _ _ (by omega)
      rw [hnx]
      have hnlt : nextOf m q.h < 2 ^ 64 := rd64_lt _ _
      refine ⟨_, ⟨k.h, k.c + (q.c + 16)⟩, Q, rfl, hl.merge (by rw [hfin, he]), rfl, ?_,
        by show k.c ≤ k.c + (q.c + 16); omega, ?_, ?_, ?_, (List.pairwise_cons.mp hstr).2, ?_⟩
      · rw [sizeOf_setNext, sizeOf_setSize _ _ _ (by omega)]
      · rw [nextOf_setNext _ _ _ hnlt]
        refine chain_congr m _ Q _ 0 (fun f hf x h1 h2 => ?_) c3
        have := hQk f hf
        rw [setNext_ne _ _ _ _ (by omega), setSize_ne _ _ _ _ (by omega)]
      · intro x hx
        rw [setNext_ne _ _ _ _ hx, setSize_ne _ _ _ _ hx]
      · intro f hf
        have := (List.pairwise_cons.mp hstr).1 f hf
        unfold Chunk.fin at *
        simp only []
        omega
      · intro x hx
        rcases In.cons.mp hx with hx | hx
        · refine In.cons.mpr (Or.inl ?_)
          unfold Chunk.fin at *
          simp only []
          omega
        · rcases In.cons.mp hx with hx | hx
          · refine In.cons.mpr (Or.inl ?_)
            unfold Chunk.fin at *
            simp only []
            omega
          · exact In.cons.mpr (Or.inr hx)
    · rw [if_neg he]
      refine ⟨_, k, q :: Q, rfl, hl, rfl, by rw [sizeOf_setNext]; exact hk, Nat.le_refl _, ?_,
        fun x hx => setNext_ne _ _ _ _ hx, ?_, hstr, fun _ h => h⟩
      rotate_left
      · intro f hf
        rcases List.mem_cons.mp hf with rfl | hf
        · omega
        · have := (List.pairwise_cons.mp hstr).1 f hf
          omega
      rw [nextOf_setNext _ _ _ (by omega)]
      refine chain_congr m _ (q :: Q) _ 0 (fun f hf x h1 h2 => ?_) ⟨rfl, c2, c3⟩
      have := hord.2 f hf
      exact setNext_ne _ _ _ _ (by omega)

/-- Freeing a chunk in use: it always comes to an end, the chunk (perhaps as part
of a larger one) is free then, and all others in use are left. -/
theorem Heap.free_spec {s : Heap} {F B : List Chunk} {k : Chunk} (h : HInv s F (k :: B)) :
    ∃ s' F', s.free (k.h + 16) = some s' ∧ HInv s' F' B ∧ (∃ f ∈ F', k.c ≤ f.c) ∧
      Frame s.mem s'.mem s.own B ∧ s'.fn = s.fn ∧ s'.given = s.given := by
  have hsep : ∀ f ∈ F, Sep f k := fun f hf => h.lay.sepFB f hf k List.mem_cons_self
  obtain ⟨P, Q, e, hP, hQ⟩ := split_sorted F k h.lay.sorted hsep
  subst e
  have gk := h.lay.goodB k List.mem_cons_self
  have gp := gk.pos
  have hfin : k.fin = k.h + 16 + k.c := rfl
  have hl := h.lay.give hP hQ
  have hstr := List.pairwise_append.mp h.strict
  have hcov : ∀ x, s.own x → (In x P ∨ In x (k :: Q)) ∨ In x B := by
    intro x hx
    rcases h.cover x hx with hx | hx
    · rcases In.append.mp hx with hx | hx
      · exact Or.inl (Or.inl hx)
      · exact Or.inl (Or.inr (In.cons.mpr (Or.inr hx)))
    · rcases In.cons.mp hx with hx | hx
      · exact Or.inl (Or.inr (In.cons.mpr (Or.inl hx)))
      · exact Or.inr hx
  have hkh := h.hdr k List.mem_cons_self
  have hB : ∀ b ∈ B, sizeOf' s.mem b.h = b.c ∧ nextOf s.mem b.h = 0 :=
    fun b hb => h.hdr b (List.mem_cons_of_mem _ hb)
  unfold Heap.free
  rw [if_neg (by omega)]
  simp only [headerSize, Nat.add_sub_cancel]
  by_cases hnil : P ++ Q = []
  · have hPn : P = [] := List.append_eq_nil_iff.mp hnil |>.1
    have hQn : Q = [] := List.append_eq_nil_iff.mp hnil |>.2
    subst hPn hQn
    have hfl : s.freeList = 0 := chain_head h.chain
    rw [if_pos hfl]
    refine ⟨_, [k], rfl, ?_, ⟨k, by simp, Nat.le_refl _⟩, Frame.refl _ _ _, rfl, rfl⟩
    refine HInv.build (s := s) (F0 := [k]) hl (List.pairwise_singleton _ _) ?_ hl
      ⟨rfl, hkh.1, hkh.2⟩ hB fun _ _ => rfl
    intro x hx
    rcases hcov x hx with (⟨_, h0, _⟩ | hx) | hx
    · simp at h0
    · exact Or.inl hx
    · exact Or.inr hx
  · have hfl : s.freeList ≠ 0 := by
      have hh := chain_head h.chain
      intro e0
      cases hPQ : P ++ Q with
      | nil => exact hnil hPQ
      | cons f G =>
        have hf := h.lay.goodF f (by rw [hPQ]; exact List.mem_cons_self)
        have := hf.pos
        rw [hPQ] at hh
        have : s.freeList = f.h := hh
        omega
    rw [if_neg hfl]
    have hloop := freeLoop_init s.mem k.h P Q s.freeList hnil
      (fun q hq => by have := hQ q hq; omega)
      (fun p hp => ⟨(h.lay.goodF p (List.mem_append_left _ hp)).pos, by
        have := hP p hp
        unfold Chunk.fin at this
        omega⟩) h.chain
    rw [hloop]
    obtain ⟨x, cP, cQ⟩ := (chain_append _ _ _ _ _).mp h.chain
    have hx := chain_head cQ
    subst hx
    obtain ⟨m1, k1, Q1, hm1, hl1, hk1, hs1, hle, hc1, hne1, hlt1, hstr1, hin1⟩ :=
      link_after hl hstr.2.1 hkh.1 hkh.2 cQ
    have hk1m : k1 ∈ P ++ k1 :: Q1 := List.mem_append_right _ List.mem_cons_self
    have gk1 := hl1.goodF k1 hk1m
    have gl1 := gk1.lt
    have hfin1 : k1.fin = k1.h + 16 + k1.c := rfl
    have hord1 := sep_of_sorted_mem hl1.sorted
    have hkm : k ∈ P ++ k :: Q := List.mem_append_right _ List.mem_cons_self
    show ∃ s' F', some (s.link k.h (headAddr Q) _) = some s' ∧ _
    unfold Heap.link
    simp only [hm1]
    rcases List.eq_nil_or_concat P with hPn | ⟨P0, p, hPc⟩
    · subst hPn
      have e1 : ((([] : List Chunk).getLast?.map Chunk.h).getD (headAddr Q)) = headAddr Q := rfl
      rw [e1, if_pos rfl]
      have hmem : ∀ x, (∀ f ∈ [] ++ k :: Q, x < f.h ∨ f.fin ≤ x) → m1 x = s.mem x := by
        intro x hx
        have := hx k hkm
        exact hne1 x (by omega)
      refine ⟨_, k1 :: Q1, rfl, ?_, ⟨k1, List.mem_cons_self, hle⟩, frame_of hl hmem, rfl, rfl⟩
      refine HInv.build (s := s) (F0 := [] ++ k :: Q) hl1 (List.pairwise_cons.mpr ⟨hlt1, hstr1⟩) ?_
        hl ?_ hB hmem
      · intro x hx
        rcases hcov x hx with (⟨_, h0, _⟩ | hx) | hx
        · simp at h0
        · exact Or.inl (hin1 x hx)
        · exact Or.inr hx
      exact ⟨hk1.symm, by rw [hk1]; exact hs1, by rw [hk1]; exact hc1⟩
    · rw [List.concat_eq_append] at hPc
      subst hPc
      have e1 : (((P0 ++ [p]).getLast?.map Chunk.h).getD (headAddr Q)) = p.h := by simp
      rw [e1]
      have hpm : p ∈ (P0 ++ [p]) ++ k1 :: Q1 :=
        List.mem_append_left _ (List.mem_append_right _ List.mem_cons_self)
      have hpm0 : p ∈ (P0 ++ [p]) ++ k :: Q :=
        List.mem_append_left _ (List.mem_append_right _ List.mem_cons_self)
      have gpp := hl1.goodF p hpm
      have gppos := gpp.pos
      have hpfin : p.fin = p.h + 16 + p.c := rfl
      have hpk := hord1.1 p (List.mem_append_right _ List.mem_cons_self)
      have hpne : p.h ≠ headAddr Q := by
        cases hQe : Q with
        | nil =>
          show p.h ≠ 0
          omega
        | cons q Q' =>
          have := hQ q (by rw [hQe]; exact List.mem_cons_self)
          show p.h ≠ q.h
          omega
      rw [if_neg hpne]
      -- the chunks before `p`
      obtain ⟨y, cP0, cp⟩ := (chain_append _ _ _ _ _).mp cP
      obtain ⟨cy, cps, _⟩ := cp
      subst cy
      have hP0 : ∀ f ∈ P0, f.fin ≤ p.h := by
        intro f hf
        have := (List.pairwise_append.mp hl1.sorted).1
        exact (List.pairwise_append.mp this).2.2 f hf p List.mem_cons_self
      have hsP := List.pairwise_append.mp hstr.1
      have hps1 : sizeOf' m1 p.h = p.c := by
        rw [sizeOf_congr s.mem m1 _ (fun x h1 h2 => hne1 x (by omega))]
        exact cps
      have cP01 : Chain m1 s.freeList P0 p.h :=
        chain_congr s.mem m1 P0 _ _ (fun f hf x h1 h2 => by
          have := hP0 f hf
          unfold Chunk.fin at this
          exact hne1 x (by omega)) cP0
      have hhs : headerSize = 16 := rfl
      rw [hps1, hhs]
      rw [wrap_eq (p.h + 16 + p.c) (by omega)]
      have hQ1 : ∀ f ∈ Q1, k1.fin ≤ f.h := hord1.2
      by_cases he : k.h = p.h + 16 + p.c
      · rw [if_pos he]
        simp only [hs1]
        rw [wrap_eq (p.c + (k1.c + 16)) (by omega)]
        have hnx : nextOf (setSize m1 p.h (p.c + (k1.c + 16))) k.h = nextOf m1 k.h :=
          nextOf_congr _ _ _ fun x h1 h2 => setSize_ne _ _ _ _ (by omega)
        rw [hnx]
        have hnlt : nextOf m1 k.h < 2 ^ 64 := rd64_lt _ _
        have hmem2 : ∀ x, x < p.h ∨ p.h + 16 ≤ x →
            setNext (setSize m1 p.h (p.c + (k1.c + 16))) p.h (nextOf m1 k.h) x = m1 x := by
          intro x hx
          rw [setNext_ne _ _ _ _ hx, setSize_ne _ _ _ _ hx]
        have hl2 : Lay s.own (P0 ++ ⟨p.h, p.c + (k1.c + 16)⟩ :: Q1) B := by
          have : Lay s.own (P0 ++ p :: k1 :: Q1) B := by
            simpa using hl1
          exact this.merge (by rw [hpfin, hk1, he])
        have hmem : ∀ x, (∀ f ∈ (P0 ++ [p]) ++ k :: Q, x < f.h ∨ f.fin ≤ x) →
            setNext (setSize m1 p.h (p.c + (k1.c + 16))) p.h (nextOf m1 k.h) x = s.mem x := by
          intro x hx
          have h1 := hx k hkm
          have h2 := hx p hpm0
          rw [hmem2 x (by omega)]
          exact hne1 x (by omega)
        refine ⟨_, P0 ++ ⟨p.h, p.c + (k1.c + 16)⟩ :: Q1, rfl, ?_,
          ⟨⟨p.h, p.c + (k1.c + 16)⟩, List.mem_append_right _ List.mem_cons_self,
            by show k.c ≤ p.c + (k1.c + 16); omega⟩, frame_of hl hmem, rfl, rfl⟩
        refine HInv.build (s := s) (F0 := (P0 ++ [p]) ++ k :: Q) hl2 ?_ ?_ hl ?_ hB hmem
        · refine List.pairwise_append.mpr ⟨hsP.1, List.pairwise_cons.mpr ⟨?_, hstr1⟩, ?_⟩
          · intro f hf
            have := hlt1 f hf
            unfold Chunk.fin at *
            simp only []
            omega
          · intro f hf g hg
            have h1 := hsP.2.2 f hf p List.mem_cons_self
            rcases List.mem_cons.mp hg with rfl | hg
            · exact h1
            · have := hlt1 g hg
              omega
        · intro x hx
          rcases hcov x hx with (hx | hx) | hx
          · rcases In.append.mp hx with hx | hx
            · exact Or.inl (In.append.mpr (Or.inl hx))
            · rcases In.cons.mp hx with hx | ⟨_, h0, _⟩
              · refine Or.inl (In.append.mpr (Or.inr (In.cons.mpr (Or.inl ?_))))
                unfold Chunk.fin at *
                simp only []
                omega
              · simp at h0
          · rcases In.cons.mp (hin1 x hx) with hx | hx
            · refine Or.inl (In.append.mpr (Or.inr (In.cons.mpr (Or.inl ?_))))
              unfold Chunk.fin at *
              simp only []
              omega
            · exact Or.inl (In.append.mpr (Or.inr (In.cons.mpr (Or.inr hx))))
          · exact Or.inr hx
        refine (chain_append _ _ _ _ _).mpr ⟨p.h, ?_, rfl, ?_, ?_⟩
        · exact chain_congr m1 _ P0 _ _ (fun f hf x h1 h2 => by
            have := hP0 f hf
            unfold Chunk.fin at this
            exact hmem2 x (by omega)) cP01
        · show sizeOf' (setNext _ _ _) _ = _
          rw [sizeOf_setNext, sizeOf_setSize _ _ _ (by omega)]
        · show Chain _ (nextOf (setNext _ _ _) _) _ _
          rw [nextOf_setNext _ _ _ hnlt]
          exact chain_congr m1 _ Q1 _ _ (fun f hf x h1 h2 => by
            have := hQ1 f hf
            exact hmem2 x (by omega)) hc1
      · rw [if_neg he]
        have hmem2 : ∀ x, x < p.h ∨ p.h + 16 ≤ x → setNext m1 p.h k.h x = m1 x :=
          fun x hx => setNext_ne _ _ _ _ hx
        have hmem : ∀ x, (∀ f ∈ (P0 ++ [p]) ++ k :: Q, x < f.h ∨ f.fin ≤ x) →
            setNext m1 p.h k.h x = s.mem x := by
          intro x hx
          have h1 := hx k hkm
          have h2 := hx p hpm0
          rw [hmem2 x (by omega)]
          exact hne1 x (by omega)
        refine ⟨_, (P0 ++ [p]) ++ k1 :: Q1, rfl, ?_, ⟨k1, hk1m, hle⟩, frame_of hl hmem, rfl, rfl⟩
        refine HInv.build (s := s) (F0 := (P0 ++ [p]) ++ k :: Q) hl1 ?_ ?_ hl ?_ hB hmem
        · refine List.pairwise_append.mpr ⟨hstr.1, List.pairwise_cons.mpr ⟨hlt1, hstr1⟩, ?_⟩
          intro f hf g hg
          have h1 : f.fin ≤ p.fin := by
            rcases List.mem_append.mp hf with hf | hf
            · have := hsP.2.2 f hf p List.mem_cons_self
              omega
            · rcases List.mem_cons.mp hf with rfl | hf
              · exact Nat.le_refl _
              · simp at hf
          rcases List.mem_cons.mp hg with rfl | hg
          · omega
          · have := hlt1 g hg
            omega
        · intro x hx
          rcases hcov x hx with (hx | hx) | hx
          · exact Or.inl (In.append.mpr (Or.inl hx))
          · exact Or.inl (In.append.mpr (Or.inr (hin1 x hx)))
          · exact Or.inr hx
        refine (chain_append _ _ _ _ _).mpr ⟨k.h, ?_, hk1.symm, ?_, ?_⟩
        · refine (chain_append _ _ _ _ _).mpr ⟨p.h, ?_, rfl, ?_, ?_⟩
          · exact chain_congr m1 _ P0 _ _ (fun f hf x h1 h2 => by
              have := hP0 f hf
              unfold Chunk.fin at this
              exact hmem2 x (by omega)) cP01
          · show sizeOf' (setNext _ _ _) _ = _
            rw [sizeOf_setNext]
            exact hps1
          · show Chain _ (nextOf (setNext _ _ _) _) [] _
            rw [nextOf_setNext _ _ _ (by omega)]
            rfl
        · rw [hk1]
          show sizeOf' (setNext _ _ _) _ = _
          rw [sizeOf_congr m1 _ _ (fun x h1 h2 => hmem2 x (by omega))]
          exact hs1
        · rw [hk1]
          show Chain _ (nextOf (setNext m1 p.h k.h) k.h) _ _
          rw [nextOf_congr m1 _ _ (fun x h1 h2 => hmem2 x (by omega))]
          exact chain_congr m1 _ Q1 _ _ (fun f hf x h1 h2 => by
            have := hQ1 f hf
            exact hmem2 x (by omega)) hc1

end C3.StdMem
