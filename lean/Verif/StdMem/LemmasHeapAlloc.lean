import Verif.StdMem.LemmasHeap

set_option autoImplicit false

namespace C3.StdMem

/-- The blocks `_alloc` takes. -/
def Fit (a : Nat) (k : Chunk) : Prop := snug k.c a = true ∨ a < k.c

theorem Fit.le {a : Nat} {k : Chunk} (h : Fit a k) : a ≤ k.c := by
  rcases h with h | h
  · unfold snug at h
    simp only [Bool.and_eq_true, decide_eq_true_eq] at h
    exact h.1
  · omega

theorem fit_of_le {a : Nat} {k : Chunk} (h : a ≤ k.c) (ha : a + 80 < 2 ^ 64) : Fit a k := by
  by_cases hlt : a < k.c
  · exact Or.inr hlt
  · refine Or.inl ?_
    unfold snug headerSize
    rw [wrap_eq _ (by omega)]
    simp only [Bool.and_eq_true, decide_eq_true_eq]
    omega

theorem findLoop_spec (m : Mem) (a : Nat) :
    ∀ (F : List Chunk) (cur prev : Nat), (∀ f ∈ F, 0 < f.h) → Chain m cur F 0 →
      (∃ P k Q, F = P ++ k :: Q ∧ Fit a k ∧ (∀ p ∈ P, ¬ Fit a p) ∧
        findLoop m a cur prev = some (k.h, (P.getLast?.map Chunk.h).getD prev)) ∨
      (∀ k ∈ F, ¬ Fit a k) ∧ ∃ x, findLoop m a cur prev = some (0, x)
  | [], cur, prev, _, hc => by
    refine Or.inr ⟨by simp, prev, ?_⟩
    rw [findLoop, if_pos (show cur = 0 from hc)]
  | f :: F, cur, prev, hp, hc => by
    obtain ⟨c1, c2, c3⟩ := hc
    have hf := hp f List.mem_cons_self
    by_cases hfit : Fit a f
    · refine Or.inl ⟨[], f, F, rfl, hfit, by simp, ?_⟩
      rw [findLoop, if_neg (by omega), if_pos, c1]
      · rfl
      · rw [c1, c2]
        exact hfit
    · rw [findLoop, if_neg (by omega), if_neg, c1]
      · rcases findLoop_spec m a F (nextOf m f.h) f.h (fun g hg => hp g (List.mem_cons_of_mem _ hg)) c3
          with ⟨P, k, Q, e, h1, h2, h3⟩ | ⟨h1, h2⟩
        · refine Or.inl ⟨f :: P, k, Q, by rw [e]; rfl, h1, ?_, ?_⟩
          · intro p hp'
            rcases List.mem_cons.mp hp' with rfl | hp'
            · exact hfit
            · exact h2 p hp'
          · rw [h3]
            congr 1
            cases P with
            | nil => rfl
            | cons p' P => simp [List.getLast?_cons]
        · refine Or.inr ⟨?_, h2⟩
          intro k hk
          rcases List.mem_cons.mp hk with rfl | hk
          · exact hfit
          · exact h1 k hk
      · rw [c1, c2]
        exact hfit

theorem hdr_frame {own : Nat → Prop} {m m' : Mem} {B : List Chunk} (hf : Frame m m' own B)
    (hh : ∀ k ∈ B, sizeOf' m k.h = k.c ∧ nextOf m k.h = 0) :
    ∀ k ∈ B, sizeOf' m' k.h = k.c ∧ nextOf m' k.h = 0 := by
  intro k hk
  have h1 := hf.1 k hk
  have hlt : k.h + 16 ≤ k.fin := by unfold Chunk.fin; omega
  rw [sizeOf_congr m m' _ (fun x a b => h1 x a (by omega)),
    nextOf_congr m m' _ (fun x a b => h1 x a (by omega))]
  exact hh k hk

/-- Taking the chunk `k` from the free list. -/
theorem Heap.take_spec {s : Heap} {P Q B : List Chunk} {k : Chunk} {a : Nat}
    (h : HInv s (P ++ k :: Q) B) (ha : a ≤ k.c) (h16 : 16 ∣ a) :
    ∃ F' k', HInv (s.take a k.h ((P.getLast?.map Chunk.h).getD s.freeList)) F' (k' :: B) ∧
      k'.h = k.h ∧ a ≤ k'.c ∧
      Frame s.mem (s.take a k.h ((P.getLast?.map Chunk.h).getD s.freeList)).mem s.own B ∧
      (s.take a k.h ((P.getLast?.map Chunk.h).getD s.freeList)).fn = s.fn ∧
      (s.take a k.h ((P.getLast?.map Chunk.h).getD s.freeList)).given = s.given := by
  have hord := sep_of_sorted_mem h.lay.sorted
  have hkm : k ∈ P ++ k :: Q := List.mem_append_right _ List.mem_cons_self
  have gk := h.lay.goodF k hkm
  have gp := gk.pos
  have gl := gk.lt
  have hfin : k.fin = k.h + 16 + k.c := rfl
  obtain ⟨x, cP, cx, cks, cQ⟩ := (chain_append _ _ _ _ _).mp h.chain
  subst cx
  have hQ0 : ∀ f ∈ Q, k.fin ≤ f.h := hord.2
  have hhs : headerSize = 16 := rfl
  have hnlt : nextOf s.mem k.h < 2 ^ 64 := rd64_lt _ _
  have hstr := List.pairwise_append.mp h.strict
  have hstr2 := List.pairwise_cons.mp hstr.2.1
  have hcov1 : ∀ x, s.own x → In x (P ++ Q) ∨ In x (k :: B) := by
    intro x hx
    rcases h.cover x hx with hx | hx
    · rcases In.append.mp hx with hx | hx
      · exact Or.inl (In.append.mpr (Or.inl hx))
      · rcases In.cons.mp hx with hx | hx
        · exact Or.inr (In.cons.mpr (Or.inl hx))
        · exact Or.inl (In.append.mpr (Or.inr hx))
    · exact Or.inr (In.cons.mpr (Or.inr hx))
  have hstr1 : (P ++ Q).Pairwise (fun a b => a.fin < b.h) :=
    List.pairwise_append.mpr ⟨hstr.1, hstr2.2, fun f hf g hg =>
      hstr.2.2 f hf g (List.mem_cons_of_mem _ hg)⟩
  unfold Heap.take
  simp only [cks]
  by_cases hsn : snug k.c a = true
  · -- the whole chunk
    rw [if_pos hsn]
    rcases List.eq_nil_or_concat P with hPn | ⟨P0, p, hPc⟩
    · subst hPn
      have hfl : s.freeList = k.h := cP
      have e1 : ((([] : List Chunk).getLast?.map Chunk.h).getD s.freeList) = k.h := by
        simp [hfl]
      rw [e1, if_pos rfl]
      have hfr : Frame s.mem (setNext s.mem k.h 0) s.own B := frame_of h.lay fun x hx => by
        have := hx k hkm
        exact setNext_ne _ _ _ _ (by omega)
      refine ⟨[] ++ Q, k, ⟨h.lay.grab, hstr1, hcov1, ?_, ?_⟩, rfl, ha, hfr, rfl, rfl⟩
      · exact chain_congr s.mem _ Q _ _ (fun f hf x h1 h2 => by
          have := hQ0 f hf
          exact setNext_ne _ _ _ _ (by omega)) cQ
      · intro b hb
        rcases List.mem_cons.mp hb with rfl | hb
        · exact ⟨by show sizeOf' (setNext _ _ _) _ = _; rw [sizeOf_setNext]; exact cks,
            nextOf_setNext _ _ _ (by omega)⟩
        · exact hdr_frame hfr h.hdr b hb
    · rw [List.concat_eq_append] at hPc
      subst hPc
      have e1 : (((P0 ++ [p]).getLast?.map Chunk.h).getD s.freeList) = p.h := by simp
      rw [e1]
      have hpm : p ∈ (P0 ++ [p]) ++ k :: Q :=
        List.mem_append_left _ (List.mem_append_right _ List.mem_cons_self)
      have hpk := hord.1 p (List.mem_append_right _ List.mem_cons_self)
      have hpfin : p.fin = p.h + 16 + p.c := rfl
      rw [if_neg (by omega)]
      obtain ⟨y, cP0, cy, cps, _⟩ := (chain_append _ _ _ _ _).mp cP
      subst cy
      have hP0 : ∀ f ∈ P0, f.fin ≤ p.h := by
        intro f hf
        have := (List.pairwise_append.mp h.lay.sorted).1
        exact (List.pairwise_append.mp this).2.2 f hf p List.mem_cons_self
      have hm : ∀ x, (x < k.h ∨ k.h + 16 ≤ x) → (x < p.h ∨ p.h + 16 ≤ x) →
          setNext (setNext s.mem p.h (nextOf s.mem k.h)) k.h 0 x = s.mem x := by
        intro x h1 h2
        rw [setNext_ne _ _ _ _ h1, setNext_ne _ _ _ _ h2]
      have hmp : ∀ x, p.h ≤ x → x < p.h + 16 →
          setNext (setNext s.mem p.h (nextOf s.mem k.h)) k.h 0 x =
            setNext s.mem p.h (nextOf s.mem k.h) x :=
        fun x h1 h2 => setNext_ne _ _ _ _ (by omega)
      have hfr : Frame s.mem (setNext (setNext s.mem p.h (nextOf s.mem k.h)) k.h 0) s.own B :=
        frame_of h.lay fun x hx => by
          have := hx k hkm
          have := hx p hpm
          exact hm x (by omega) (by omega)
      refine ⟨(P0 ++ [p]) ++ Q, k, ⟨h.lay.grab, hstr1, hcov1, ?_, ?_⟩, rfl, ha, hfr, rfl, rfl⟩
      · refine (chain_append _ _ _ _ _).mpr ⟨nextOf s.mem k.h, ?_, ?_⟩
        · refine (chain_append _ _ _ _ _).mpr ⟨p.h, ?_, rfl, ?_, ?_⟩
          · exact chain_congr s.mem _ P0 _ _ (fun f hf x h1 h2 => by
              have := hP0 f hf
              unfold Chunk.fin at this
              exact hm x (by omega) (by omega)) cP0
          · show sizeOf' (setNext _ _ _) _ = _
            rw [sizeOf_congr _ _ _ hmp, sizeOf_setNext]
            exact cps
          · show nextOf (setNext _ _ _) _ = _
            rw [nextOf_congr _ _ _ hmp, nextOf_setNext _ _ _ hnlt]
        · exact chain_congr s.mem _ Q _ _ (fun f hf x h1 h2 => by
            have := hQ0 f hf
            exact hm x (by omega) (by omega)) cQ
      · intro b hb
        rcases List.mem_cons.mp hb with rfl | hb
        · refine ⟨?_, nextOf_setNext _ _ _ (by omega)⟩
          show sizeOf' (setNext _ _ _) _ = _
          rw [sizeOf_setNext, sizeOf_congr s.mem _ _ (fun x h1 h2 => setNext_ne _ _ _ _ (by omega))]
          exact cks
        · exact hdr_frame hfr h.hdr b hb
  · -- the first part of it
    rw [if_neg hsn]
    have hbig : a + 80 < k.c := by
      unfold snug headerSize at hsn
      by_cases hw : a + 16 + 64 < 2 ^ 64
      · rw [wrap_eq _ hw] at hsn
        simp only [Bool.and_eq_true, decide_eq_true_eq] at hsn
        omega
      · omega
    rw [hhs, wrap_eq (k.h + a + 16) (by omega), sub64_eq k.c a (by omega) (by omega),
      sub64_eq (k.c - a) 16 (by omega) (by omega)]
    have hl2 := (h.lay.split h16 (by omega)).grab
    have hu : (⟨k.h + a + 16, k.c - a - 16⟩ : Chunk).fin = k.fin := by
      unfold Chunk.fin; simp only []; omega
    have hu' : k.h + a + 16 ≤ k.fin := by omega
    have hcov3 : ∀ x, s.own x →
        In x (P ++ ⟨k.h + a + 16, k.c - a - 16⟩ :: Q) ∨ In x (⟨k.h, a⟩ :: B) := by
      intro x hx
      rcases hcov1 x hx with hx | hx
      · rcases In.append.mp hx with hx | hx
        · exact Or.inl (In.append.mpr (Or.inl hx))
        · exact Or.inl (In.append.mpr (Or.inr (In.cons.mpr (Or.inr hx))))
      · rcases In.cons.mp hx with hx | hx
        · by_cases hxa : x < k.h + a + 16
          · refine Or.inr (In.cons.mpr (Or.inl ?_))
            unfold Chunk.fin
            simp only []
            omega
          · refine Or.inl (In.append.mpr (Or.inr (In.cons.mpr (Or.inl ?_))))
            rw [hu]
            show k.h + a + 16 ≤ x ∧ _
            omega
        · exact Or.inr (In.cons.mpr (Or.inr hx))
    have hstr3 : (P ++ (⟨k.h + a + 16, k.c - a - 16⟩ : Chunk) :: Q).Pairwise
        (fun a b => a.fin < b.h) := by
      refine List.pairwise_append.mpr ⟨hstr.1, List.pairwise_cons.mpr ⟨?_, hstr2.2⟩, ?_⟩
      · intro f hf
        rw [hu]
        exact hstr2.1 f hf
      · intro f hf g hg
        rcases List.mem_cons.mp hg with rfl | hg
        · have := hstr.2.2 f hf k List.mem_cons_self
          show f.fin < k.h + a + 16
          omega
        · exact hstr.2.2 f hf g (List.mem_cons_of_mem _ hg)
    have hmU : ∀ x, (x < k.h + a + 16 ∨ k.h + a + 32 ≤ x) →
        setNext (setSize s.mem (k.h + a + 16) (k.c - a - 16)) (k.h + a + 16)
          (nextOf (setSize s.mem (k.h + a + 16) (k.c - a - 16)) k.h) x = s.mem x := by
      intro x h1
      rw [setNext_ne _ _ _ _ (by omega), setSize_ne _ _ _ _ (by omega)]
    have hnk : nextOf (setSize s.mem (k.h + a + 16) (k.c - a - 16)) k.h = nextOf s.mem k.h :=
      nextOf_congr _ _ _ fun x h1 h2 => setSize_ne _ _ _ _ (by omega)
    rw [hnk] at hmU ⊢
    have hsU : sizeOf' (setNext (setSize s.mem (k.h + a + 16) (k.c - a - 16)) (k.h + a + 16)
        (nextOf s.mem k.h)) (k.h + a + 16) = k.c - a - 16 := by
      rw [sizeOf_setNext, sizeOf_setSize _ _ _ (by omega)]
    have hnU : nextOf (setNext (setSize s.mem (k.h + a + 16) (k.c - a - 16)) (k.h + a + 16)
        (nextOf s.mem k.h)) (k.h + a + 16) = nextOf s.mem k.h := nextOf_setNext _ _ _ hnlt
    generalize setNext (setSize s.mem (k.h + a + 16) (k.c - a - 16)) (k.h + a + 16)
        (nextOf s.mem k.h) = mU at *
    rcases List.eq_nil_or_concat P with hPn | ⟨P0, p, hPc⟩
    · subst hPn
      have hfl : s.freeList = k.h := cP
      rw [if_pos hfl.symm]
      have hm : ∀ x, (x < k.h ∨ k.h + 16 ≤ x) → (x < k.h + a + 16 ∨ k.h + a + 32 ≤ x) →
          setNext (setSize mU k.h a) k.h 0 x = s.mem x := by
        intro x h1 h2
        rw [setNext_ne _ _ _ _ h1, setSize_ne _ _ _ _ h1, hmU x h2]
      have hmu : ∀ x, k.h + a + 16 ≤ x → x < k.h + a + 16 + 16 →
          setNext (setSize mU k.h a) k.h 0 x = mU x := fun x h1 h2 => by
        rw [setNext_ne _ _ _ _ (by omega), setSize_ne _ _ _ _ (by omega)]
      have hfr : Frame s.mem (setNext (setSize mU k.h a) k.h 0) s.own B :=
        frame_of h.lay fun x hx => by
          have := hx k hkm
          exact hm x (by omega) (by omega)
      refine ⟨[] ++ _, ⟨k.h, a⟩, ⟨hl2, hstr3, hcov3, ?_, ?_⟩, rfl, Nat.le_refl _, hfr, rfl, rfl⟩
      · refine ⟨rfl, ?_, ?_⟩
        · show sizeOf' (setNext _ _ _) _ = _
          rw [sizeOf_congr _ _ _ hmu]
          exact hsU
        · show Chain _ (nextOf (setNext _ _ _) _) _ _
          rw [nextOf_congr _ _ _ hmu, hnU]
          exact chain_congr s.mem _ Q _ _ (fun f hf x h1 h2 => by
            have := hQ0 f hf
            exact hm x (by omega) (by omega)) cQ
      · intro b hb
        rcases List.mem_cons.mp hb with rfl | hb
        · refine ⟨?_, nextOf_setNext _ _ _ (by omega)⟩
          show sizeOf' (setNext _ _ _) _ = _
          rw [sizeOf_setNext, sizeOf_setSize _ _ _ (by omega)]
        · exact hdr_frame hfr h.hdr b hb
    · rw [List.concat_eq_append] at hPc
      subst hPc
      have e1 : (((P0 ++ [p]).getLast?.map Chunk.h).getD s.freeList) = p.h := by simp
      rw [e1]
      have hpm : p ∈ (P0 ++ [p]) ++ k :: Q :=
        List.mem_append_left _ (List.mem_append_right _ List.mem_cons_self)
      have hpk := hord.1 p (List.mem_append_right _ List.mem_cons_self)
      have hpfin : p.fin = p.h + 16 + p.c := rfl
      have hnfl : k.h ≠ s.freeList := by
        have hh := chain_head h.chain
        cases hP0e : P0 with
        | nil =>
          rw [hP0e] at hh
          have : s.freeList = p.h := hh
          omega
        | cons f G =>
          rw [hP0e] at hh
          have : s.freeList = f.h := hh
          have h2 := hord.1 f (by rw [hP0e]; simp)
          unfold Chunk.fin at h2
          omega
      rw [if_neg hnfl]
      obtain ⟨y, cP0, cy, cps, _⟩ := (chain_append _ _ _ _ _).mp cP
      subst cy
      have hP0 : ∀ f ∈ P0, f.fin ≤ p.h := by
        intro f hf
        have := (List.pairwise_append.mp h.lay.sorted).1
        exact (List.pairwise_append.mp this).2.2 f hf p List.mem_cons_self
      have hm : ∀ x, (x < k.h ∨ k.h + 16 ≤ x) → (x < k.h + a + 16 ∨ k.h + a + 32 ≤ x) →
          (x < p.h ∨ p.h + 16 ≤ x) →
          setNext (setSize (setNext mU p.h (k.h + a + 16)) k.h a) k.h 0 x = s.mem x := by
        intro x h1 h2 h3
        rw [setNext_ne _ _ _ _ h1, setSize_ne _ _ _ _ h1, setNext_ne _ _ _ _ h3, hmU x h2]
      have hmu : ∀ x, k.h + a + 16 ≤ x → x < k.h + a + 16 + 16 →
          setNext (setSize (setNext mU p.h (k.h + a + 16)) k.h a) k.h 0 x = mU x := fun x h1 h2 => by
        rw [setNext_ne _ _ _ _ (by omega), setSize_ne _ _ _ _ (by omega),
          setNext_ne _ _ _ _ (by omega)]
      have hmp : ∀ x, p.h ≤ x → x < p.h + 16 →
          setNext (setSize (setNext mU p.h (k.h + a + 16)) k.h a) k.h 0 x =
            setNext mU p.h (k.h + a + 16) x := fun x h1 h2 => by
        rw [setNext_ne _ _ _ _ (by omega), setSize_ne _ _ _ _ (by omega)]
      have hfr : Frame s.mem (setNext (setSize (setNext mU p.h (k.h + a + 16)) k.h a) k.h 0) s.own B :=
        frame_of h.lay fun x hx => by
          have := hx k hkm
          have := hx p hpm
          exact hm x (by omega) (by omega) (by omega)
      refine ⟨(P0 ++ [p]) ++ _, ⟨k.h, a⟩, ⟨hl2, hstr3, hcov3, ?_, ?_⟩, rfl, Nat.le_refl _, hfr, rfl, rfl⟩
      · refine (chain_append _ _ _ _ _).mpr ⟨k.h + a + 16, ?_, rfl, ?_, ?_⟩
        · refine (chain_append _ _ _ _ _).mpr ⟨p.h, ?_, rfl, ?_, ?_⟩
          · exact chain_congr s.mem _ P0 _ _ (fun f hf x h1 h2 => by
              have := hP0 f hf
              unfold Chunk.fin at this
              exact hm x (by omega) (by omega) (by omega)) cP0
          · show sizeOf' (setNext _ _ _) _ = _
            rw [sizeOf_congr _ _ _ hmp, sizeOf_setNext,
              sizeOf_congr s.mem mU _ (fun x h1 h2 => hmU x (by omega))]
            exact cps
          · show nextOf (setNext _ _ _) _ = _
            rw [nextOf_congr _ _ _ hmp, nextOf_setNext _ _ _ (by omega)]
        · show sizeOf' (setNext _ _ _) _ = _
          rw [sizeOf_congr _ _ _ hmu]
          exact hsU
        · show Chain _ (nextOf (setNext _ _ _) _) _ _
          rw [nextOf_congr _ _ _ hmu, hnU]
          exact chain_congr s.mem _ Q _ _ (fun f hf x h1 h2 => by
            have := hQ0 f hf
            exact hm x (by omega) (by omega) (by omega)) cQ
      · intro b hb
        rcases List.mem_cons.mp hb with rfl | hb
        · refine ⟨?_, nextOf_setNext _ _ _ (by omega)⟩
          show sizeOf' (setNext _ _ _) _ = _
          rw [sizeOf_setNext, sizeOf_setSize _ _ _ (by omega)]
        · exact hdr_frame hfr h.hdr b hb

/-- What the function that provides memory has to do: it returns at least as many
bytes as asked for, aligned, and never any that it returned before. -/
def ProviderOk (fn : List (Nat × Nat) → Nat → Option (Nat × Nat)) : Prop :=
  ∀ given n a len, fn given n = some (a, len) →
    n ≤ len ∧ 0 < a ∧ 16 ∣ a ∧ a + len ≤ 2 ^ 62 ∧ ∀ g ∈ given, a + len ≤ g.1 ∨ g.1 + g.2 ≤ a

theorem Heap.addBlock_spec {s : Heap} {F B : List Chunk} {a : Nat} (h : HInv s F B)
    (hfn : ProviderOk s.fn) (h16 : 16 ∣ a) (ha : a + 80 < 2 ^ 64) :
    (s.addBlock a = some (false, s) ∧ s.fn s.given (a + 16) = none) ∨
    ∃ s' F', s.addBlock a = some (true, s') ∧ HInv s' F' B ∧ (∃ f ∈ F', a ≤ f.c) ∧
      Frame s.mem s'.mem s'.own B ∧ s'.fn = s.fn ∧ (∀ x, s.own x → s'.own x) := by
  unfold Heap.addBlock
  have hal : alignedOffset a defaultAlign = a := by
    unfold alignedOffset defaultAlign wrap
    omega
  rw [if_neg (by rw [hal]; simp)]
  have hhs : headerSize = 16 := rfl
  rw [hhs, wrap_eq (a + 16) (by omega)]
  cases hf : s.fn s.given (a + 16) with
  | none => exact Or.inl ⟨rfl, rfl⟩
  | some r =>
    obtain ⟨ptr, len⟩ := r
    right
    obtain ⟨p1, p2, p3, p4, p5⟩ := hfn _ _ _ _ hf
    simp only []
    rw [sub64_eq len 16 (by omega) (by omega)]
    have hown : ∀ x, s.own x → ¬ (ptr ≤ x ∧ x < ptr + len) := by
      rintro x ⟨g, hg, h1, h2⟩ ⟨h3, h4⟩
      rcases p5 g hg with h5 | h5 <;> omega
    have hsep : ∀ k, Good s.own k → Sep (⟨ptr, len - 16⟩ : Chunk) k := by
      intro k gk
      have hkf : k.fin = k.h + 16 + k.c := rfl
      have hf : (⟨ptr, len - 16⟩ : Chunk).fin = ptr + len := by
        unfold Chunk.fin; simp only []; omega
      unfold Sep
      rw [hf]
      by_cases h1 : ptr + len ≤ k.h
      · exact Or.inl h1
      · right
        by_cases h2 : k.fin ≤ ptr
        · exact h2
        · exfalso
          by_cases h3 : ptr ≤ k.h
          · exact hown k.h (gk.inside k.h (Nat.le_refl _) (by omega)) ⟨h3, by omega⟩
          · exact hown ptr (gk.inside ptr (by omega) (by omega)) ⟨by omega, by omega⟩
    let s1 : Heap := { s with mem := setNext (setSize s.mem ptr (len - 16)) ptr 0,
                              given := (ptr, len) :: s.given }
    have hmono : ∀ x, s.own x → s1.own x := by
      rintro x ⟨g, hg, h1, h2⟩
      exact ⟨g, List.mem_cons_of_mem _ hg, h1, h2⟩
    have hmem : ∀ x, ¬ (ptr ≤ x ∧ x < ptr + len) → s1.mem x = s.mem x := by
      intro x hx
      show setNext (setSize s.mem ptr (len - 16)) ptr 0 x = s.mem x
      rw [setNext_ne _ _ _ _ (by omega), setSize_ne _ _ _ _ (by omega)]
    have hfr : Frame s.mem s1.mem s1.own B := by
      constructor
      · intro k hk x h1 h2
        exact hmem x (hown x ((h.lay.goodB k hk).inside x h1 h2))
      · intro x hx
        refine hmem x fun hx' => hx ⟨(ptr, len), List.mem_cons_self, hx'.1, hx'.2⟩
    have gnew : Good s1.own ⟨ptr, len - 16⟩ := by
      refine ⟨p2, p3, ?_, ?_⟩
      · unfold Chunk.fin
        simp only []
        omega
      · intro x h1 h2
        unfold Chunk.fin at h2
        simp only [] at h1 h2
        exact ⟨(ptr, len), List.mem_cons_self, h1, by show x < ptr + len; omega⟩
    have hl := h.lay.mono hmono
    have hinv : HInv s1 F (⟨ptr, len - 16⟩ :: B) := by
      refine ⟨⟨hl.sorted, hl.goodF, ?_, ?_, ?_⟩, h.strict, ?_, ?_, ?_⟩
      · intro k hk
        rcases List.mem_cons.mp hk with rfl | hk
        · exact gnew
        · exact hl.goodB k hk
      · exact List.pairwise_cons.mpr ⟨fun k hk => hsep k (h.lay.goodB k hk), hl.sepB⟩
      · intro f hf k hk
        rcases List.mem_cons.mp hk with rfl | hk
        · exact (hsep f (h.lay.goodF f hf)).symm
        · exact hl.sepFB f hf k hk
      · rintro x ⟨g, hg, h1, h2⟩
        rcases List.mem_cons.mp hg with rfl | hg
        · refine Or.inr (In.cons.mpr (Or.inl ?_))
          unfold Chunk.fin
          simp only [] at *
          omega
        · exact (h.cover x ⟨g, hg, h1, h2⟩).imp id fun hx => In.cons.mpr (Or.inr hx)
      · refine chain_congr s.mem s1.mem F _ _ (fun f hf x h1 h2 => ?_) h.chain
        exact hmem x (hown x ((h.lay.goodF f hf).inside x h1 (by unfold Chunk.fin; omega)))
      · intro k hk
        rcases List.mem_cons.mp hk with rfl | hk
        · refine ⟨?_, nextOf_setNext _ _ _ (by omega)⟩
          show sizeOf' (setNext _ _ _) ptr = _
          rw [sizeOf_setNext, sizeOf_setSize _ _ _ (by omega)]
        · exact hdr_frame hfr h.hdr k hk
    obtain ⟨s', F', hfree, hinv', ⟨f, hf', hfc⟩, hfr', hfn', hgiv⟩ := Heap.free_spec hinv
    have hown' : s'.own = s1.own := by
      funext x
      unfold Heap.own
      rw [hgiv]
    refine ⟨s', F', ?_, hinv', ⟨f, hf', by simp only [] at hfc; omega⟩, ?_, by rw [hfn'], ?_⟩
    · show (do let s ← Heap.free s1 (ptr + 16); some (true, s)) = _
      have : Heap.free s1 (ptr + 16) = some s' := hfree
      rw [this]
      rfl
    · rw [hown']
      exact hfr.trans hfr'
    · rw [hown']
      exact hmono

theorem Heap.alloc_found {s : Heap} {F B : List Chunk} {a : Nat} (h : HInv s F B)
    (hnil : s.freeList ≠ 0) (h16 : 16 ∣ a) (ha : a + 80 < 2 ^ 64) (hex : ∃ f ∈ F, a ≤ f.c) :
    ∃ s' F' k, s.alloc a = some (.ok s' (k.h + 16)) ∧ HInv s' F' (k :: B) ∧ a ≤ k.c ∧
      Frame s.mem s'.mem s.own B ∧ s'.fn = s.fn ∧ s'.given = s.given := by
  have hal : alignedOffset a defaultAlign = a := by
    unfold alignedOffset defaultAlign wrap
    omega
  rw [Heap.alloc]
  simp only [hal]
  rw [if_neg hnil]
  rcases findLoop_spec s.mem a F s.freeList s.freeList (fun f hf => (h.lay.goodF f hf).pos) h.chain
    with ⟨P, k, Q, e, h1, h2, h3⟩ | ⟨h1, _⟩
  · subst e
    obtain ⟨F', k', i1, i2, i3, i4, i5, i6⟩ := Heap.take_spec h h1.le h16
    have hk := (h.lay.goodF k (List.mem_append_right _ List.mem_cons_self)).pos
    refine ⟨_, F', k', ?_, i1, i3, i4, i5, i6⟩
    simp [h3, i2, Nat.ne_of_gt hk, headerSize]
  · obtain ⟨f, hf, hfa⟩ := hex
    exact absurd (fit_of_le hfa ha) (h1 f hf)

/-- Allocating: it comes to an end, and gives a chunk of at least as many bytes
that nothing else uses; or a fault, and then nothing was changed. -/
theorem Heap.alloc_spec {s : Heap} {F B : List Chunk} {bytes : Nat} (h : HInv s F B)
    (hfn : ProviderOk s.fn) (hb : bytes + 128 < 2 ^ 64) :
    (s.alloc bytes = some (.fault s) ∧ s.fn s.given (16 * ((bytes + 15) / 16) + 16) = none ∧
      ∀ f ∈ F, f.c < 16 * ((bytes + 15) / 16)) ∨
    ∃ s' F' k, s.alloc bytes = some (.ok s' (k.h + 16)) ∧ HInv s' F' (k :: B) ∧ bytes ≤ k.c ∧
      Frame s.mem s'.mem s'.own B ∧ s'.fn = s.fn ∧ (∀ x, s.own x → s'.own x) ∧
      ((∃ f ∈ F, 16 * ((bytes + 15) / 16) ≤ f.c) → s'.given = s.given) := by
  have hal : ∃ a, alignedOffset bytes defaultAlign = a ∧ bytes ≤ a ∧ 16 ∣ a ∧ a + 80 < 2 ^ 64 ∧
      alignedOffset a defaultAlign = a ∧ 16 * ((bytes + 15) / 16) = a := by
    refine ⟨_, rfl, ?_⟩
    unfold alignedOffset defaultAlign wrap
    omega
  obtain ⟨a, ea, hba, h16, ha, ea', era⟩ := hal
  rw [era]
  have hsame : ∀ (s : Heap), s.freeList ≠ 0 → s.alloc bytes = s.alloc a := by
    intro s hs
    rw [Heap.alloc, Heap.alloc]
    simp only [ea, ea']
  have hfound : ∀ {s1 : Heap} {F1 : List Chunk}, HInv s1 F1 B → Frame s.mem s1.mem s1.own B →
      s1.fn = s.fn → (∀ x, s.own x → s1.own x) → (∃ f ∈ F1, a ≤ f.c) →
      s1.freeList ≠ 0 ∧ ∃ s' F' k, s1.alloc a = some (.ok s' (k.h + 16)) ∧ HInv s' F' (k :: B) ∧
        bytes ≤ k.c ∧ Frame s.mem s'.mem s'.own B ∧ s'.fn = s.fn ∧ (∀ x, s.own x → s'.own x) ∧
        s'.given = s1.given := by
    intro s1 F1 i1 i2 i3 i4 i5
    have hnz : s1.freeList ≠ 0 := by
      have hh := chain_head i1.chain
      obtain ⟨f, hf, _⟩ := i5
      cases F1 with
      | nil => simp at hf
      | cons g G =>
        have : s1.freeList = g.h := hh
        have := (i1.lay.goodF g List.mem_cons_self).pos
        omega
    refine ⟨hnz, ?_⟩
    obtain ⟨s', F', k, j1, j2, j3, j4, j5, j6⟩ := Heap.alloc_found i1 hnz h16 ha i5
    have hown' : s'.own = s1.own := by
      funext x
      unfold Heap.own
      rw [j6]
    refine ⟨s', F', k, j1, j2, by omega, ?_, by rw [j5, i3], ?_⟩
    · rw [hown']
      exact i2.trans j4
    · rw [hown']
      exact ⟨i4, j6⟩
  by_cases hnil : s.freeList = 0
  · -- nothing is free
    rw [Heap.alloc]
    simp only [ea]
    rw [if_pos hnil]
    rcases Heap.addBlock_spec h hfn h16 ha with ⟨hadd, hno⟩ | ⟨s1, F1, hadd, i1, i2, i3, i4, i5⟩
    · left
      rw [hadd]
      refine ⟨rfl, hno, ?_⟩
      intro f hf
      have hh := chain_head h.chain
      cases F with
      | nil => simp at hf
      | cons g G =>
        have : s.freeList = g.h := hh
        have := (h.lay.goodF g List.mem_cons_self).pos
        omega
    · right
      obtain ⟨hnz, s', F', k, j⟩ := hfound i1 i3 i4 i5 i2
      refine ⟨s', F', k, ?_, j.2.1, j.2.2.1, j.2.2.2.1, j.2.2.2.2.1, j.2.2.2.2.2.1, ?_⟩
      rotate_left
      · rintro ⟨f, hf, _⟩
        have hh := chain_head h.chain
        cases F with
        | nil => simp at hf
        | cons g G =>
          have : s.freeList = g.h := hh
          have := (h.lay.goodF g List.mem_cons_self).pos
          omega
      rw [hadd, ← j.1]
      conv => rhs; rw [Heap.alloc]
      simp only [ea']
      rw [if_neg hnz]
  · by_cases hex : ∃ f ∈ F, a ≤ f.c
    · right
      obtain ⟨hnz, s', F', k, j⟩ := hfound h (Frame.refl _ _ _) rfl (fun _ h => h) hex
      exact ⟨s', F', k, by rw [hsame s hnil]; exact j.1, j.2.1, j.2.2.1, j.2.2.2.1, j.2.2.2.2.1,
        j.2.2.2.2.2.1, fun _ => j.2.2.2.2.2.2⟩
    · rw [Heap.alloc]
      simp only [ea]
      rw [if_neg hnil]
      rcases findLoop_spec s.mem a F s.freeList s.freeList
        (fun f hf => (h.lay.goodF f hf).pos) h.chain with ⟨P, k, Q, e, h1, h2, h3⟩ | ⟨_, x, h1⟩
      · exact absurd ⟨k, by rw [e]; exact List.mem_append_right _ List.mem_cons_self, h1.le⟩ hex
      · rcases Heap.addBlock_spec h hfn h16 ha with ⟨hadd, hno⟩ | ⟨s1, F1, hadd, i1, i2, i3, i4, i5⟩
        · left
          refine ⟨by simp [h1, hadd], hno, fun f hf => ?_⟩
          exact Nat.lt_of_not_le fun hle => hex ⟨f, hf, hle⟩
        · right
          obtain ⟨hnz, s', F', k, j⟩ := hfound i1 i3 i4 i5 i2
          refine ⟨s', F', k, ?_, j.2.1, j.2.2.1, j.2.2.2.1, j.2.2.2.2.1, j.2.2.2.2.2.1,
            fun h => absurd h hex⟩
          simp [h1, hadd, j.1]

end C3.StdMem
