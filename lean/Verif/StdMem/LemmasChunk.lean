import Verif.StdMem.Heap
import Verif.StdMem.LemmasMem

set_option autoImplicit false

namespace C3.StdMem

/-- A block of the heap: the address of its header and the bytes after that. -/
structure Chunk where
  h : Nat
  c : Nat

/-- The end of a chunk. -/
def Chunk.fin (k : Chunk) : Nat := k.h + 16 + k.c

/-- Two chunks have no byte in common. -/
def Sep (a b : Chunk) : Prop := a.fin ≤ b.h ∨ b.fin ≤ a.h

theorem Sep.symm {a b : Chunk} (h : Sep a b) : Sep b a := h.elim Or.inr Or.inl

/-- What holds of any chunk. -/
structure Good (own : Nat → Prop) (k : Chunk) : Prop where
  pos : 0 < k.h
  al : 16 ∣ k.h
  lt : k.fin ≤ 2 ^ 62
  inside : ∀ x, k.h ≤ x → x < k.fin → own x

/-- The layout of free chunks (`F`, in order) and of those in use (`B`). -/
structure Lay (own : Nat → Prop) (F B : List Chunk) : Prop where
  sorted : F.Pairwise (fun a b => a.fin ≤ b.h)
  goodF : ∀ k ∈ F, Good own k
  goodB : ∀ k ∈ B, Good own k
  sepB : B.Pairwise Sep
  sepFB : ∀ f ∈ F, ∀ k ∈ B, Sep f k

theorem Lay.mono {own own' : Nat → Prop} {F B : List Chunk} (h : Lay own F B)
    (hm : ∀ x, own x → own' x) : Lay own' F B :=
  ⟨h.sorted, fun k hk => ⟨(h.goodF k hk).pos, (h.goodF k hk).al, (h.goodF k hk).lt,
      fun x h1 h2 => hm x ((h.goodF k hk).inside x h1 h2)⟩,
    fun k hk => ⟨(h.goodB k hk).pos, (h.goodB k hk).al, (h.goodB k hk).lt,
      fun x h1 h2 => hm x ((h.goodB k hk).inside x h1 h2)⟩, h.sepB, h.sepFB⟩

theorem Lay.perm {own : Nat → Prop} {F B B' : List Chunk} (h : Lay own F B) (hp : B.Perm B') :
    Lay own F B' :=
  ⟨h.sorted, h.goodF, fun k hk => h.goodB k (hp.mem_iff.mpr hk),
    (hp.pairwise_iff (fun h => h.symm)).mp h.sepB, fun f hf k hk => h.sepFB f hf k (hp.mem_iff.mpr hk)⟩

theorem split_sorted (F : List Chunk) (k : Chunk) (hs : F.Pairwise (fun a b => a.fin ≤ b.h))
    (hsep : ∀ f ∈ F, Sep f k) :
    ∃ P Q, F = P ++ Q ∧ (∀ p ∈ P, p.fin ≤ k.h) ∧ ∀ q ∈ Q, k.fin ≤ q.h := by
  induction F with
  | nil => exact ⟨[], [], rfl, by simp, by simp⟩
  | cons f F ih =>
    rw [List.pairwise_cons] at hs
    rcases hsep f List.mem_cons_self with h | h
    · obtain ⟨P, Q, e, hP, hQ⟩ := ih hs.2 fun g hg => hsep g (List.mem_cons_of_mem _ hg)
      refine ⟨f :: P, Q, by rw [e]; rfl, ?_, hQ⟩
      intro p hp
      rcases List.mem_cons.mp hp with rfl | hp
      · exact h
      · exact hP p hp
    · refine ⟨[], f :: F, rfl, by simp, ?_⟩
      intro q hq
      rcases List.mem_cons.mp hq with rfl | hq
      · exact h
      · have := hs.1 q hq
        have e1 : f.h ≤ f.fin := by unfold Chunk.fin; omega
        omega

/-- A chunk in use is made free. -/
theorem Lay.give {own : Nat → Prop} {P Q B : List Chunk} {k : Chunk} (h : Lay own (P ++ Q) (k :: B))
    (hP : ∀ p ∈ P, p.fin ≤ k.h) (hQ : ∀ q ∈ Q, k.fin ≤ q.h) : Lay own (P ++ k :: Q) B := by
  have hs := List.pairwise_append.mp h.sorted
  have hB := List.pairwise_cons.mp h.sepB
  refine ⟨?_, ?_, fun b hb => h.goodB b (List.mem_cons_of_mem _ hb), hB.2, ?_⟩
  · refine List.pairwise_append.mpr ⟨hs.1, List.pairwise_cons.mpr ⟨hQ, hs.2.1⟩, ?_⟩
    intro a ha b hb
    rcases List.mem_cons.mp hb with rfl | hb
    · exact hP a ha
    · exact hs.2.2 a ha b hb
  · intro f hf
    rcases List.mem_append.mp hf with hf | hf
    · exact h.goodF f (List.mem_append_left _ hf)
    · rcases List.mem_cons.mp hf with rfl | hf
      · exact h.goodB _ List.mem_cons_self
      · exact h.goodF f (List.mem_append_right _ hf)
  · intro f hf b hb
    rcases List.mem_append.mp hf with hf | hf
    · exact h.sepFB f (List.mem_append_left _ hf) b (List.mem_cons_of_mem _ hb)
    · rcases List.mem_cons.mp hf with rfl | hf
      · exact hB.1 b hb
      · exact h.sepFB f (List.mem_append_right _ hf) b (List.mem_cons_of_mem _ hb)

theorem sep_of_sorted_mem {P Q : List Chunk} {k : Chunk}
    (h : (P ++ k :: Q).Pairwise (fun a b => a.fin ≤ b.h)) :
    (∀ p ∈ P, p.fin ≤ k.h) ∧ ∀ q ∈ Q, k.fin ≤ q.h := by
  have h := List.pairwise_append.mp h
  exact ⟨fun p hp => h.2.2 p hp k List.mem_cons_self, (List.pairwise_cons.mp h.2.1).1⟩

/-- A free chunk is taken into use. -/
theorem Lay.grab {own : Nat → Prop} {P Q B : List Chunk} {k : Chunk} (h : Lay own (P ++ k :: Q) B) :
    Lay own (P ++ Q) (k :: B) := by
  have hs := List.pairwise_append.mp h.sorted
  have hk := sep_of_sorted_mem h.sorted
  have hmem : ∀ f ∈ P ++ Q, f ∈ P ++ k :: Q := by
    intro f hf
    rcases List.mem_append.mp hf with hf | hf
    · exact List.mem_append_left _ hf
    · exact List.mem_append_right _ (List.mem_cons_of_mem _ hf)
  have hkm : k ∈ P ++ k :: Q := List.mem_append_right _ List.mem_cons_self
  refine ⟨?_, fun f hf => h.goodF f (hmem f hf), ?_, ?_, ?_⟩
  · refine List.pairwise_append.mpr ⟨hs.1, (List.pairwise_cons.mp hs.2.1).2, ?_⟩
    intro a ha b hb
    exact hs.2.2 a ha b (List.mem_cons_of_mem _ hb)
  · intro b hb
    rcases List.mem_cons.mp hb with rfl | hb
    · exact h.goodF _ hkm
    · exact h.goodB b hb
  · exact List.pairwise_cons.mpr ⟨fun b hb => h.sepFB k hkm b hb, h.sepB⟩
  · intro f hf b hb
    rcases List.mem_cons.mp hb with rfl | hb
    · rcases List.mem_append.mp hf with hf | hf
      · exact Or.inl (hk.1 f hf)
      · exact Or.inr (hk.2 f hf)
    · exact h.sepFB f (hmem f hf) b hb

/-- Two free chunks without a gap are made one. -/
theorem Lay.merge {own : Nat → Prop} {X Y B : List Chunk} {a b : Chunk}
    (h : Lay own (X ++ a :: b :: Y) B) (he : a.fin = b.h) :
    Lay own (X ++ ⟨a.h, a.c + (b.c + 16)⟩ :: Y) B := by
  have hs := List.pairwise_append.mp h.sorted
  have hs2 := List.pairwise_cons.mp hs.2.1
  have hs3 := List.pairwise_cons.mp hs2.2
  have hfin : (⟨a.h, a.c + (b.c + 16)⟩ : Chunk).fin = b.fin := by
    unfold Chunk.fin at *
    simp only []
    omega
  have ha : a ∈ X ++ a :: b :: Y := List.mem_append_right _ List.mem_cons_self
  have hb : b ∈ X ++ a :: b :: Y :=
    List.mem_append_right _ (List.mem_cons_of_mem _ List.mem_cons_self)
  have hX : ∀ x ∈ X, x ∈ X ++ a :: b :: Y := fun x hx => List.mem_append_left _ hx
  have hY : ∀ x ∈ Y, x ∈ X ++ a :: b :: Y := fun x hx =>
    List.mem_append_right _ (List.mem_cons_of_mem _ (List.mem_cons_of_mem _ hx))
  refine ⟨?_, ?_, h.goodB, h.sepB, ?_⟩
  · refine List.pairwise_append.mpr ⟨hs.1, List.pairwise_cons.mpr ⟨?_, hs3.2⟩, ?_⟩
    · intro y hy
      rw [hfin]
      exact hs3.1 y hy
    · intro x hx y hy
      rcases List.mem_cons.mp hy with rfl | hy
      · exact hs.2.2 x hx a List.mem_cons_self
      · exact hs.2.2 x hx y (List.mem_cons_of_mem _ (List.mem_cons_of_mem _ hy))
  · intro f hf
    rcases List.mem_append.mp hf with hf | hf
    · exact h.goodF f (hX f hf)
    · rcases List.mem_cons.mp hf with rfl | hf
      · refine ⟨(h.goodF a ha).pos, (h.goodF a ha).al, by rw [hfin]; exact (h.goodF b hb).lt, ?_⟩
        intro x h1 h2
        rw [hfin] at h2
        by_cases hx : x < a.fin
        · exact (h.goodF a ha).inside x h1 hx
        · exact (h.goodF b hb).inside x (by omega) h2
      · exact h.goodF f (hY f hf)
  · intro f hf k hk
    rcases List.mem_append.mp hf with hf | hf
    · exact h.sepFB f (hX f hf) k hk
    · rcases List.mem_cons.mp hf with rfl | hf
      · have s1 := h.sepFB a ha k hk
        have s2 := h.sepFB b hb k hk
        unfold Sep at *
        rw [hfin]
        show b.fin ≤ k.h ∨ k.fin ≤ a.h
        have : b.h < b.fin := by unfold Chunk.fin; omega
        have : k.h < k.fin := by unfold Chunk.fin; omega
        rcases s1 with s1 | s1
        · rcases s2 with s2 | s2
          · exact Or.inl s2
          · omega
        · exact Or.inr s1
      · exact h.sepFB f (hY f hf) k hk

/-- A free chunk is made two. -/
theorem Lay.split {own : Nat → Prop} {X Y B : List Chunk} {k : Chunk} {a : Nat}
    (h : Lay own (X ++ k :: Y) B) (ha : 16 ∣ a) (hlt : a + 16 ≤ k.c) :
    Lay own (X ++ ⟨k.h, a⟩ :: ⟨k.h + a + 16, k.c - a - 16⟩ :: Y) B := by
  have hs := List.pairwise_append.mp h.sorted
  have hs2 := List.pairwise_cons.mp hs.2.1
  have f1 : (⟨k.h, a⟩ : Chunk).fin = k.h + a + 16 := by unfold Chunk.fin; simp only []; omega
  have f2 : (⟨k.h + a + 16, k.c - a - 16⟩ : Chunk).fin = k.fin := by
    unfold Chunk.fin; simp only []; omega
  have hf : k.fin = k.h + 16 + k.c := rfl
  have hk : k ∈ X ++ k :: Y := List.mem_append_right _ List.mem_cons_self
  have hX : ∀ x ∈ X, x ∈ X ++ k :: Y := fun x hx => List.mem_append_left _ hx
  have hY : ∀ x ∈ Y, x ∈ X ++ k :: Y := fun x hx =>
    List.mem_append_right _ (List.mem_cons_of_mem _ hx)
  have gk := h.goodF k hk
  have := gk.pos
  have := gk.lt
  refine ⟨?_, ?_, h.goodB, h.sepB, ?_⟩
  · refine List.pairwise_append.mpr ⟨hs.1, List.pairwise_cons.mpr ⟨?_,
      List.pairwise_cons.mpr ⟨?_, hs2.2⟩⟩, ?_⟩
    · intro y hy
      rw [f1]
      rcases List.mem_cons.mp hy with rfl | hy
      · exact Nat.le_refl _
      · have := hs2.1 y hy
        omega
    · intro y hy
      rw [f2]
      exact hs2.1 y hy
    · intro x hx y hy
      have hxk := hs.2.2 x hx k List.mem_cons_self
      rcases List.mem_cons.mp hy with rfl | hy
      · exact hxk
      · rcases List.mem_cons.mp hy with rfl | hy
        · show x.fin ≤ k.h + a + 16
          omega
        · exact hs.2.2 x hx y (List.mem_cons_of_mem _ hy)
  · intro f hf
    rcases List.mem_append.mp hf with hf | hf
    · exact h.goodF f (hX f hf)
    · rcases List.mem_cons.mp hf with rfl | hf
      · refine ⟨gk.pos, gk.al, by rw [f1]; omega, ?_⟩
        intro x h1 h2
        rw [f1] at h2
        exact gk.inside x h1 (by omega)
      · rcases List.mem_cons.mp hf with rfl | hf
        · refine ⟨by show 0 < k.h + a + 16; omega, ?_, by rw [f2]; exact gk.lt, ?_⟩
          · have := gk.al
            show 16 ∣ k.h + a + 16
            omega
          · intro x h1 h2
            rw [f2] at h2
            exact gk.inside x (by simp only [] at h1; omega) h2
        · exact h.goodF f (hY f hf)
  · intro f hf b hb
    rcases List.mem_append.mp hf with hf | hf
    · exact h.sepFB f (hX f hf) b hb
    · have s1 := h.sepFB k hk b hb
      rcases List.mem_cons.mp hf with rfl | hf
      · unfold Sep at *
        rw [f1]
        show k.h + a + 16 ≤ b.h ∨ b.fin ≤ k.h
        omega
      · rcases List.mem_cons.mp hf with rfl | hf
        · unfold Sep at *
          rw [f2]
          show k.fin ≤ b.h ∨ b.fin ≤ k.h + a + 16
          omega
        · exact h.sepFB f (hY f hf) b hb

/-- The links of the free list from the pointer `a` on, up to the pointer `e`. -/
def Chain (m : Mem) : Nat → List Chunk → Nat → Prop
  | a, [], e => a = e
  | a, k :: ks, e => a = k.h ∧ sizeOf' m k.h = k.c ∧ Chain m (nextOf m k.h) ks e

theorem chain_append (m : Mem) (F G : List Chunk) (a e : Nat) :
    Chain m a (F ++ G) e ↔ ∃ x, Chain m a F x ∧ Chain m x G e := by
  induction F generalizing a with
  | nil =>
    simp only [List.nil_append, Chain]
    exact ⟨fun h => ⟨a, rfl, h⟩, fun ⟨x, h, h'⟩ => by rw [h]; exact h'⟩
  | cons k F ih =>
    simp only [List.cons_append, Chain, ih]
    exact ⟨fun ⟨h1, h2, x, h3, h4⟩ => ⟨x, ⟨h1, h2, h3⟩, h4⟩,
      fun ⟨x, ⟨h1, h2, h3⟩, h4⟩ => ⟨h1, h2, x, h3, h4⟩⟩

theorem sizeOf_congr (m m' : Mem) (h : Nat) (hm : ∀ x, h ≤ x → x < h + 16 → m' x = m x) :
    sizeOf' m' h = sizeOf' m h :=
  rd64_congr _ _ _ fun i hi => hm _ (by omega) (by omega)

theorem nextOf_congr (m m' : Mem) (h : Nat) (hm : ∀ x, h ≤ x → x < h + 16 → m' x = m x) :
    nextOf m' h = nextOf m h :=
  rd64_congr _ _ _ fun i hi => hm _ (by omega) (by omega)

theorem chain_congr (m m' : Mem) (F : List Chunk) (a e : Nat)
    (hm : ∀ k ∈ F, ∀ x, k.h ≤ x → x < k.h + 16 → m' x = m x) (h : Chain m a F e) :
    Chain m' a F e := by
  induction F generalizing a with
  | nil => exact h
  | cons k F ih =>
    obtain ⟨h1, h2, h3⟩ := h
    have hk := hm k List.mem_cons_self
    refine ⟨h1, by rw [sizeOf_congr m m' _ hk]; exact h2, ?_⟩
    rw [nextOf_congr m m' _ hk]
    exact ih _ (fun k' hk' => hm k' (List.mem_cons_of_mem _ hk')) h3

theorem setSize_ne (m : Mem) (h v x : Nat) (hx : x < h ∨ h + 16 ≤ x) : setSize m h v x = m x :=
  wr64_ne _ _ _ _ (by omega)

theorem setNext_ne (m : Mem) (h v x : Nat) (hx : x < h ∨ h + 16 ≤ x) : setNext m h v x = m x :=
  wr64_ne _ _ _ _ (by omega)

theorem sizeOf_setSize (m : Mem) (h v : Nat) (hv : v < 2 ^ 64) : sizeOf' (setSize m h v) h = v :=
  rd64_wr64 _ _ _ hv

theorem sizeOf_setNext (m : Mem) (h v : Nat) : sizeOf' (setNext m h v) h = sizeOf' m h :=
  rd64_wr64_ne _ _ _ _ (by omega)

theorem nextOf_setNext (m : Mem) (h v : Nat) (hv : v < 2 ^ 64) : nextOf (setNext m h v) h = v :=
  rd64_wr64 _ _ _ hv

theorem nextOf_setSize (m : Mem) (h v : Nat) : nextOf (setSize m h v) h = nextOf m h :=
  rd64_wr64_ne _ _ _ _ (by omega)

end C3.StdMem
