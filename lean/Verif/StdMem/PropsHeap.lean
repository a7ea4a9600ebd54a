import Verif.StdMem.LemmasHeapOps

/-!
# SimpleHeapAllocator

C71: the blocks of a heap are inside of the memory given to it, aligned and
apart, and keep their contents; every call comes to an end, and what is given
back can be used again.
-/

set_option autoImplicit false

namespace C3.StdMem

/-- C71, in full: whatever a program does within the contracts of the
interface, no call stops it, the blocks it has are sound and keep their
contents. -/
def C71_full : Prop :=
  ∀ (mem : Mem) (fn : List (Nat × Nat) → Nat → Option (Nat × Nat)), ProviderOk fn →
    ∀ w : World Heap, Reach heap (Heap.init mem fn) (fun _ _ => True) w →
    Sound w.st.own w.live ∧
      ∀ op : Op, op.Allowed w.live → ∃ w', step heap w op = some w' ∧ Keeps heap w'.st.own w w' op

/-- C71: as long as no more than `isz.max` bytes are asked for, the blocks are
inside of the memory given to the heap, aligned as asked for and apart. -/
theorem C71_sound_partial (mem : Mem) (fn : List (Nat × Nat) → Nat → Option (Nat × Nat))
    (hf : ProviderOk fn) (w : World Heap) (h : Reach heap (Heap.init mem fn) NotHuge w) :
    Sound w.st.own w.live := (Heap.reach_inv hf h).sound

/-- C71: as long as no more than `isz.max` bytes are asked for, every call comes
to an end, keeps the contents of the other blocks, a resized block keeps what
fits, a block asked to be zero is, nothing outside of the memory given to the
heap is written, and no memory given to it is forgotten. -/
theorem C71_keeps_partial (mem : Mem) (fn : List (Nat × Nat) → Nat → Option (Nat × Nat))
    (hf : ProviderOk fn) (w : World Heap) (h : Reach heap (Heap.init mem fn) NotHuge w)
    (op : Op) (ha : op.Allowed w.live) (hok : NotHuge w op) :
    ∃ w', step heap w op = some w' ∧ Keeps heap w'.st.own w w' op ∧
      ∀ x, w.st.own x → w'.st.own x := by
  obtain ⟨w', h1, _, h2, h3⟩ := Heap.step_spec (Heap.reach_inv hf h) ha hok
  exact ⟨w', h1, h2, h3⟩

/-- C71: a block is refused only if the heap asked for memory and got none. -/
theorem C71_refused (mem : Mem) (fn : List (Nat × Nat) → Nat → Option (Nat × Nat))
    (hf : ProviderOk fn) (w : World Heap) (h : Reach heap (Heap.init mem fn) NotHuge w)
    (size : Nat) (zero : Bool) (hs : size < 2 ^ 63) (s : Heap)
    (hr : w.st.acquire size zero 0 = .fault s) :
    s = w.st ∧ w.st.fn w.st.given (16 * ((size + 15) / 16) + 16) = none := by
  obtain ⟨F, hF⟩ := (Heap.reach_inv hf h).inv
  have hacq : w.st.acquire size zero 0 = w.st.zalloc size zero := rfl
  rw [hacq] at hr
  rcases Heap.zalloc_spec (zero := zero) hF (Heap.reach_inv hf h).fn (bytes := size) (by omega) with
    ⟨ha, hno⟩ | ⟨s', F', k, ha, _⟩
  · rw [ha] at hr
    injection hr with hr
    exact ⟨hr.symm, hno⟩
  · rw [ha] at hr
    simp at hr

/-- C71: when all blocks were given back, any region that was given to the heap
is there for a block again, as large as the region without its header; no more
memory is asked for. -/
theorem C71_no_loss (mem : Mem) (fn : List (Nat × Nat) → Nat → Option (Nat × Nat))
    (hf : ProviderOk fn) (w : World Heap) (h : Reach heap (Heap.init mem fn) NotHuge w)
    (hl : w.live = []) (g : Nat × Nat) (hg : g ∈ w.st.given) (size : Nat) (zero : Bool)
    (hs : 16 * ((size + 15) / 16) + 16 ≤ g.2) :
    ∃ s p, w.st.acquire size zero 0 = .ok s p ∧ s.given = w.st.given := by
  obtain ⟨F, hF⟩ := (Heap.reach_inv hf h).inv
  rw [hl] at hF
  obtain ⟨k, hk, h1, h2⟩ := HInv.region hF hg (by omega)
  have hfin : k.fin = k.h + 16 + k.c := rfl
  have hlt := (hF.lay.goodF k hk).lt
  have hfit : ∃ f ∈ F, 16 * ((size + 15) / 16) ≤ f.c := ⟨k, hk, by omega⟩
  have hacq : w.st.acquire size zero 0 = w.st.zalloc size zero := rfl
  rw [hacq]
  unfold Heap.zalloc
  rcases Heap.alloc_spec hF (Heap.reach_inv hf h).fn (bytes := size) (by omega) with
    ⟨_, _, hno⟩ | ⟨s', F', k', ha, _, _, _, _, _, hgv⟩
  · obtain ⟨f, hf', hle⟩ := hfit
    have := hno f hf'
    omega
  · rw [ha]
    simp only [outcome]
    by_cases hz : zero = true
    · rw [if_pos hz]
      exact ⟨_, _, rfl, hgv hfit⟩
    · rw [if_neg hz]
      exact ⟨_, _, rfl, hgv hfit⟩

/-- C71: of the last fifteen sizes the heap takes each as 0. -/
theorem C71_huge_as_zero (s : Heap) (size : Nat) (h1 : 2 ^ 64 < size + 16) (h2 : size < 2 ^ 64) :
    s.acquire size false 0 = s.acquire 0 false 0 := by
  have e1 : alignedOffset size defaultAlign = 0 := by
    unfold alignedOffset defaultAlign wrap
    omega
  have e2 : alignedOffset 0 defaultAlign = 0 := by decide
  show s.zalloc size false = s.zalloc 0 false
  unfold Heap.zalloc
  have : s.alloc size = s.alloc 0 := by
    rw [Heap.alloc]
    conv => rhs; rw [Heap.alloc]
    simp only [e1, e2]
  rw [this]
  cases outcome (s.alloc 0) <;> rfl

/-- C71: so a block of such a size is not inside of the memory of the heap
whenever there is one. -/
theorem C71_huge_unsound (mem : Mem) (fn : List (Nat × Nat) → Nat → Option (Nat × Nat))
    (hf : ProviderOk fn) (w w' : World Heap) (h : Reach heap (Heap.init mem fn) NotHuge w)
    (size : Nat) (h1 : 2 ^ 64 < size + 16) (h2 : size < 2 ^ 64)
    (hserved : w.st.fn w.st.given 16 ≠ none)
    (hs : step heap w (.acquire size false 0) = some w') : ¬ Sound w'.st.own w'.live := by
  obtain ⟨F, hF⟩ := (Heap.reach_inv hf h).inv
  have hz : ∃ s F' k, w.st.acquire size false 0 = .ok s (k.h + 16) ∧
      HInv s F' (k :: w.live.map (chunkOf w.st.mem)) := by
    rw [C71_huge_as_zero _ _ h1 h2]
    rcases Heap.zalloc_spec (zero := false) hF (Heap.reach_inv hf h).fn (bytes := 0) (by omega) with
      ⟨_, hno⟩ | ⟨s, F', k, ha, i1, _⟩
    · exact absurd hno hserved
    · exact ⟨s, F', k, ha, i1⟩
  obtain ⟨s, F', k, ha, hi⟩ := hz
  simp only [step, heap, ha] at hs
  injection hs with hs
  subst hs
  intro hsound
  have hlow : ∀ x, s.own x → x < 2 ^ 62 := by
    intro x hx
    rcases hi.cover x hx with ⟨c, hc, _, h4⟩ | ⟨c, hc, _, h4⟩
    · have := (hi.lay.goodF c hc).lt; omega
    · have := (hi.lay.goodB c hc).lt; omega
  have hk := (hi.lay.goodB k List.mem_cons_self).lt
  have hfin : k.fin = k.h + 16 + k.c := rfl
  have := hlow (2 ^ 62) (hsound.inside _ List.mem_cons_self (2 ^ 62)
    (by show k.h + 16 ≤ _; omega) (by show _ < k.h + 16 + size; omega))
  omega

/-- A provider of memory: the next bytes after all that was given. -/
def bump (given : List (Nat × Nat)) (n : Nat) : Option (Nat × Nat) :=
  let top := given.foldr (fun g m => max m (g.1 + g.2)) 4096
  let a := 16 * ((top + 15) / 16)
  let len := 4096 * ((n + 4095) / 4096)
  if a + len ≤ 2 ^ 62 then some (a, len) else none

theorem bump_ok : ProviderOk bump := by
  intro given n a len h
  have htop : ∀ l : List (Nat × Nat), (∀ g ∈ l, g.1 + g.2 ≤
      l.foldr (fun g m => max m (g.1 + g.2)) 4096) ∧
      4096 ≤ l.foldr (fun g m => max m (g.1 + g.2)) 4096 := by
    intro l
    induction l with
    | nil => simp
    | cons f l ih =>
      simp only [List.foldr_cons]
      refine ⟨fun g hg => ?_, by omega⟩
      rcases List.mem_cons.mp hg with rfl | hg
      · omega
      · have := ih.1 g hg
        omega
  obtain ⟨h1, h2⟩ := htop given
  unfold bump at h
  generalize given.foldr (fun g m => max m (g.1 + g.2)) 4096 = top at *
  simp only [] at h
  by_cases hc : 16 * ((top + 15) / 16) + 4096 * ((n + 4095) / 4096) ≤ 2 ^ 62
  · rw [if_pos hc] at h
    simp only [Option.some.injEq, Prod.mk.injEq] at h
    refine ⟨by omega, by omega, by omega, by omega, fun g hg => ?_⟩
    have := h1 g hg
    omega
  · rw [if_neg hc] at h
    simp at h

/-- C71 fails for the last sizes of the range. -/
theorem C71_huge_fails : ¬ C71_full := by
  intro h
  obtain ⟨_, h2⟩ := h (fun _ => 0) bump bump_ok _ Reach.init
  have hal : (Op.acquire (2 ^ 64 - 1) false 0).Allowed [] :=
    ⟨by omega, by omega, Or.inl rfl⟩
  obtain ⟨w', hs, _⟩ := h2 _ hal
  refine C71_huge_unsound (fun _ => 0) bump bump_ok ⟨Heap.init (fun _ => 0) bump, []⟩ w' Reach.init
    (2 ^ 64 - 1) (by omega) (by omega) (by decide) hs ?_
  exact (h (fun _ => 0) bump bump_ok w' (Reach.step _ _ _ Reach.init hal trivial hs)).1

/-- The heap after it got its first region. -/
def firstHeap : Heap :=
  ⟨setNext (setSize (fun _ => 0) 4096 4080) 4096 0, 4096, bump, [(4096, 4096)]⟩

/-- A block can be had from the fresh heap, and another one. -/
example : ∃ w : World Heap, Reach heap (Heap.init (fun _ => 0) bump) NotHuge w ∧
    w.live.map (fun b => (b.size, b.align)) = [(50, 0), (100, 0)] := by
  have one : ∀ (w : World Heap) (n : Nat), Reach heap (Heap.init (fun _ => 0) bump) NotHuge w →
      0 < n → n < 2 ^ 63 → w.st.fn w.st.given (16 * ((n + 15) / 16) + 16) ≠ none →
      ∃ s p, Reach heap (Heap.init (fun _ => 0) bump) NotHuge ⟨s, ⟨p, n, 0⟩ :: w.live⟩ ∧
        w.st.acquire n false 0 = .ok s p := by
    intro w n hw h0 h1 h2
    cases hacq : w.st.acquire n false 0 with
    | ok s p =>
      refine ⟨s, p, Reach.step w _ (.acquire n false 0) hw ⟨h0, by omega, Or.inl rfl⟩ h1 ?_, rfl⟩
      simp only [step, heap, hacq]
    | fault s => exact absurd (C71_refused _ _ bump_ok w hw n false h1 s hacq).2 h2
    | panic =>
      obtain ⟨w', hs, _⟩ := C71_keeps_partial _ _ bump_ok w hw (.acquire n false 0)
        ⟨h0, by omega, Or.inl rfl⟩ h1
      simp only [step, heap, hacq] at hs
      simp at hs
  obtain ⟨s1, p1, r1, e1⟩ := one _ 100 Reach.init (by omega) (by omega) (by decide)
  have hg1 : s1.fn s1.given (16 * ((50 + 15) / 16) + 16) ≠ none := by
    have hadd : (Heap.init (fun _ => 0) bump).addBlock 112 = some (true, firstHeap) := by rfl
    have hfind : findLoop firstHeap.mem 112 4096 4096 = some (4096, 4096) := by
      rw [findLoop, if_neg (by decide), if_pos (by decide +kernel)]
    have hal : (Heap.init (fun _ => 0) bump).alloc 100 =
        some (.ok (firstHeap.take 112 4096 4096) 4112) := by
      rw [Heap.alloc]
      have e : alignedOffset 100 defaultAlign = 112 := by decide
      have e2 : (Heap.init (fun _ => 0) bump).freeList = 0 := rfl
      have e3 : firstHeap.freeList = 4096 := rfl
      simp [e, e2, hadd, e3, hfind, headerSize]
    have hacq : (Heap.init (fun _ => 0) bump).acquire 100 false 0 =
        .ok (firstHeap.take 112 4096 4096) 4112 := by
      show (Heap.init (fun _ => 0) bump).zalloc 100 false = _
      unfold Heap.zalloc
      rw [hal]
      rfl
    simp only [hacq] at e1
    injection e1 with e1 _
    subst e1
    have : (firstHeap.take 112 4096 4096).given = [(4096, 4096)] := by
      unfold Heap.take
      simp only []
      split <;> split <;> rfl
    have h2 : (firstHeap.take 112 4096 4096).fn = bump := by
      unfold Heap.take
      simp only []
      split <;> split <;> rfl
    rw [this, h2]
    decide
  obtain ⟨s2, p2, r2, e2⟩ := one _ 50 r1 (by omega) (by omega) hg1
  exact ⟨_, r2, rfl⟩

end C3.StdMem
