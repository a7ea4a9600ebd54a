import Verif.Arena.Lemmas

/-! # C23: arena allocations never overlap and are aligned -/

set_option autoImplicit false

namespace C3.Arena

/-- The state `memory_init` leaves. -/
theorem memoryInit_some (ptr size : Word) (h : 16 ≤ size.toNat) : memoryInit ptr size = some ⟨ptr, size, 16#64⟩ := by
  unfold memoryInit vmemAlloc
  dsimp only
  rw [if_neg (by rw [BitVec.lt_def]; simp; omega)]
  rfl

/-- C23: after `memory_init` on a region of `size` bytes at `ptr` (16-aligned, at most 2^62 bytes, not
reaching beyond the address space), any history of requests of at most 2^63 bytes is refused exactly if
the rounded lengths do not fit the region; otherwise the blocks are 16-aligned, inside the region, after
its first 16 bytes, and pairwise disjoint.

Missing for the full property: requests close to 2^64 bytes, for which it is false (`C23_zero_block`,
`C23_overlap`). -/
theorem C23_arena_partial (ptr size : Word) (reqs : List Word) (h16 : 16 ∣ ptr.toNat) (hs : size.toNat ≤ 2 ^ 62)
    (hs16 : 16 ≤ size.toNat) (hfit : ptr.toNat + size.toNat ≤ 2 ^ 64) (hr : ∀ m ∈ reqs, 0 < m.toNat ∧ m.toNat ≤ 2 ^ 63) :
    ∃ v, memoryInit ptr size = some v ∧
      ((size.toNat < 16 + ((reqs.map BitVec.toNat).map roundUp).sum ∧ run callocArena v reqs = none) ∨
      (16 + ((reqs.map BitVec.toNat).map roundUp).sum ≤ size.toNat ∧
        ∃ v' ps, run callocArena v reqs = some (v', ps) ∧ ps.length = reqs.length ∧ (∀ p ∈ ps, 16 ∣ p.toNat) ∧
          (∀ b ∈ areas reqs ps, ptr.toNat + 16 ≤ b.1 ∧ b.last ≤ ptr.toNat + size.toNat) ∧ Disjoint (areas reqs ps))) := by
  refine ⟨_, memoryInit_some ptr size hs16, ?_⟩
  rcases run_spec allocates_arena reqs ⟨ptr, size, 16#64⟩ hr hfit hs16 hs with h | ⟨v', ps, h1, h2, h3, h4, h5, h6⟩
  · exact Or.inl h
  · refine Or.inr ⟨h3, v', ps, h1, h2, h6 ?_ ?_, h4, h5⟩
    · intro m _; exact ⟨_, Nat.mul_comm _ _⟩
    · exact Nat.dvd_add h16 ⟨1, rfl⟩

example : (memoryInit 0x1000#64 1024#64).bind (fun v => (run callocArena v [10#64, 100#64, 1#64]).map (·.2)) =
    some [0x1010#64, 0x1020#64, 0x1090#64] := by decide

/-- C23 for the arena of texts, which does not align. -/
theorem C23_strings_partial (ptr size : Word) (reqs : List Word) (hs : size.toNat ≤ 2 ^ 62)
    (hfit : ptr.toNat + size.toNat ≤ 2 ^ 64) (hr : ∀ m ∈ reqs, 0 < m.toNat ∧ m.toNat ≤ 2 ^ 63) :
    (size.toNat < (reqs.map BitVec.toNat).sum ∧ run callocString ⟨ptr, size, 0#64⟩ reqs = none) ∨
    ((reqs.map BitVec.toNat).sum ≤ size.toNat ∧
      ∃ v' ps, run callocString ⟨ptr, size, 0#64⟩ reqs = some (v', ps) ∧ ps.length = reqs.length ∧
        (∀ b ∈ areas reqs ps, ptr.toNat ≤ b.1 ∧ b.last ≤ ptr.toNat + size.toNat) ∧ Disjoint (areas reqs ps)) := by
  rcases run_spec allocates_string reqs ⟨ptr, size, 0#64⟩ hr hfit (by simp) hs with ⟨g1, g2⟩ | ⟨v', ps, h1, h2, h3, h4, h5, -⟩
  · left
    refine ⟨?_, g2⟩
    rw [List.map_id] at g1
    simpa using g1
  · right
    refine ⟨by simpa using h3, v', ps, h1, h2, ?_, h5⟩
    intro b hb
    simpa using h4 b hb

example : (run callocString ⟨0x1000#64, 1024#64, 0#64⟩ [10#64, 3#64, 1#64]).map (·.2) =
    some [0x1000#64, 0x100a#64, 0x100d#64] := by decide

/-- C23: in a region of at most 2^36 bytes (`memory_init` asks for at most 2^31) the 32-bit id of any block
is not 0, stands for that block, and differs from the ids of all other blocks. -/
theorem C23_ids (ptr size : Word) (v v' : Vmem) (reqs ps : List Word) (h16 : 16 ∣ ptr.toNat) (hs : size.toNat ≤ 2 ^ 36)
    (hs16 : 16 ≤ size.toNat) (hfit : ptr.toNat + size.toNat ≤ 2 ^ 64) (hr : ∀ m ∈ reqs, 0 < m.toNat ∧ m.toNat ≤ 2 ^ 63)
    (hi : memoryInit ptr size = some v) (hrun : run callocArena v reqs = some (v', ps)) :
    (∀ p ∈ ps, ptrid ptr p ≠ 0#32 ∧ idptr ptr (ptrid ptr p) = p) ∧ (ps.map (ptrid ptr)).Nodup := by
  obtain ⟨v0, g1, g2⟩ := C23_arena_partial ptr size reqs h16 (by omega) hs16 hfit hr
  rw [hi, Option.some.injEq] at g1
  subst g1
  rcases g2 with ⟨-, g⟩ | ⟨-, w, qs, e1, e2, e3, e4, e5⟩
  · rw [hrun] at g; simp at g
  rw [hrun, Option.some.injEq, Prod.mk.injEq] at e1
  obtain ⟨rfl, rfl⟩ := e1
  -- every address is the first of a block of at least one byte
  have hat : ∀ p ∈ ps, ptr.toNat + 16 ≤ p.toNat ∧ p.toNat < ptr.toNat + size.toNat := by
    intro p hp
    obtain ⟨i, hi, hip⟩ := List.getElem_of_mem hp
    have hb : (p.toNat, (reqs[i]'(by omega)).toNat) ∈ areas reqs ps := by
      have : (areas reqs ps)[i]? = some (p.toNat, (reqs[i]'(by omega)).toNat) := by
        simp only [areas, List.getElem?_zip_eq_some, List.getElem?_map]
        rw [List.getElem?_eq_getElem hi, hip, List.getElem?_eq_getElem (show i < reqs.length by omega)]
        exact ⟨rfl, rfl⟩
      exact List.mem_of_getElem? this
    have h1 := e4 _ hb
    have h2 := (hr (reqs[i]'(by omega)) (List.getElem_mem _)).1
    simp only [Area.last] at h1
    omega
  have hid : ∀ p ∈ ps, (ptrid ptr p).toNat = (p.toNat - ptr.toNat) / 16 := by
    intro p hp
    have := hat p hp
    have hsub : (p - ptr).toNat = p.toNat - ptr.toNat := BitVec.toNat_sub_of_le (by rw [BitVec.le_def]; omega)
    unfold ptrid
    rw [BitVec.toNat_setWidth, BitVec.toNat_udiv, hsub, show (16#64).toNat = 16 from rfl, Nat.mod_eq_of_lt (by omega)]
  have hback : ∀ p ∈ ps, idptr ptr (ptrid ptr p) = p := by
    intro p hp
    have h1 := hat p hp
    obtain ⟨a, ha⟩ := h16
    obtain ⟨b, hb⟩ := e3 p hp
    have hdvd : (p.toNat - ptr.toNat) / 16 * 16 = p.toNat - ptr.toNat := by omega
    apply BitVec.eq_of_toNat_eq
    unfold idptr
    rw [BitVec.toNat_add, BitVec.toNat_mul, BitVec.toNat_setWidth, hid p hp, show (16#64).toNat = 16 from rfl,
      Nat.mod_eq_of_lt (show (p.toNat - ptr.toNat) / 16 < 2 ^ 64 by omega), hdvd, Nat.mod_eq_of_lt (show p.toNat - ptr.toNat < 2 ^ 64 by omega),
      show p.toNat - ptr.toNat + ptr.toNat = p.toNat by omega]
    exact Nat.mod_eq_of_lt p.isLt
  refine ⟨fun p hp => ⟨?_, hback p hp⟩, ?_⟩
  · intro h0
    have h1 := hid p hp
    have h2 := hat p hp
    rw [h0] at h1
    simp at h1
    omega
  · -- equal ids would mean equal addresses, so overlapping blocks
    have hnd : ps.Nodup := by
      rw [List.nodup_iff_pairwise_ne, List.pairwise_iff_getElem]
      intro i j hi hj hij heq
      have h5 := List.pairwise_iff_getElem.1 e5 i j (by simp [areas]; omega) (by simp [areas]; omega) hij
      simp only [areas, List.getElem_zip, List.getElem_map, Area.last] at h5
      have p1 := (hr (reqs[i]'(by omega)) (List.getElem_mem _)).1
      have p2 := (hr (reqs[j]'(by omega)) (List.getElem_mem _)).1
      rw [heq] at h5
      omega
    rw [List.nodup_iff_pairwise_ne, List.pairwise_map]
    refine (List.nodup_iff_pairwise_ne.1 hnd).imp_of_mem ?_
    intro a b ha hb hne hab
    apply hne
    rw [← hback a ha, ← hback b hb, hab]

example : ptrid 0x1000#64 0x1090#64 = 9#32 ∧ idptr 0x1000#64 9#32 = 0x1090#64 := by decide

/-- C23 fails for the largest requests: from 2^64 - 15 bytes on the rounded size wraps to 0, the request
is granted, and nothing is set aside for it. -/
theorem C23_zero_block (v : Vmem) (m : Word) (h : 2 ^ 64 - 15 ≤ m.toNat) (ha : v.allocated.toNat ≤ v.size.toNat) :
    callocArena v m = some (v, v.ptr + v.allocated) := by
  have h0 : (m + 15#64) &&& ~~~ 15#64 = 0#64 := by
    apply BitVec.eq_of_toNat_eq
    have hlt := m.isLt
    rw [BitVec.toNat_and, BitVec.toNat_add, show (~~~ 15#64 : BitVec 64).toNat = 2 ^ 64 - 16 from rfl,
      show (15#64).toNat = 15 from rfl, and_not_15 _ (Nat.mod_lt _ (by decide)), show (0#64).toNat = 0 from rfl]
    omega
  rw [callocArena, if_neg (fun e => by rw [e] at h; simp at h), h0, vmemAlloc]
  rw [BitVec.zero_add, if_neg (by rw [BitVec.lt_def]; omega)]

example : 2 ^ 64 - 15 ≤ (BitVec.allOnes 64).toNat := by decide

/-- C23 fails for the largest requests, second way: the end of the block wraps around.  Whenever a request
of `m` bytes is granted, a following request of 2^64 minus its rounded size takes it back, and the next
one gets the same address again. -/
theorem C23_overlap (v : Vmem) (m : Word) (h0 : 0 < m.toNat) (hm : m.toNat ≤ 2 ^ 62)
    (hs : v.ptr.toNat + v.size.toNat ≤ 2 ^ 64) (hs2 : v.size.toNat ≤ 2 ^ 62)
    (hfit : v.allocated.toNat + roundUp m.toNat ≤ v.size.toNat) :
    ∃ v' q, run callocArena v [m, BitVec.ofNat 64 (2 ^ 64 - roundUp m.toNat), m] =
      some (v', [v.ptr + v.allocated, q, v.ptr + v.allocated]) := by
  have hr := roundUp_toNat m (by omega)
  have hrle : roundUp m.toNat ≤ 2 ^ 62 + 15 := by unfold roundUp; omega
  have hrpos : 16 ≤ roundUp m.toNat := by unfold roundUp; omega
  have hm0 : m ≠ 0#64 := fun e => by rw [e] at h0; simp at h0
  have hbig : (BitVec.ofNat 64 (2 ^ 64 - roundUp m.toNat)).toNat = 2 ^ 64 - roundUp m.toNat := by
    rw [BitVec.toNat_ofNat, Nat.mod_eq_of_lt (by omega)]
  have hb0 : BitVec.ofNat 64 (2 ^ 64 - roundUp m.toNat) ≠ 0#64 := fun e => by rw [e] at hbig; simp at hbig; omega
  have hround : (BitVec.ofNat 64 (2 ^ 64 - roundUp m.toNat) + 15#64) &&& ~~~ 15#64 = BitVec.ofNat 64 (2 ^ 64 - roundUp m.toNat) := by
    apply BitVec.eq_of_toNat_eq
    rw [BitVec.toNat_and, BitVec.toNat_add, hbig, show (~~~ 15#64 : BitVec 64).toNat = 2 ^ 64 - 16 from rfl,
      show (15#64).toNat = 15 from rfl, Nat.mod_eq_of_lt (by omega), and_not_15 _ (by omega)]
    unfold roundUp
    omega
  have hneg : BitVec.ofNat 64 (2 ^ 64 - roundUp m.toNat) + (((m + 15#64) &&& ~~~ 15#64) + v.allocated) = v.allocated := by
    apply BitVec.eq_of_toNat_eq
    rw [BitVec.toNat_add, BitVec.toNat_add, hbig, hr, Nat.mod_eq_of_lt (show roundUp m.toNat + v.allocated.toNat < 2 ^ 64 by omega)]
    omega
  have hfirst : ¬ v.size < ((m + 15#64) &&& ~~~ 15#64) + v.allocated := by
    rw [BitVec.lt_def, BitVec.toNat_add, hr, Nat.mod_eq_of_lt (by omega)]
    omega
  have h1 : callocArena v m = some ({ v with allocated := ((m + 15#64) &&& ~~~ 15#64) + v.allocated }, v.ptr + v.allocated) := by
    rw [callocArena, if_neg hm0, vmemAlloc]
    rw [if_neg hfirst]
  have h2 : callocArena { v with allocated := ((m + 15#64) &&& ~~~ 15#64) + v.allocated } (BitVec.ofNat 64 (2 ^ 64 - roundUp m.toNat)) =
      some (v, v.ptr + (((m + 15#64) &&& ~~~ 15#64) + v.allocated)) := by
    rw [callocArena, if_neg hb0, hround, vmemAlloc]
    dsimp only
    rw [hneg, if_neg (by rw [BitVec.lt_def]; omega)]
  exact ⟨_, _, by simp only [run, h1, h2, Option.bind_eq_bind, Option.bind_some]; rfl⟩

example : (run callocArena ⟨0x1000#64, 1024#64, 16#64⟩ [32#64, BitVec.ofNat 64 (2 ^ 64 - 32), 32#64]).map (·.2) =
    some [0x1010#64, 0x1030#64, 0x1010#64] := by decide

end C3.Arena
