import Verif.Bitstruct.Lemmas

/-!
# Members of integers
-/

set_option autoImplicit false

namespace C3.Bitstruct

theorem update_some {n : Nat} (cur : BitVec (8 * n)) (m : Member) (v : m.Value) (ok : m.Ok n) :
    ∃ r, llvm_emit_bitstruct_value_update cur m v = some r ∧
      ∀ j, j < 8 * n → r.getLsbD j = if m.start ≤ j ∧ j ≤ m.stop then v.getLsbD (j - m.start) else cur.getLsbD j := by
  have h1 := ok.le
  have h2 := ok.lt
  refine ⟨_, if_neg (by omega), ?_⟩
  intro j hj
  simp only [llvm_emit_shl_fixed, llvm_emit_lshr_fixed, BitVec.getLsbD_or, BitVec.getLsbD_and, BitVec.getLsbD_not, BitVec.getLsbD_shiftLeft,
    BitVec.getLsbD_ushiftRight, BitVec.getLsbD_allOnes, BitVec.getLsbD_setWidth, hj, decide_true, Bool.true_and]
  by_cases hs : j < m.start
  · rw [if_neg (by omega)]
    simp [hs]
  · by_cases he : j ≤ m.stop
    · rw [if_pos (by omega)]
      simp [hs, show j - m.start < 8 * n by omega, show 8 * n - m.stop - 1 + m.start + (j - m.start) < 8 * n by omega,
        show ¬ 8 * n - m.stop - 1 + m.start + (j - m.start) < 8 * n - m.stop - 1 by omega,
        show 8 * n - m.stop - 1 + m.start + (j - m.start) - (8 * n - m.stop - 1) < 8 * n by omega]
    · rw [if_neg (by omega)]
      simp [hs, show ¬ 8 * n - m.stop - 1 + m.start + (j - m.start) < 8 * n by omega]

/-- The bits of an extracted member, in the integer after the swap. -/
theorem extract_some {swap : Bool} {n : Nat} (x : BitVec (8 * n)) (m : Member) (ok : m.Ok n) (hn : swap = true → 2 ≤ n) :
    ∃ r, extractInt swap x m = some r ∧ ∀ k, k < 8 * m.bytes → r.getLsbD k =
      if k < m.width then x.getLsbD (pos swap n (m.start + k)) else m.signed && x.getLsbD (pos swap n (m.start + (m.width - 1))) := by
  have h1 := ok.le
  have h2 := ok.lt
  obtain ⟨y, hy, hb⟩ := swapIf_some x hn
  simp only [extractInt, hy, Option.bind_eq_bind, Option.bind_some]
  rw [if_neg (by omega)]
  cases hs : m.signed with
  | true =>
    simp only [if_true, Bool.true_and]
    have hash : llvm_emit_ashr (llvm_emit_shl_fixed y (8 * n - m.stop - 1)) (8 * n - m.stop - 1 + m.start) =
        some ((llvm_emit_shl_fixed y (8 * n - m.stop - 1)).sshiftRight (8 * n - m.stop - 1 + m.start)) := by
      unfold llvm_emit_ashr
      by_cases h0 : 8 * n - m.stop - 1 + m.start = 0
      · rw [if_pos h0, h0]; simp
      · rw [if_neg h0, if_neg (by omega)]
    rw [hash]
    refine ⟨_, rfl, ?_⟩
    intro k hk
    have hmsb : (llvm_emit_shl_fixed y (8 * n - m.stop - 1)).msb = y.getLsbD (m.start + (m.width - 1)) := by
      rw [BitVec.msb_eq_getLsbD_last, llvm_emit_shl_fixed, BitVec.getLsbD_shiftLeft]
      simp only [show 8 * n - 1 < 8 * n by omega, show ¬ 8 * n - 1 < 8 * n - m.stop - 1 by omega, Member.width, decide_true, decide_false,
        Bool.true_and, Bool.not_false, show 8 * n - 1 - (8 * n - m.stop - 1) = m.start + (m.stop - m.start + 1 - 1) by omega]
    have hlast : y.getLsbD (m.start + (m.width - 1)) = x.getLsbD (pos swap n (m.start + (m.width - 1))) :=
      hb _ (by simp only [Member.width]; omega)
    rw [BitVec.getLsbD_signExtend]
    simp only [hk, decide_true, Bool.true_and]
    by_cases hw : k < m.width
    · rw [if_pos hw]
      simp only [Member.width] at hw
      rw [if_pos (by omega), BitVec.getLsbD_sshiftRight, if_pos (by omega), llvm_emit_shl_fixed, BitVec.getLsbD_shiftLeft]
      simp only [show ¬ 8 * n ≤ k by omega, show 8 * n - m.stop - 1 + m.start + k < 8 * n by omega,
        show ¬ 8 * n - m.stop - 1 + m.start + k < 8 * n - m.stop - 1 by omega, decide_true, decide_false, Bool.not_false, Bool.true_and,
        show 8 * n - m.stop - 1 + m.start + k - (8 * n - m.stop - 1) = m.start + k by omega]
      exact hb _ (by omega)
    · rw [if_neg hw]
      rw [← hlast, ← hmsb]
      simp only [Member.width] at hw
      split
      · rename_i h8
        rw [BitVec.getLsbD_sshiftRight, if_neg (by omega)]
        simp [show ¬ 8 * n ≤ k by omega]
      · rw [BitVec.msb_sshiftRight]
  | false =>
    simp only [Bool.false_eq_true, if_false, Bool.false_and]
    refine ⟨_, rfl, ?_⟩
    intro k hk
    rw [BitVec.getLsbD_setWidth, getLsbD_mask, llvm_emit_lshr_fixed, BitVec.getLsbD_ushiftRight]
    simp only [hk, decide_true, Bool.true_and]
    by_cases hw : k < m.width
    · rw [if_pos hw]
      simp only [Member.width] at hw
      simp only [hw, decide_true, Bool.true_and]
      exact hb _ (by omega)
    · rw [if_neg hw]
      simp only [Member.width] at hw
      simp [hw]

theorem placeInt_eq (big : Bool) (n : Nat) (m : Member) (k : Nat) : placeInt big n m k = pos big n (m.start + k) := rfl

/-- The order that results. -/
theorem order_xor (o : Order) (p : Bool) : (p ^^ bitstruct_requires_bitswap p o) = o.ofInt p := by
  rcases o with _ | o
  · simp [bitstruct_requires_bitswap, Order.ofInt]
  · cases o <;> cases p <;> rfl

/-- The bytes of an object, after a swap. -/
theorem loaded {p swap : Bool} {n : Nat} {mem : Mem} (hl : mem.length = n) (hn : swap = true → 2 ≤ n) :
    ∃ x y, load p n mem = some x ∧ swapIf swap x = some y ∧ ∀ j, j < 8 * n → y.getLsbD j = bitAt mem (pos (p ^^ swap) n j) := by
  obtain ⟨x, hx, hxb⟩ := load_some (p := p) hl
  obtain ⟨y, hy, hyb⟩ := swapIf_some x hn
  refine ⟨x, y, hx, hy, fun j hj => ?_⟩
  rw [hyb j hj, hxb _ (pos_lt hj), pos_xor p swap hj]

theorem stored {p swap : Bool} {n : Nat} (x : BitVec (8 * n)) (hn : swap = true → 2 ≤ n) :
    ∃ y, swapIf swap x = some y ∧ (store p n y).length = n ∧ ∀ j, j < 8 * n → bitAt (store p n y) (pos (p ^^ swap) n j) = x.getLsbD j := by
  obtain ⟨y, hy, hyb⟩ := swapIf_some x hn
  refine ⟨y, hy, store_length _ _ _, fun j hj => ?_⟩
  rw [bitAt_store p n y (pos_lt hj), hyb _ (pos_lt (pos_lt hj)), pos_xor swap p (pos_lt hj), Bool.xor_comm swap p, pos_pos hj]

theorem readInt_some {p swap : Bool} {n : Nat} {mem : Mem} (m : Member) (ok : m.Ok n) (hl : mem.length = n) (hn : swap = true → 2 ≤ n) :
    ∃ v, readInt p swap n mem m = some v ∧ Reads m (placeInt (p ^^ swap) n m) mem v := by
  obtain ⟨x, hx, hxb⟩ := load_some (p := p) hl
  obtain ⟨r, hr, hrb⟩ := extract_some x m ok hn
  refine ⟨r, by simp [readInt, hx, hr], fun k hk => ?_⟩
  have h1 := ok.le
  have h2 := ok.lt
  rw [hrb k hk, placeInt_eq, placeInt_eq]
  by_cases hw : k < m.width
  · rw [if_pos hw, if_pos hw]
    simp only [Member.width] at hw
    rw [hxb _ (pos_lt (by omega)), pos_xor p swap (by omega)]
  · rw [if_neg hw, if_neg hw]
    rw [hxb _ (pos_lt (by simp only [Member.width]; omega)), pos_xor p swap (by simp only [Member.width]; omega)]

theorem assignInt_some {p swap : Bool} {n : Nat} {mem : Mem} (m : Member) (ok : m.Ok n) (hl : mem.length = n) (hn : swap = true → 2 ≤ n)
    (v : m.Value) : ∃ mem', assignInt p swap n mem m v = some mem' ∧ Stores m (placeInt (p ^^ swap) n m) mem mem' v := by
  obtain ⟨x, y, hx, hy, hyb⟩ := loaded (p := p) hl hn
  obtain ⟨r, hr, hrb⟩ := update_some y m v ok
  obtain ⟨z, hz, hzl, hzb⟩ := stored (p := p) r hn
  have h1 := ok.le
  have h2 := ok.lt
  refine ⟨store p n z, by simp [assignInt, hx, hy, hr, hz], by omega, ?_, ?_⟩
  · intro k hk
    simp only [Member.width] at hk
    rw [placeInt_eq, hzb _ (by omega), hrb _ (by omega), if_pos (by omega), Nat.add_sub_cancel_left]
  · intro j hj
    by_cases hj8 : j < 8 * n
    · rw [← pos_pos (big := p ^^ swap) hj8, hzb _ (pos_lt hj8), hrb _ (pos_lt hj8), if_neg, hyb _ (pos_lt hj8)]
      rintro ⟨h3, h4⟩
      refine hj (pos (p ^^ swap) n j - m.start) (by simp only [Member.width]; omega) ?_
      rw [placeInt_eq, Nat.add_sub_cancel' h3, pos_pos hj8]
    · rw [bitAt_ge (by omega), bitAt_ge (by omega)]

theorem placeInt_disjoint {big : Bool} {n : Nat} {m m' : Member} (ok : m.Ok n) (ok' : m'.Ok n) (hd : m.Disjoint m') {k k' : Nat}
    (hk : k < m.width) (hk' : k' < m'.width) : placeInt big n m k ≠ placeInt big n m' k' := by
  intro e
  have := ok.lt
  have := ok'.lt
  have := ok.le
  have := ok'.le
  simp only [Member.width] at hk hk'
  have := pos_inj (by omega) (by omega) e
  rcases hd with hd | hd <;> omega

theorem Stores.other {m m' : Member} {place place' : Nat → Nat} {mem mem' : Mem} {v : m.Value} (h : Stores m place mem mem' v)
    (hp : ∀ k k', k < m.width → k' < m'.width → place k ≠ place' k') {w : m'.Value} (hr : Reads m' place' mem w) : Reads m' place' mem' w := by
  intro k hk
  rw [hr k hk]
  by_cases hw : k < m'.width
  · rw [if_pos hw, if_pos hw, h.2.2 _ (fun k0 hk0 => hp k0 k hk0 hw)]
  · rw [if_neg hw, if_neg hw, h.2.2 _ (fun k0 hk0 => hp k0 _ hk0 (by unfold Member.width; omega))]

theorem Stores.same {m : Member} {place : Nat → Nat} {mem mem' : Mem} {v w : m.Value} (h : Stores m place mem mem' v)
    (hr : Reads m place mem' w) : w = m.wrap v := by
  apply BitVec.eq_of_getLsbD_eq
  intro k hk
  have hw0 : 0 < m.width := by simp only [Member.width]; omega
  rw [hr k hk]
  simp only [Member.wrap]
  cases hs : m.signed with
  | true =>
    simp only [if_true, Bool.true_and]
    rw [BitVec.getLsbD_signExtend, BitVec.msb_eq_getLsbD_last, BitVec.getLsbD_setWidth, BitVec.getLsbD_setWidth]
    by_cases hw : k < m.width
    · rw [if_pos hw, if_pos hw, h.2.1 k hw]; simp [hw]; omega
    · rw [if_neg hw, if_neg hw, h.2.1 _ (by omega)]; simp only [show m.width - 1 < m.width by omega, hk, decide_true, Bool.true_and]
  | false =>
    simp only [Bool.false_eq_true, if_false, Bool.false_and]
    rw [BitVec.getLsbD_setWidth, BitVec.getLsbD_setWidth]
    by_cases hw : k < m.width
    · rw [if_pos hw, h.2.1 k hw]; simp [hw]; omega
    · rw [if_neg hw]; simp [hw]

theorem Reads.unique {m : Member} {place : Nat → Nat} {mem : Mem} {v w : m.Value} (hv : Reads m place mem v) (hw : Reads m place mem w) : v = w := by
  apply BitVec.eq_of_getLsbD_eq
  intro k hk
  rw [hv k hk, hw k hk]

/-! ## Constants -/

theorem const_some {n : Nat} (r : BitVec (8 * n)) (m : Member) (v : m.Value) (ok : m.Ok n) :
    ∃ r', constStep r m v = some r' ∧
      ∀ j, j < 8 * n → r'.getLsbD j = ((decide (m.start ≤ j ∧ j ≤ m.stop) && v.getLsbD (j - m.start)) || r.getLsbD j) := by
  have h1 := ok.le
  have h2 := ok.lt
  have h3 := ok.fits
  have h4 := ok.small
  simp only [Member.width] at h3
  refine ⟨_, if_neg (by omega), ?_⟩
  intro j hj
  have key : ∀ (x : BitVec (8 * n)), (if m.start > 0 then llvm_emit_shl_fixed x m.start else x).getLsbD j =
      (decide (m.start ≤ j) && x.getLsbD (j - m.start)) := by
    intro x
    by_cases h : m.start > 0
    · rw [if_pos h, llvm_emit_shl_fixed, BitVec.getLsbD_shiftLeft]
      by_cases hs : j < m.start
      · simp [hs]; omega
      · simp [hj, hs, Nat.le_of_not_lt hs]
    · rw [if_neg h]
      simp [show m.start = 0 by omega]
  rw [BitVec.getLsbD_or, key]
  congr 1
  by_cases hs : m.start ≤ j
  · simp only [hs, decide_true, Bool.true_and, true_and]
    by_cases hb : m.stop - m.start + 1 < 8 * n
    · rw [if_pos hb, BitVec.getLsbD_and, llvm_emit_lshr_fixed, BitVec.getLsbD_ushiftRight, BitVec.getLsbD_allOnes, BitVec.getLsbD_setWidth]
      simp only [show j - m.start < 8 * n by omega, decide_true, Bool.true_and]
      by_cases he : j ≤ m.stop
      · simp [he]; intro; omega
      · simp [he]; intro; omega
    · rw [if_neg hb, BitVec.getLsbD_setWidth]
      simp [show j - m.start < 8 * n by omega, show j ≤ m.stop by omega]
  · simp [hs]

end C3.Bitstruct
