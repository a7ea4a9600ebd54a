import Verif.Bitstruct.LemmasInt

/-!
# Members of arrays of bytes
-/

set_option autoImplicit false

namespace C3.Bitstruct

theorem loadByte_some {mem : Mem} {i : Nat} (h : i < mem.length) : ∃ b, loadByte 1 mem i = some b ∧ ∀ t, t < 8 → b.getLsbD t = bitAt mem (8 * i + t) := by
  refine ⟨mem[i], by simp [loadByte, h], fun t ht => ?_⟩
  simp [bitAt, show (8 * i + t) / 8 = i by omega, show (8 * i + t) % 8 = t by omega, h]

theorem storeByte_some {mem : Mem} {i : Nat} (h : i < mem.length) (b : Byte) : storeByte 1 mem i b = some (mem.set i b) := by
  simp [storeByte, h]

/-! ## Swaps of members -/

/-- The number of bytes of a member that can be swapped. -/
theorem power_dvd {x : Nat} (h : is_power_of_two x = true) (h8 : 8 < x) : x % 8 = 0 := by
  simp only [is_power_of_two, ne_eq, Bool.and_eq_true, decide_eq_true_eq, beq_iff_eq] at h
  rcases Nat.eq_zero_or_pos (x % 8) with h0 | h0
  · exact h0
  · exfalso
    obtain ⟨j, hj⟩ := Nat.exists_testBit_of_ne_zero (show x / 8 ≠ 0 by omega)
    have h1 : x.testBit (j + 3) = true := by
      have := Nat.testBit_div_two_pow (n := 3) x j
      rw [show x / 2 ^ 3 = x / 8 by omega, hj] at this; rw [← this]
    have h2 : (x - 1).testBit (j + 3) = true := by
      have := Nat.testBit_div_two_pow (n := 3) (x - 1) j
      rw [show (x - 1) / 2 ^ 3 = x / 8 by omega, hj] at this; rw [← this]
    have := congrArg (·.testBit (j + 3)) h.2
    simp [Nat.testBit_and, h1, h2] at this

/-- The bit that bit `k` of a member of `w` bits is exchanged with. -/
def rev (swap : Bool) (w k : Nat) : Nat := if swap ∧ w > 8 then 8 * (w / 8 - 1 - k / 8) + k % 8 else k

theorem placeArray_eq (big : Bool) (m : Member) (k : Nat) : placeArray big m k = m.start + rev big m.width k := by
  simp only [placeArray, rev]
  split <;> omega

/-- The members that can be swapped. -/
def Swappable (swap : Bool) (m : Member) : Prop := swap = true → m.width ≤ 8 ∨ is_power_of_two m.width = true

theorem rev_lt {swap : Bool} {m : Member} (h : Swappable swap m) {k : Nat} (hk : k < m.width) : rev swap m.width k < m.width := by
  simp only [rev]
  split
  · rename_i hs
    rcases h hs.1 with h | h
    · omega
    · have := power_dvd h hs.2
      omega
  · exact hk

theorem rev_rev {swap : Bool} {m : Member} (h : Swappable swap m) {k : Nat} (hk : k < m.width) : rev swap m.width (rev swap m.width k) = k := by
  by_cases hs : swap = true ∧ m.width > 8
  · rcases h hs.1 with h | h
    · omega
    · have := power_dvd h hs.2
      simp only [rev, if_pos hs]
      omega
  · simp only [rev, if_neg hs]

theorem swapMember_some {swap : Bool} {m : Member} {N : Nat} (ok : m.Ok N) (hs : Swappable swap m) (v : m.Value) :
    ∃ r, swapMember swap v m.width = some r ∧ ∀ k, k < m.width → r.getLsbD k = v.getLsbD (rev swap m.width k) := by
  unfold swapMember
  cases swap with
  | false => exact ⟨v, rfl, fun k _ => by simp [rev]⟩
  | true =>
    simp only [if_true]
    unfold llvm_bswap_non_integral
    by_cases h8 : m.width ≤ 8
    · rw [if_pos h8]
      exact ⟨v, rfl, fun k _ => by simp [rev, show ¬ m.width > 8 by omega]⟩
    · have hp : is_power_of_two m.width = true := (hs rfl).resolve_left h8
      have hd := power_dvd hp (by omega)
      have hf := ok.fits
      rw [if_neg h8, if_neg (by simp [hp])]
      obtain ⟨y, hy, hyb⟩ := bswap_some (llvm_emit_shl_fixed v (8 * m.bytes - m.width)) (by omega)
      refine ⟨y, hy, fun k hk => ?_⟩
      rw [hyb k (by omega), llvm_emit_shl_fixed, BitVec.getLsbD_shiftLeft]
      simp only [rev, pos, if_true, true_and, show m.width > 8 by omega]
      rw [show 8 * (m.bytes - 1 - k / 8) + k % 8 - (8 * m.bytes - m.width) = 8 * (m.width / 8 - 1 - k / 8) + k % 8 by omega]
      simp [show 8 * (m.bytes - 1 - k / 8) + k % 8 < 8 * m.bytes by omega,
        show ¬ 8 * (m.bytes - 1 - k / 8) + k % 8 < 8 * m.bytes - m.width by omega]

/-! ## Reading -/

theorem extractLoop_some {m : Member} {mem : Mem} (ok : m.Ok mem.length) : ∀ (k i : Nat) (res : m.Value), i + k = m.stop / 8 + 1 → m.start / 8 ≤ i →
    (∀ t, t < 8 * m.bytes → res.getLsbD t = (decide (m.start + t < 8 * i) && bitAt mem (m.start + t))) →
    ∃ r, extractLoop 1 mem m k i res = some r ∧
      ∀ t, t < 8 * m.bytes → r.getLsbD t = (decide (m.start + t < 8 * (m.stop / 8 + 1)) && bitAt mem (m.start + t)) := by
  intro k
  induction k with
  | zero =>
    intro i res hi _ hres
    refine ⟨res, rfl, ?_⟩
    rw [← hi]; exact hres
  | succ k ih =>
    intro i res hi hsi hres
    have hlt := ok.lt
    have hf := ok.fits
    simp only [Member.width] at hf
    obtain ⟨b, hb, hbt⟩ := loadByte_some (mem := mem) (i := i) (by omega)
    simp only [extractLoop, hb, Option.bind_eq_bind, Option.bind_some]
    apply ih (i + 1) _ (by omega) (by omega)
    intro t ht
    rw [BitVec.getLsbD_or, hres t ht]
    have key : (if (8 * ((i : Int) - (m.start / 8 : Nat)) - (m.start % 8 : Nat)) < 0 then
          llvm_emit_lshr_fixed (b.setWidth (8 * m.bytes)) (-(8 * ((i : Int) - (m.start / 8 : Nat)) - (m.start % 8 : Nat))).toNat
        else if (8 * ((i : Int) - (m.start / 8 : Nat)) - (m.start % 8 : Nat)) > 0 then
          llvm_emit_shl_fixed (b.setWidth (8 * m.bytes)) (8 * ((i : Int) - (m.start / 8 : Nat)) - (m.start % 8 : Nat)).toNat
        else b.setWidth (8 * m.bytes)).getLsbD t = (decide (8 * i ≤ m.start + t ∧ m.start + t < 8 * i + 8) && bitAt mem (m.start + t)) := by
      have hin : ∀ u, u < 8 → b.getLsbD u = bitAt mem (8 * i + u) := hbt
      by_cases hc : 8 * i ≤ m.start + t ∧ m.start + t < 8 * i + 8
      · have := hin (m.start + t - 8 * i) (by omega)
        rw [show 8 * i + (m.start + t - 8 * i) = m.start + t by omega] at this
        simp only [hc, and_self, decide_true, Bool.true_and]
        split
        · rw [llvm_emit_lshr_fixed, BitVec.getLsbD_ushiftRight, BitVec.getLsbD_setWidth,
            show (-(8 * ((i : Int) - (m.start / 8 : Nat)) - (m.start % 8 : Nat))).toNat + t = m.start + t - 8 * i by omega, this]
          simp only [show m.start + t - 8 * i < 8 * m.bytes by omega, decide_true, Bool.true_and]
        · split
          · rw [llvm_emit_shl_fixed, BitVec.getLsbD_shiftLeft, BitVec.getLsbD_setWidth,
              show t - (8 * ((i : Int) - (m.start / 8 : Nat)) - (m.start % 8 : Nat)).toNat = m.start + t - 8 * i by omega, this]
            simp only [show m.start + t - 8 * i < 8 * m.bytes by omega, ht,
              show ¬ t < (8 * ((i : Int) - (m.start / 8 : Nat)) - (m.start % 8 : Nat)).toNat by omega, decide_true, decide_false, Bool.not_false,
              Bool.true_and]
          · rw [show m.start + t - 8 * i = t by omega] at this
            rw [BitVec.getLsbD_setWidth, this]
            simp only [ht, decide_true, Bool.true_and]
      · simp only [hc, decide_false, Bool.false_and]
        split
        · rw [llvm_emit_lshr_fixed, BitVec.getLsbD_ushiftRight, BitVec.getLsbD_setWidth, BitVec.getLsbD_of_ge b _ (by omega), Bool.and_false]
        · split
          · rw [llvm_emit_shl_fixed, BitVec.getLsbD_shiftLeft, BitVec.getLsbD_setWidth]
            by_cases h2 : t < (8 * ((i : Int) - (m.start / 8 : Nat)) - (m.start % 8 : Nat)).toNat
            · simp only [h2, decide_true, Bool.not_true, Bool.and_false, Bool.false_and]
            · rw [BitVec.getLsbD_of_ge b _ (by omega)]; simp
          · rw [BitVec.getLsbD_setWidth, BitVec.getLsbD_of_ge b _ (by omega), Bool.and_false]
    rw [key, ← Bool.and_or_distrib_right]
    congr 1
    rw [Bool.eq_iff_iff, Bool.or_eq_true, decide_eq_true_eq, decide_eq_true_eq, decide_eq_true_eq]
    omega

theorem readArray_some {swap : Bool} {mem : Mem} (m : Member) (ok : m.Ok mem.length) (hs : Swappable swap m) :
    ∃ v, readArray swap 1 mem m = some v ∧ Reads m (placeArray swap m) mem v := by
  have h1 := ok.le
  have hlt := ok.lt
  have hf := ok.fits
  unfold readArray
  by_cases hb : m.bool = true
  · obtain ⟨hb1, hb2, hb3⟩ := ok.bool hb
    obtain ⟨b, hl, hbt⟩ := loadByte_some (mem := mem) (i := m.start / 8) (by omega)
    simp only [hb, if_true, hl, Option.bind_eq_bind, Option.bind_some]
    refine ⟨_, rfl, fun k hk => ?_⟩
    have hw : m.width = 1 := by simp only [Member.width]; omega
    rw [BitVec.getLsbD_setWidth, BitVec.getLsbD_setWidth, llvm_emit_lshr_fixed, BitVec.getLsbD_ushiftRight, hb2, hw]
    by_cases h0 : k = 0
    · subst h0
      simp only [hk, decide_true, Bool.true_and, Nat.add_zero, if_true, Nat.lt_add_one]
      rw [hbt _ (by omega), placeArray_eq, hw]
      simp only [rev, show ¬ (1 > 8) by omega, and_false, if_false]
      congr 1
      omega
    · simp [show ¬ k < 1 by omega]
  · simp only [hb, Bool.false_eq_true, if_false]
    obtain ⟨r, hr, hrb⟩ := extractLoop_some ok (m.stop / 8 + 1 - m.start / 8) (m.start / 8) (0#(8 * m.bytes)) (by omega) (by omega) (by
      intro t ht
      simp
      omega)
    obtain ⟨y, hy, hyb⟩ := swapMember_some ok hs r
    have hbits : ∀ k, k < m.width → y.getLsbD k = bitAt mem (placeArray swap m k) := by
      intro k hk
      have := rev_lt hs hk
      rw [hyb k hk, hrb _ (by omega), placeArray_eq]
      simp only [Member.width] at this
      simp
      simp only [Member.width]
      omega
    have hw0 : 0 < m.width := by unfold Member.width; omega
    have hy' : swapMember swap r (m.stop - m.start + 1) = some y := hy
    simp only [hr, hy', Option.bind_eq_bind, Option.bind_some]
    cases hsg : m.signed with
    | false =>
      simp only [Bool.false_eq_true, if_false]
      refine ⟨_, rfl, fun k hk => ?_⟩
      rw [getLsbD_mask, hsg, Bool.false_and]
      by_cases hw : k < m.width
      · rw [if_pos hw, hbits k hw]
        simp only [Member.width] at hw
        simp [hw]
      · rw [if_neg hw]
        simp only [Member.width] at hw
        simp [hw]
    | true =>
      simp only [if_true]
      have htop : 8 * m.bytes + m.start - m.stop - 1 = 8 * m.bytes - m.width := by simp only [Member.width]; omega
      rw [htop]
      by_cases h0 : 8 * m.bytes - m.width = 0
      · rw [if_pos h0]
        refine ⟨_, rfl, fun k hk => ?_⟩
        rw [if_pos (by omega), hbits k (by omega)]
      · rw [if_neg h0, if_neg (by omega)]
        unfold llvm_emit_ashr
        rw [if_neg h0, if_neg (by omega)]
        refine ⟨_, rfl, fun k hk => ?_⟩
        rw [BitVec.getLsbD_sshiftRight, BitVec.msb_eq_getLsbD_last, llvm_emit_shl_fixed, BitVec.getLsbD_shiftLeft, BitVec.getLsbD_shiftLeft, hsg,
          Bool.true_and]
        by_cases hw : k < m.width
        · rw [if_pos hw, if_pos (by omega), Nat.add_sub_cancel_left, hbits k hw]
          simp [show ¬ 8 * m.bytes ≤ k by omega, show 8 * m.bytes - m.width + k < 8 * m.bytes by omega]
        · rw [if_neg hw, if_neg (by omega), show 8 * m.bytes - 1 - (8 * m.bytes - m.width) = m.width - 1 by omega, hbits _ (by omega)]
          simp only [show ¬ 8 * m.bytes ≤ k by omega, show 8 * m.bytes - 1 < 8 * m.bytes by omega,
            show ¬ 8 * m.bytes - 1 < 8 * m.bytes - m.width by omega, decide_true, decide_false, Bool.not_false, Bool.true_and]

/-! ## Writing -/

/-- The loop after the first byte. -/
theorem arrayLoop_rest {m : Member} (v : m.Value) : ∀ (k i : Nat) (value : m.Value) (mem : Mem), m.Ok mem.length → i + k = m.stop / 8 + 1 → m.start ≤ 8 * i →
    (∀ t, value.getLsbD t = v.getLsbD (8 * i - m.start + t)) →
    ∃ mem', arrayLoop 1 m k i value mem = some mem' ∧ mem'.length = mem.length ∧ ∀ q, bitAt mem' q =
      if 8 * i ≤ q ∧ q ≤ m.stop then (if m.stop % 8 ≠ 7 ∧ q / 8 = m.stop / 8 then false else v.getLsbD (q - m.start)) else bitAt mem q := by
  intro k
  induction k with
  | zero =>
    intro i value mem ok hi _ _
    refine ⟨mem, rfl, rfl, fun q => ?_⟩
    rw [if_neg (by omega)]
  | succ k ih =>
    intro i value mem ok hi hsi hv
    have hlt := ok.lt
    have hil : i < mem.length := by omega
    obtain ⟨b, hb, hbt⟩ := loadByte_some (mem := mem) hil
    simp only [arrayLoop, hb, Option.bind_eq_bind, Option.bind_some, storeByte_some hil]
    have hfirst : ¬ (i = m.start / 8 ∧ m.start % 8 ≠ 0) := by omega
    by_cases hl : i = m.stop / 8 ∧ m.stop % 8 ≠ 7
    · have hk : k = 0 := by omega
      subst hk
      have hstep : (arrayStep m i value b).1 = b &&& ~~~ llvm_const_low_bitmask ((m.stop % 8 : Nat) + 1) := by
        unfold arrayStep
        rw [if_neg hfirst, if_pos hl]
      refine ⟨_, rfl, by simp, fun q => ?_⟩
      rw [bitAt_set hil, hstep, BitVec.getLsbD_and, BitVec.getLsbD_not, getLsbD_low]
      by_cases hq : q / 8 = i
      · rw [if_pos hq, hbt _ (by omega), show 8 * i + q % 8 = q by omega]
        simp only [show q % 8 < 8 by omega, decide_true, Bool.true_and]
        by_cases hq2 : q ≤ m.stop
        · rw [if_pos ⟨by omega, hq2⟩, if_pos ⟨hl.2, by omega⟩]
          simp only [show ((q % 8 : Nat) : Int) < (m.stop % 8 : Nat) + 1 by omega, decide_true, Bool.not_true, Bool.and_false]
        · rw [if_neg (by omega)]
          simp only [show ¬ ((q % 8 : Nat) : Int) < (m.stop % 8 : Nat) + 1 by omega, decide_false, Bool.not_false, Bool.and_true]
      · rw [if_neg hq, if_neg (by omega)]
    · have hstep : arrayStep m i value b = (value.setWidth 8, llvm_emit_lshr_fixed value 8) := by
        unfold arrayStep
        rw [if_neg hfirst, if_neg hl]
      rw [hstep]
      obtain ⟨mem', hm, hml, hmb⟩ := ih (i + 1) (llvm_emit_lshr_fixed value 8) (mem.set i (value.setWidth 8)) (by simpa using ok) (by omega) (by omega)
        (fun t => by
          rw [llvm_emit_lshr_fixed, BitVec.getLsbD_ushiftRight, hv]
          congr 1
          omega)
      refine ⟨mem', hm, by simpa using hml, fun q => ?_⟩
      rw [hmb q, bitAt_set hil]
      by_cases hq : q / 8 = i
      · rw [if_neg (by omega), if_pos hq, BitVec.getLsbD_setWidth, hv]
        by_cases hq2 : q ≤ m.stop
        · rw [if_pos ⟨by omega, hq2⟩, if_neg (by omega), show 8 * i - m.start + q % 8 = q - m.start by omega]
          simp [show q % 8 < 8 by omega]
        · omega
      · rw [if_neg hq]
        by_cases hc : 8 * (i + 1) ≤ q ∧ q ≤ m.stop
        · rw [if_pos hc, if_pos (show 8 * i ≤ q ∧ q ≤ m.stop by omega)]
        · rw [if_neg hc, if_neg (show ¬ (8 * i ≤ q ∧ q ≤ m.stop) by omega)]

/-- The bits that an assignment loses: those in the last byte, if the member does not end with it, and does not begin inside of it. -/
def lost (m : Member) (q : Nat) : Prop :=
  m.stop % 8 ≠ 7 ∧ ¬ (m.start / 8 = m.stop / 8 ∧ m.start % 8 ≠ 0) ∧ q / 8 = m.stop / 8

/-- The bits that it clears: those above a member inside a byte that is not the first one. -/
def cleared (m : Member) (q : Nat) : Prop :=
  m.stop < q ∧ q / 8 = m.stop / 8 ∧ m.start / 8 = m.stop / 8 ∧ m.start % 8 ≠ 0 ∧ 8 ≤ m.stop

instance (m : Member) (q : Nat) : Decidable (lost m q) := by unfold lost; infer_instance
instance (m : Member) (q : Nat) : Decidable (cleared m q) := by unfold cleared; infer_instance

theorem arrayLoop_some {m : Member} {mem : Mem} (ok : m.Ok mem.length) (v : m.Value) :
    ∃ mem', arrayLoop 1 m (m.stop / 8 + 1 - m.start / 8) (m.start / 8) v mem = some mem' ∧ mem'.length = mem.length ∧ ∀ q, bitAt mem' q =
      if m.start ≤ q ∧ q ≤ m.stop then (if lost m q then false else v.getLsbD (q - m.start))
      else if cleared m q then false else bitAt mem q := by
  have h1 := ok.le
  have hlt := ok.lt
  by_cases h0 : m.start % 8 = 0
  · obtain ⟨mem', hm, hml, hmb⟩ := arrayLoop_rest v (m.stop / 8 + 1 - m.start / 8) (m.start / 8) v mem ok (by omega) (by omega) (fun t => by
      congr 1; omega)
    refine ⟨mem', hm, hml, fun q => ?_⟩
    rw [hmb q]
    by_cases hc : m.start ≤ q ∧ q ≤ m.stop
    · rw [if_pos hc, if_pos (show 8 * (m.start / 8) ≤ q ∧ q ≤ m.stop by omega)]
      by_cases hl : lost m q
      · rw [if_pos hl, if_pos ⟨hl.1, hl.2.2⟩]
      · rw [if_neg hl, if_neg]
        exact fun h => hl ⟨h.1, by omega, h.2⟩
    · rw [if_neg hc, if_neg (by omega), if_neg]
      exact fun h => h.2.2.2.1 h0
  · have hil : m.start / 8 < mem.length := by omega
    obtain ⟨b, hb, hbt⟩ := loadByte_some (mem := mem) hil
    rw [show m.stop / 8 + 1 - m.start / 8 = (m.stop / 8 - m.start / 8) + 1 by omega]
    simp only [arrayLoop, hb, Option.bind_eq_bind, Option.bind_some, storeByte_some hil]
    have hres : ∀ t, t < 8 → ((llvm_emit_shl_fixed v (m.start % 8)).setWidth 8).getLsbD t =
        (decide (m.start % 8 ≤ t) && v.getLsbD (t - m.start % 8)) := by
      intro t ht
      have hf := ok.fits
      simp only [Member.width] at hf
      rw [BitVec.getLsbD_setWidth, llvm_emit_shl_fixed, BitVec.getLsbD_shiftLeft]
      by_cases hts : t < m.start % 8
      · simp [hts, show ¬ m.start % 8 ≤ t by omega]
      · simp [ht, hts, show m.start % 8 ≤ t by omega, show t < 8 * m.bytes by omega]
    by_cases hl : m.start / 8 = m.stop / 8 ∧ m.stop % 8 ≠ 7
    · rw [show m.stop / 8 - m.start / 8 = 0 by omega]
      refine ⟨_, rfl, by simp, fun q => ?_⟩
      have hstep : (arrayStep m (m.start / 8) v b).1 =
          (b &&& (llvm_const_low_bitmask (m.start % 8 : Nat) ||| llvm_const_high_bitmask (7 - (m.stop : Int)))) |||
          ((llvm_emit_shl_fixed v (m.start % 8)).setWidth 8 &&& llvm_const_low_bitmask ((m.stop % 8 : Nat) + 1)) := by
        unfold arrayStep
        rw [if_pos ⟨rfl, h0⟩]
        simp [hl]
      rw [bitAt_set hil, hstep]
      by_cases hq : q / 8 = m.start / 8
      · rw [if_pos hq, BitVec.getLsbD_or, BitVec.getLsbD_and, BitVec.getLsbD_and, BitVec.getLsbD_or, getLsbD_low, getLsbD_low, getLsbD_high,
          hres _ (by omega), hbt _ (by omega), show 8 * (m.start / 8) + q % 8 = q by omega]
        simp only [show q % 8 < 8 by omega, decide_true, Bool.true_and]
        by_cases hc1 : q < m.start
        · rw [if_neg (by omega), if_neg (by unfold cleared; omega)]
          simp only [show ((q % 8 : Nat) : Int) < (m.start % 8 : Nat) by omega, show ¬ m.start % 8 ≤ q % 8 by omega, decide_true, decide_false,
            Bool.true_or, Bool.and_true, Bool.false_and, Bool.or_false]
        · by_cases hc2 : q ≤ m.stop
          · rw [if_pos (by omega), if_neg (by unfold lost; omega)]
            simp only [show ¬ ((q % 8 : Nat) : Int) < (m.start % 8 : Nat) by omega, show m.start % 8 ≤ q % 8 by omega,
              show ((q % 8 : Nat) : Int) < (m.stop % 8 : Nat) + 1 by omega,
              show ¬ (8 - (7 - (m.stop : Int)) ≤ ((q % 8 : Nat) : Int)) by omega, decide_true, decide_false,
              Bool.false_or, Bool.and_false, Bool.and_true, Bool.true_and, show q % 8 - m.start % 8 = q - m.start by omega]
          · rw [if_neg (by omega)]
            by_cases hcl : cleared m q
            · rw [if_pos hcl]
              unfold cleared at hcl
              simp only [show ¬ ((q % 8 : Nat) : Int) < (m.start % 8 : Nat) by omega,
                show ¬ ((q % 8 : Nat) : Int) < (m.stop % 8 : Nat) + 1 by omega,
                show ¬ (8 - (7 - (m.stop : Int)) ≤ ((q % 8 : Nat) : Int)) by omega, decide_false, Bool.false_or, Bool.and_false]
            · rw [if_neg hcl]
              unfold cleared at hcl
              simp only [show ¬ ((q % 8 : Nat) : Int) < (m.start % 8 : Nat) by omega,
                show ¬ ((q % 8 : Nat) : Int) < (m.stop % 8 : Nat) + 1 by omega,
                show (8 - (7 - (m.stop : Int)) ≤ ((q % 8 : Nat) : Int)) by omega, decide_false, decide_true, Bool.or_true, Bool.and_true,
                Bool.and_false, Bool.or_false]
      · rw [if_neg hq, if_neg (by omega), if_neg (by unfold cleared; omega)]
    · have hstep : arrayStep m (m.start / 8) v b =
          ((b &&& llvm_const_low_bitmask (m.start % 8 : Nat)) ||| (llvm_emit_shl_fixed v (m.start % 8)).setWidth 8,
            llvm_emit_lshr_fixed v (8 - m.start % 8)) := by
        unfold arrayStep
        rw [if_pos ⟨rfl, h0⟩]
        have : decide (m.start / 8 = m.stop / 8 ∧ m.stop % 8 ≠ 7) = false := by simpa using hl
        simp only [this, Bool.false_eq_true, if_false]
      rw [hstep]
      obtain ⟨mem', hm, hml, hmb⟩ := arrayLoop_rest v (m.stop / 8 - m.start / 8) (m.start / 8 + 1) (llvm_emit_lshr_fixed v (8 - m.start % 8))
        (mem.set (m.start / 8) ((b &&& llvm_const_low_bitmask (m.start % 8 : Nat)) ||| (llvm_emit_shl_fixed v (m.start % 8)).setWidth 8))
        (by simpa using ok) (by omega) (by omega) (fun t => by
          rw [llvm_emit_lshr_fixed, BitVec.getLsbD_ushiftRight]
          congr 1
          omega)
      refine ⟨mem', hm, by simpa using hml, fun q => ?_⟩
      rw [hmb q, bitAt_set hil]
      by_cases hq : q / 8 = m.start / 8
      · rw [if_neg (by omega), if_pos hq, BitVec.getLsbD_or, BitVec.getLsbD_and, getLsbD_low, hres _ (by omega), hbt _ (by omega),
          show 8 * (m.start / 8) + q % 8 = q by omega]
        simp only [show q % 8 < 8 by omega, decide_true, Bool.true_and]
        by_cases hc1 : q < m.start
        · rw [if_neg (by omega), if_neg (by unfold cleared; omega)]
          simp only [show ((q % 8 : Nat) : Int) < (m.start % 8 : Nat) by omega, show ¬ m.start % 8 ≤ q % 8 by omega, decide_true, decide_false,
            Bool.and_true, Bool.false_and, Bool.or_false]
        · rw [if_pos (by omega), if_neg (by unfold lost; omega)]
          simp only [show ¬ ((q % 8 : Nat) : Int) < (m.start % 8 : Nat) by omega, show m.start % 8 ≤ q % 8 by omega, decide_true, decide_false,
            Bool.and_false, Bool.false_or, Bool.true_and, show q % 8 - m.start % 8 = q - m.start by omega]
      · rw [if_neg hq]
        by_cases hc : 8 * (m.start / 8 + 1) ≤ q ∧ q ≤ m.stop
        · rw [if_pos hc, if_pos (show m.start ≤ q ∧ q ≤ m.stop by omega)]
          by_cases hlo : lost m q
          · rw [if_pos hlo, if_pos ⟨hlo.1, hlo.2.2⟩]
          · rw [if_neg hlo, if_neg]
            exact fun h => hlo ⟨h.1, by omega, h.2⟩
        · rw [if_neg hc, if_neg (by omega), if_neg (by unfold cleared; omega)]

end C3.Bitstruct
