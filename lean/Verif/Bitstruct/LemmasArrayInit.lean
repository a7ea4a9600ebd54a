import Verif.Bitstruct.LemmasArray
import Verif.Bitstruct.LemmasInit

/-!
# Assignments to members of arrays, and initializers
-/

set_option autoImplicit false

namespace C3.Bitstruct

theorem valid_bit {m : Member} {v : m.Value} (hb : m.bool = true) (hv : m.Valid v) {t : Nat} (ht : 0 < t) : v.getLsbD t = false := by
  have h2 := hv hb
  rw [BitVec.getLsbD, Nat.testBit_lt_two_pow]
  exact Nat.lt_of_lt_of_le h2 (by simpa using Nat.pow_le_pow_right (show 0 < 2 by omega) ht)

/-- What an assignment really does. -/
theorem assignArray_some {swap : Bool} {mem : Mem} (m : Member) (ok : m.Ok mem.length) (hs : Swappable swap m) (v : m.Value) (hv : m.Valid v) :
    ∃ mem', llvm_emit_update_bitstruct_array swap 1 mem m v = some mem' ∧ mem'.length = mem.length ∧ ∀ q, bitAt mem' q =
      if m.start ≤ q ∧ q ≤ m.stop then (if m.bool = false ∧ lost m q then false else v.getLsbD (rev swap m.width (q - m.start)))
      else if m.bool = false ∧ cleared m q then false else bitAt mem q := by
  have h1 := ok.le
  have hlt := ok.lt
  have hf := ok.fits
  have hsm := ok.small
  simp only [Member.width] at hf
  unfold llvm_emit_update_bitstruct_array
  by_cases hb : m.bool = true
  · obtain ⟨hb1, hb2, hb3⟩ := ok.bool hb
    have hil : m.start / 8 < mem.length := by omega
    obtain ⟨b, hl, hbt⟩ := loadByte_some hil
    rw [if_pos hb, if_neg (by simpa using hb3), hl]
    simp only [Option.bind_eq_bind, Option.bind_some, storeByte_some hil]
    refine ⟨_, rfl, by simp, fun q => ?_⟩
    rw [bitAt_set hil]
    simp only [hb, Bool.true_eq_false, false_and, if_false]
    by_cases hq : q / 8 = m.start / 8
    · rw [if_pos hq, BitVec.getLsbD_or, BitVec.getLsbD_and, BitVec.getLsbD_not, llvm_emit_shl_fixed, llvm_emit_shl_fixed, BitVec.getLsbD_shiftLeft,
        BitVec.getLsbD_shiftLeft, BitVec.getLsbD_setWidth, hbt _ (by omega), show 8 * (m.start / 8) + q % 8 = q by omega]
      simp only [show q % 8 < 8 by omega, decide_true, Bool.true_and, BitVec.getLsbD_one]
      by_cases hc : m.start ≤ q ∧ q ≤ m.stop
      · rw [if_pos hc]
        have hq0 : q = m.start := by omega
        subst hq0
        simp [rev, Member.width, ← hb3]
      · rw [if_neg hc]
        by_cases hq1 : q % 8 < m.start % 8
        · simp [hq1]
        · have : v.getLsbD (q % 8 - m.start % 8) = false := valid_bit hb hv (by omega)
          simp [hq1, this, show ¬ (q % 8 - m.start % 8 = 0) by omega]
    · rw [if_neg hq, if_neg (by omega)]
  · have hb' : m.bool = false := by simpa using hb
    rw [if_neg hb]
    obtain ⟨y, hy, hyb⟩ := swapMember_some ok hs v
    have hy' : swapMember swap v (m.stop - m.start + 1) = some y := hy
    simp only [hy', Option.bind_eq_bind, Option.bind_some]
    rw [if_neg (by omega)]
    obtain ⟨mem', hm, hl, hmb⟩ := arrayLoop_some ok y
    refine ⟨mem', hm, hl, fun q => ?_⟩
    rw [hmb q]
    simp only [hb', true_and]
    by_cases hc : m.start ≤ q ∧ q ≤ m.stop
    · rw [if_pos hc, if_pos hc, hyb _ (by simp only [Member.width]; omega)]
    · rw [if_neg hc, if_neg hc]

/-- The members that are assigned to as they should be. -/
def Whole (m : Member) : Prop := m.bool = true ∨ m.stop % 8 = 7 ∨ (m.stop < 8 ∧ 0 < m.start)

theorem Whole.lost {m : Member} (h : Whole m) (hl : m.start ≤ m.stop) (q : Nat) : ¬ (m.bool = false ∧ lost m q) := by
  rintro ⟨h1, h2, h3, h4⟩
  rcases h with h | h | h
  · simp [h] at h1
  · omega
  · omega

theorem Whole.cleared {m : Member} (h : Whole m) (q : Nat) : ¬ (m.bool = false ∧ cleared m q) := by
  rintro ⟨h1, h2, h3, h4, h5⟩
  rcases h with h | h | h
  · simp [h] at h1
  · omega
  · omega

theorem assignArray_whole {swap : Bool} {mem : Mem} (m : Member) (ok : m.Ok mem.length) (hs : Swappable swap m) (hw : Whole m) (v : m.Value)
    (hv : m.Valid v) : ∃ mem', llvm_emit_update_bitstruct_array swap 1 mem m v = some mem' ∧ Stores m (placeArray swap m) mem mem' v := by
  have h1 := ok.le
  obtain ⟨mem', hm, hl, hb⟩ := assignArray_some m ok hs v hv
  refine ⟨mem', hm, hl, fun k hk => ?_, fun j hj => ?_⟩
  · have hr := rev_lt hs hk
    rw [placeArray_eq, hb, if_pos (by simp only [Member.width] at hr; simp only [Member.width]; omega), if_neg (hw.lost h1 _), Nat.add_sub_cancel_left,
      rev_rev hs hk]
  · rw [hb, if_neg, if_neg (hw.cleared _)]
    intro hc
    have hk : j - m.start < m.width := by simp only [Member.width]; omega
    refine hj (rev swap m.width (j - m.start)) (rev_lt hs hk) ?_
    rw [placeArray_eq, rev_rev hs hk]
    omega

theorem placeArray_disjoint {big : Bool} {m m' : Member} (hs : Swappable big m) (hs' : Swappable big m') (h : m.start ≤ m.stop) (h' : m'.start ≤ m'.stop)
    (hd : m.Disjoint m') {k k' : Nat} (hk : k < m.width) (hk' : k' < m'.width) : placeArray big m k ≠ placeArray big m' k' := by
  intro e
  rw [placeArray_eq, placeArray_eq] at e
  have h1 := rev_lt hs hk
  have h2 := rev_lt hs' hk'
  generalize rev big m.width k = a at *
  generalize rev big m'.width k' = b at *
  simp only [Member.width] at h1 h2
  rcases hd with hd | hd <;> omega

/-! ## Constants -/

theorem constArrayLoop_some {m : Member} (v : m.Value) : ∀ (k j : Nat) (slots : Mem), m.Ok slots.length → j + k = m.stop / 8 + 1 → m.start / 8 ≤ j →
    ∃ r, constArrayLoop m v k j slots = some r ∧ r.length = slots.length ∧ ∀ q, bitAt r q =
      ((decide (8 * j ≤ q ∧ m.start ≤ q ∧ q ≤ m.stop) && v.getLsbD (q - m.start)) || bitAt slots q) := by
  intro k
  induction k with
  | zero =>
    intro j slots ok hj _
    refine ⟨slots, rfl, rfl, fun q => ?_⟩
    simp [show ¬ (8 * j ≤ q ∧ m.start ≤ q ∧ q ≤ m.stop) by omega]
  | succ k ih =>
    intro j slots ok hj hsj
    have h1 := ok.le
    have hlt := ok.lt
    have hf := ok.fits
    simp only [Member.width] at hf
    have hil : j < slots.length := by omega
    have hbt : ∀ t, t < 8 → (slots[j]).getLsbD t = bitAt slots (8 * j + t) := by
      intro t ht
      simp [bitAt, show (8 * j + t) / 8 = j by omega, show (8 * j + t) % 8 = t by omega, hil]
    simp only [constArrayLoop, List.getElem?_eq_getElem hil, Option.bind_eq_bind, Option.bind_some]
    have hto : ∀ t, t < 8 → (((if j = m.stop / 8 then
          llvm_mask_low_bits (if j = m.start / 8 then llvm_emit_shl_fixed v (m.start % 8) else llvm_emit_lshr_fixed v (j * 8 - m.start)) (m.stop % 8 + 1)
        else (if j = m.start / 8 then llvm_emit_shl_fixed v (m.start % 8) else llvm_emit_lshr_fixed v (j * 8 - m.start))).setWidth 8).getLsbD t) =
        (decide (m.start ≤ 8 * j + t ∧ 8 * j + t ≤ m.stop) && v.getLsbD (8 * j + t - m.start)) := by
      intro t ht
      have hone : (if j = m.start / 8 then llvm_emit_shl_fixed v (m.start % 8) else llvm_emit_lshr_fixed v (j * 8 - m.start)).getLsbD t =
          (decide (m.start ≤ 8 * j + t) && v.getLsbD (8 * j + t - m.start)) := by
        split
        · rename_i hjs
          rw [llvm_emit_shl_fixed, BitVec.getLsbD_shiftLeft]
          by_cases hts : t < m.start % 8
          · simp [hts, show ¬ m.start ≤ 8 * j + t by omega]
          · simp [hts, show m.start ≤ 8 * j + t by omega, show t < 8 * m.bytes by omega, show 8 * j + t - m.start = t - m.start % 8 by omega]
        · rw [llvm_emit_lshr_fixed, BitVec.getLsbD_ushiftRight]
          simp [show m.start ≤ 8 * j + t by omega, show 8 * j + t - m.start = j * 8 - m.start + t by omega]
      rw [BitVec.getLsbD_setWidth]
      simp only [ht, decide_true, Bool.true_and]
      by_cases hje : j = m.stop / 8
      · rw [if_pos hje, getLsbD_mask, hone, ← Bool.and_assoc]
        congr 1
        rw [Bool.eq_iff_iff, Bool.and_eq_true, decide_eq_true_eq, decide_eq_true_eq, decide_eq_true_eq]
        omega
      · rw [if_neg hje, hone]
        congr 1
        rw [decide_eq_decide]
        omega
    generalize hT : (if j = m.stop / 8 then
          llvm_mask_low_bits (if j = m.start / 8 then llvm_emit_shl_fixed v (m.start % 8) else llvm_emit_lshr_fixed v (j * 8 - m.start)) (m.stop % 8 + 1)
        else (if j = m.start / 8 then llvm_emit_shl_fixed v (m.start % 8) else llvm_emit_lshr_fixed v (j * 8 - m.start))) = T at hto
    obtain ⟨r, hr, hrl, hrb⟩ := ih (j + 1) (slots.set j (T.setWidth 8 ||| slots[j])) (by simpa using ok) (by omega) (by omega)
    refine ⟨r, hr, by simpa using hrl, fun q => ?_⟩
    rw [hrb q, bitAt_set hil]
    by_cases hq : q / 8 = j
    · rw [if_pos hq, BitVec.getLsbD_or, hto _ (by omega), hbt _ (by omega), show 8 * j + q % 8 = q by omega]
      simp [show ¬ (8 * (j + 1) ≤ q ∧ m.start ≤ q ∧ q ≤ m.stop) by omega, show (8 * j ≤ q ∧ m.start ≤ q ∧ q ≤ m.stop) ↔ (m.start ≤ q ∧ q ≤ m.stop) by omega]
    · rw [if_neg hq]
      congr 2
      rw [decide_eq_decide]
      omega

theorem constArrayStep_some {swap : Bool} {slots : Mem} (m : Member) (ok : m.Ok slots.length) (hs : Swappable swap m) (v : m.Value) (hv : m.Valid v) :
    ∃ r, constArrayStep swap slots m v = some r ∧ r.length = slots.length ∧ ∀ q, bitAt r q =
      ((decide (m.start ≤ q ∧ q ≤ m.stop) && v.getLsbD (rev swap m.width (q - m.start))) || bitAt slots q) := by
  have h1 := ok.le
  have hlt := ok.lt
  have hf := ok.fits
  have hsm := ok.small
  unfold constArrayStep
  by_cases hb : m.bool = true
  · obtain ⟨hb1, hb2, hb3⟩ := ok.bool hb
    have hil : m.start / 8 < slots.length := by omega
    rw [if_pos hb, if_neg (by simpa using hb3)]
    have hbit : ∀ q, m.start ≤ q ∧ q ≤ m.stop → rev swap m.width (q - m.start) = 0 := by
      intro q hq
      simp [rev, Member.width, ← hb3]
      omega
    by_cases h0 : v = 0
    · rw [if_pos h0]
      refine ⟨slots, rfl, rfl, fun q => ?_⟩
      simp [h0]
    · rw [if_neg h0]
      simp only [List.getElem?_eq_getElem hil, Option.bind_eq_bind, Option.bind_some]
      have hone : v.getLsbD 0 = true := by
        have := hv hb
        have hn : v.toNat ≠ 0 := fun e => h0 (by apply BitVec.eq_of_toNat_eq; simpa using e)
        have : v.toNat = 1 := by omega
        simp [BitVec.getLsbD, this]
      refine ⟨_, rfl, by simp, fun q => ?_⟩
      rw [bitAt_set hil]
      by_cases hq : q / 8 = m.start / 8
      · have hbt : (slots[m.start / 8]).getLsbD (q % 8) = bitAt slots q := by simp [bitAt, hq, hil]
        rw [if_pos hq, BitVec.getLsbD_or, hbt, llvm_emit_shl_fixed, BitVec.getLsbD_shiftLeft]
        simp only [show q % 8 < 8 by omega, decide_true, Bool.true_and, BitVec.getLsbD_one]
        by_cases hc : m.start ≤ q ∧ q ≤ m.stop
        · rw [hbit q hc, hone]
          simp [show q = m.start by omega, h1]
        · simp only [hc, decide_false, Bool.false_and, Bool.false_or]
          by_cases hq1 : q % 8 < m.start % 8
          · simp [hq1]
          · simp [show ¬ (q % 8 - m.start % 8 = 0) by omega]
      · rw [if_neg hq]
        simp [show ¬ (m.start ≤ q ∧ q ≤ m.stop) by omega]
  · rw [if_neg hb, if_neg (by simp only [Member.width] at hf; omega)]
    have hs' : Swappable (swap && decide (m.width > 8)) m := by
      intro h
      simp at h
      exact hs h.1
    obtain ⟨y, hy, hyb⟩ := swapMember_some ok hs' (llvm_mask_low_bits v m.width)
    have hy' : swapMember (swap && decide (m.stop - m.start + 1 > 8)) (llvm_mask_low_bits v (m.stop - m.start + 1)) (m.stop - m.start + 1) = some y := hy
    simp only [hy', Option.bind_eq_bind, Option.bind_some]
    obtain ⟨r, hr, hrl, hrb⟩ := constArrayLoop_some y (m.stop / 8 + 1 - m.start / 8) (m.start / 8) slots ok (by omega) (by omega)
    refine ⟨r, hr, hrl, fun q => ?_⟩
    rw [hrb q]
    congr 1
    by_cases hc : m.start ≤ q ∧ q ≤ m.stop
    · have hk : q - m.start < m.width := by simp only [Member.width]; omega
      have hrv : rev (swap && decide (m.width > 8)) m.width (q - m.start) = rev swap m.width (q - m.start) := by
        simp [rev]
      rw [hyb _ hk, hrv, getLsbD_mask]
      simp only [rev_lt hs hk, decide_true, Bool.true_and]
      congr 1
      rw [decide_eq_decide]
      omega
    · simp [hc]

/-- The bit `q` that the entry has, if it has one. -/
def bitIn (swap : Bool) (e : Entry) (q : Nat) : Bool := e.2.getLsbD (rev swap e.1.width (q - e.1.start))

theorem constArrayAll_some {swap : Bool} : ∀ (es : List Entry) (slots : Mem),
    (∀ e ∈ es, e.1.Ok slots.length ∧ Swappable swap e.1 ∧ e.1.Valid e.2) →
    ∃ r, constArrayAll swap es slots = some r ∧ r.length = slots.length ∧
      ∀ q, bitAt r q = (es.any (fun e => decide (covers e q) && bitIn swap e q) || bitAt slots q) := by
  intro es
  induction es with
  | nil => intro slots _; exact ⟨slots, rfl, rfl, fun q => by simp⟩
  | cons e es ih =>
    intro slots h
    obtain ⟨h1, h2, h3⟩ := h e (by simp)
    obtain ⟨s, hs, hsl, hsb⟩ := constArrayStep_some e.1 h1 h2 e.2 h3
    obtain ⟨r, hr, hrl, hrb⟩ := ih s (fun e' he' => by rw [hsl]; exact h e' (by simp [he']))
    refine ⟨r, by simp [constArrayAll, hs, hr], by omega, fun q => ?_⟩
    rw [hrb q, hsb q, List.any_cons]
    change _ = (((decide (e.1.start ≤ q ∧ q ≤ e.1.stop) && e.2.getLsbD (rev swap e.1.width (q - e.1.start))) || _) || _)
    generalize (decide (e.1.start ≤ q ∧ q ≤ e.1.stop) && e.2.getLsbD (rev swap e.1.width (q - e.1.start))) = a
    generalize es.any (fun e => decide (covers e q) && bitIn swap e q) = b
    cases a <;> cases b <;> simp

/-- Storing in zeros is the same. -/
theorem init_const_eq {swap : Bool} : ∀ (es : List Entry) (mem : Mem),
    (∀ e ∈ es, e.1.Ok mem.length ∧ Swappable swap e.1 ∧ e.1.Valid e.2 ∧ Whole e.1 ∧ ∀ q, covers e q → bitAt mem q = false) → Apart es →
    initArrayAll swap 1 es mem = constArrayAll swap es mem := by
  intro es
  induction es with
  | nil => intro mem _ _; rfl
  | cons e es ih =>
    intro mem h ha
    obtain ⟨ha1, ha2⟩ := List.pairwise_cons.1 ha
    obtain ⟨h1, h2, h3, h4, h5⟩ := h e (by simp)
    obtain ⟨s, hs, hsl, hsb⟩ := constArrayStep_some e.1 h1 h2 e.2 h3
    obtain ⟨r, hr, hrl, hrb⟩ := assignArray_some e.1 h1 h2 e.2 h3
    have : r = s := by
      apply mem_ext (by omega)
      intro q
      rw [hrb q, hsb q, if_neg (h4.lost h1.le q), if_neg (h4.cleared q)]
      by_cases hc : e.1.start ≤ q ∧ q ≤ e.1.stop
      · rw [if_pos hc, h5 q hc]; simp [hc]
      · rw [if_neg hc]; simp [hc]
    subst this
    rw [initArrayAll, constArrayAll, hr, hs]
    refine ih r (fun e' he' => ?_) ha2
    obtain ⟨g1, g2, g3, g4, g5⟩ := h e' (by simp [he'])
    refine ⟨by rw [hrl]; exact g1, g2, g3, g4, fun q hq => ?_⟩
    rw [hsb q, g5 q hq]
    have : ¬ (e.1.start ≤ q ∧ q ≤ e.1.stop) := fun hc => covers_unique (ha1 e' he') hc hq
    simp [this]

theorem bitAt_zero (n q : Nat) : bitAt (List.replicate n 0) q = false := by
  simp only [bitAt, List.getD, List.getElem?_replicate]
  split <;> simp

theorem Apart.eq_or : ∀ {es : List Entry}, Apart es → ∀ {a b : Entry}, a ∈ es → b ∈ es → a = b ∨ a.1.Disjoint b.1 := by
  intro es
  induction es with
  | nil => intro _ a b ha; cases ha
  | cons e es ih =>
    intro h a b ha hb
    obtain ⟨h1, h2⟩ := List.pairwise_cons.1 h
    rcases List.mem_cons.1 ha with h3 | h3 <;> rcases List.mem_cons.1 hb with h4 | h4
    · exact Or.inl (h3.trans h4.symm)
    · subst h3; exact Or.inr (h1 b h4)
    · subst h4; exact Or.inr (Or.symm (h1 a h3))
    · exact ih h2 h3 h4

end C3.Bitstruct
