import Verif.Bitstruct.SpecOps
import Verif.Bitstruct.LemmasArrayInit
import Verif.Bitstruct.LemmasInt
import Verif.Bigint.LemmasBits
import Verif.Bigint.LemmasShift
import Verif.Bigint.LemmasVal

set_option autoImplicit false

namespace C3.Bitstruct

open C3.Bigint (CInt Int128 TypeKind int_not int_and int_or int_xor i128_clz i128_lshr64 i128_not)

theorem kind_bits {m : Member} {t : TypeKind} (h : m.kind = some t) : t.bits = 8 * m.bytes := by
  unfold Member.kind at h
  split at h <;> simp_all [TypeKind.bits] <;> subst h <;> simp_all

/-! ## One member -/

theorem bv_not (a : Int128) : (i128_not a).bv = ~~~ a.bv := by
  simp only [Int128.bv, i128_not]
  rw [BitVec.not_append]

/-- What the low bits of `~` are. -/
theorem int_not_bits (c : CInt) : ∃ r, int_not c = some r ∧ r.type = c.type ∧
    ∀ k, k < c.type.bits → r.i.bv.getLsbD k = !c.i.bv.getLsbD k := by
  obtain ⟨r, h1, h2⟩ := Bigint.extend_spec (i128_not c.i) c.type
  refine ⟨⟨r, c.type⟩, by simp [int_not, h1], rfl, fun k hk => ?_⟩
  have hd : ((2 : Int) ^ c.type.bits) ∣ (r.u : Int) - (i128_not c.i).u := by
    have h3 := Bigint.val_dvd_bits ⟨r, c.type⟩ c.type
    have h4 := Int.dvd_sub h2.2 h3
    have : CInt.val ⟨r, c.type⟩ - ((i128_not c.i).u : Int) - (CInt.val ⟨r, c.type⟩ - (r.u : Int)) = (r.u : Int) - (i128_not c.i).u := by omega
    rwa [this] at h4
  have hm : r.u % 2 ^ c.type.bits = (i128_not c.i).u % 2 ^ c.type.bits := by
    have := Int.emod_emod_of_dvd
    have h5 := (Int.emod_eq_emod_iff_emod_sub_eq_zero (m := (r.u : Int)) (n := (2 : Int) ^ c.type.bits) (k := ((i128_not c.i).u : Int))).2
      (Int.emod_eq_zero_of_dvd hd)
    exact_mod_cast h5
  have hk' : k < 128 := by
    have : c.type.bits ≤ 128 := by cases c.type <;> decide
    omega
  have hb : ∀ x : Int128, x.bv.getLsbD k = (x.u % 2 ^ c.type.bits).testBit k := by
    intro x
    rw [Nat.testBit_mod_two_pow, ← Int128.bv_toNat, BitVec.getLsbD]
    simp [hk]
  show r.bv.getLsbD k = _
  rw [hb r, hm, ← hb, bv_not, BitVec.getLsbD_not]
  simp [hk']

/-- The mask: how many ones. -/
def ones (t : TypeKind) : Nat := if t.signed then 128 else t.bits

theorem neg_mask (t : TypeKind) : ∃ neg z, int_not ⟨⟨0, 0⟩, t⟩ = some neg ∧ i128_clz neg.i = some z ∧ 128 - z.toNat = ones t ∧ neg.type = t ∧
    neg.i.bv = BitVec.allOnes 128 >>> (128 - ones t) := by
  cases t
  case I8 | I16 | I32 | I64 | I128 =>
    exact ⟨⟨⟨18446744073709551615#64, 18446744073709551615#64⟩, _⟩, 0#32, by decide +kernel, by decide +kernel, by decide +kernel, rfl, by decide +kernel⟩
  case U8 => exact ⟨⟨⟨0#64, 255#64⟩, _⟩, 120#32, by decide +kernel, by decide +kernel, by decide +kernel, rfl, by decide +kernel⟩
  case U16 => exact ⟨⟨⟨0#64, 65535#64⟩, _⟩, 112#32, by decide +kernel, by decide +kernel, by decide +kernel, rfl, by decide +kernel⟩
  case U32 => exact ⟨⟨⟨0#64, 4294967295#64⟩, _⟩, 96#32, by decide +kernel, by decide +kernel, by decide +kernel, rfl, by decide +kernel⟩
  case U64 => exact ⟨⟨⟨0#64, 18446744073709551615#64⟩, _⟩, 64#32, by decide +kernel, by decide +kernel, by decide +kernel, rfl, by decide +kernel⟩
  case U128 => exact ⟨⟨⟨18446744073709551615#64, 18446744073709551615#64⟩, _⟩, 0#32, by decide +kernel, by decide +kernel, by decide +kernel, rfl,
      by decide +kernel⟩

/-- The bits of an integer that is inverted: the top one of the member is lost. -/
theorem invertInt_some {m : Member} {n : Nat} (ok : m.Ok n) {c : CInt} (hk : m.kind = some c.type) :
    ∃ r, invertInt m c = some r ∧ r.type = c.type ∧
      ∀ k, k < m.width → r.i.bv.getLsbD k = (decide (k + 1 < m.width) && !c.i.bv.getLsbD k) := by
  obtain ⟨res, h1, ht, hb⟩ := int_not_bits c
  obtain ⟨neg, z, h2, h3, h4, h5, h6⟩ := neg_mask c.type
  have hfit := ok.fits
  rw [← kind_bits hk] at hfit
  have hwd : m.width = m.stop - m.start + 1 := rfl
  rw [hwd] at hfit
  have ho : c.type.bits ≤ ones c.type ∧ ones c.type ≤ 128 := by cases c.type <;> decide
  obtain ⟨i, h7, h8⟩ := Bigint.lshr64_spec neg.i (BitVec.ofNat 64 (ones c.type - (m.stop - m.start)))
  have hi : (BitVec.ofNat 64 (ones c.type - (m.stop - m.start))).toNat = ones c.type - (m.stop - m.start) := by
    rw [BitVec.toNat_ofNat]; omega
  have hgt : ones c.type > m.stop - m.start := by omega
  refine ⟨int_and res ⟨i, neg.type⟩, ?_, ht, ?_⟩
  · unfold invertInt
    simp only [h1, Option.bind_eq_bind, Option.bind_some, ht, h2, h3, h4]
    rw [if_pos hgt]
    simp only [h7, Option.bind_some]
  · intro k hk
    have : (int_and res ⟨i, neg.type⟩).i.bv = res.i.bv &&& i.bv := Bigint.bv_and _ _
    rw [this, BitVec.getLsbD_and, hb k (by omega), h8, h6, hi, Bool.and_comm]
    congr 1
    rw [BitVec.getLsbD_ushiftRight, BitVec.getLsbD_ushiftRight, BitVec.getLsbD_allOnes, Bool.eq_iff_iff, decide_eq_true_eq, decide_eq_true_eq]
    omega

theorem value_int {m : Member} (c : CInt) (k : Nat) : (Init.value m (.int c)).getLsbD k = (decide (k < 8 * m.bytes) && c.i.bv.getLsbD k) := by
  show ((c.i.high ++ c.i.low).setWidth (8 * m.bytes)).getLsbD k = _
  rw [BitVec.getLsbD_setWidth]
  rfl

theorem value_bool {m : Member} (b : Bool) (k : Nat) : (Init.value m (.bool b)).getLsbD k = (decide (k < 8 * m.bytes) && (decide (k = 0) && b)) := by
  show ((BitVec.ofBool b).setWidth (8 * m.bytes)).getLsbD k = _
  rw [BitVec.getLsbD_setWidth, BitVec.getLsbD_ofBool]

theorem value_zero {m : Member} (k : Nat) : (Init.value m .zero).getLsbD k = false := by
  show (0#(8 * m.bytes)).getLsbD k = false
  simp

theorem invertMember_some {m : Member} {n : Nat} (ok : m.Ok n) (hk : Kinded m) {i : Init} (ht : Typed m i) :
    ∃ i', invertMember m i = some i' ∧ Typed m i' ∧
      ∀ k, k < m.width → (i'.value m).getLsbD k = ((m.bool || decide (k + 1 < m.width)) && !(i.value m).getLsbD k) := by
  have hf := ok.fits
  cases hb : m.bool with
  | true =>
    obtain ⟨h1, _, h3⟩ := ok.bool hb
    have hw : m.width = 1 := by simp only [Member.width]; omega
    cases i with
    | zero =>
      refine ⟨.bool true, by simp [invertMember, hb], hb, fun k hk => ?_⟩
      rw [value_bool, value_zero]
      simp; omega
    | bool b =>
      refine ⟨.bool !b, by simp [invertMember, hb], hb, fun k hk => ?_⟩
      rw [value_bool, value_bool]
      have : k = 0 := by omega
      subst this
      simp [h1]
    | int c => exact absurd ht.1 (by simp [hb])
  | false =>
    cases i with
    | zero =>
      obtain ⟨t, ht'⟩ : ∃ t, m.kind = some t := hk.resolve_left (by simp [hb])
      obtain ⟨r, h1, h2, h3⟩ := invertInt_some ok (c := ⟨⟨0, 0⟩, t⟩) ht'
      refine ⟨.int r, by simp only [invertMember, hb, ht', h1, Option.bind_eq_bind, Option.bind_some], ⟨hb, by rw [h2]; exact ht'⟩, fun k hk => ?_⟩
      rw [value_int, value_zero, h3 k hk]
      have : (Int128.bv ⟨0, 0⟩).getLsbD k = false := by rw [show Int128.bv ⟨0, 0⟩ = 0#128 by decide, BitVec.getLsbD_zero]
      rw [this]
      simp [show k < 8 * m.bytes by omega]
    | bool b => exact absurd ht (by simp [Typed, hb])
    | int c =>
      obtain ⟨r, h1, h2, h3⟩ := invertInt_some ok (c := c) ht.2
      refine ⟨.int r, by simp [invertMember, hb, h1], ⟨hb, by rw [h2]; exact ht.2⟩, fun k hk => ?_⟩
      rw [value_int, value_int, h3 k hk]
      simp [show k < 8 * m.bytes by omega]

theorem BitOp.false_false (op : BitOp) : op.bool false false = false := by cases op <;> rfl

theorem int_op (op : BitOp) (a b : CInt) (k : Nat) : (op.int a b).i.bv.getLsbD k = op.bool (a.i.bv.getLsbD k) (b.i.bv.getLsbD k) := by
  cases op with
  | and => exact (congrArg (BitVec.getLsbD · k) (Bigint.bv_and a.i b.i)).trans (BitVec.getLsbD_and)
  | or => exact (congrArg (BitVec.getLsbD · k) (Bigint.bv_or a.i b.i)).trans (BitVec.getLsbD_or)
  | xor => exact (congrArg (BitVec.getLsbD · k) (Bigint.bv_xor a.i b.i)).trans (BitVec.getLsbD_xor)

theorem mergeMember_some (op : BitOp) {m : Member} {l r : Init} (hl : Typed m l) (hr : Typed m r) :
    ∃ i, mergeMember op m l r = some i ∧ Typed m i ∧ ∀ k, (i.value m).getLsbD k = op.bool ((l.value m).getLsbD k) ((r.value m).getLsbD k) := by
  unfold mergeMember
  by_cases hr0 : r = .zero
  · subst hr0
    simp only [if_true]
    refine ⟨_, rfl, ?_, fun k => ?_⟩
    · split <;> assumption
    · rw [value_zero]
      cases op <;> simp [BitOp.bool, value_zero]
  · rw [if_neg hr0]
    by_cases hl0 : l = .zero
    · subst hl0
      simp only [if_true]
      refine ⟨_, rfl, ?_, fun k => ?_⟩
      · split <;> assumption
      · rw [value_zero]
        cases op <;> simp [BitOp.bool, value_zero]
    · simp only [if_neg hl0]
      cases l with
      | zero => exact absurd rfl hl0
      | bool a =>
        cases r with
        | zero => exact absurd rfl hr0
        | bool b =>
          have hb : m.bool = true := hl
          refine ⟨.bool (op.bool a b), by simp [hb], hb, fun k => ?_⟩
          rw [value_bool, value_bool, value_bool]
          cases decide (k < 8 * m.bytes) <;> cases decide (k = 0) <;> simp [BitOp.false_false]
        | int b => exact absurd hr.1 (by rw [show m.bool = true from hl]; simp)
      | int a =>
        cases r with
        | zero => exact absurd rfl hr0
        | bool b => exact absurd hl.1 (by rw [show m.bool = true from hr]; simp)
        | int b =>
          refine ⟨.int (op.int a b), by simp [hl.1], ⟨hl.1, ?_⟩, fun k => ?_⟩
          · rw [hl.2]; cases op <;> rfl
          · rw [value_int, value_int, value_int, int_op]
            cases decide (k < 8 * m.bytes) <;> simp [BitOp.false_false]

/-! ## All of them -/

/-- The bit `j` of the constant before its bytes are swapped: `ix` is which bit of the member it is. -/
def anyAt (ix : Member → Nat → Nat) (j : Nat) (es : List Entry) : Bool := es.any fun e => decide (covers e j) && e.2.getLsbD (ix e.1 j)

theorem anyAt_none {ix : Member → Nat → Nat} {j : Nat} : ∀ {ms : List Member} {is : List Init}, (∀ m ∈ ms, ¬ (m.start ≤ j ∧ j ≤ m.stop)) →
    anyAt ix j (entries ms is) = false := by
  intro ms
  induction ms with
  | nil => intro is _; rfl
  | cons m ms ih =>
    intro is h
    cases is with
    | nil => rfl
    | cons i is =>
      have h1 : ¬ (m.start ≤ j ∧ j ≤ m.stop) := h m (by simp)
      have h2 := ih (is := is) (fun m' hm' => h m' (by simp [hm']))
      simp only [anyAt, entries, List.zipWith_cons_cons, List.any_cons] at h2 ⊢
      rw [h2]
      simp [covers, h1]

theorem anyAt_cons (ix : Member → Nat → Nat) (j : Nat) (m : Member) (ms : List Member) (i : Init) (is : List Init) :
    anyAt ix j (entries (m :: ms) (i :: is)) =
      (decide (m.start ≤ j ∧ j ≤ m.stop) && (i.value m).getLsbD (ix m j) || anyAt ix j (entries ms is)) := rfl

theorem anyAt_rest {ix : Member → Nat → Nat} {j : Nat} {m : Member} {ms : List Member} {is : List Init} (h : ∀ m' ∈ ms, m.Disjoint m')
    (hc : m.start ≤ j ∧ j ≤ m.stop) : anyAt ix j (entries ms is) = false := by
  refine anyAt_none fun m' hm' hc' => ?_
  rcases h m' hm' with h | h <;> omega

theorem mergeAll_some (op : BitOp) (ix : Member → Nat → Nat) : ∀ {ms : List Member} {ls rs : List Init}, TypedAll ms ls → TypedAll ms rs →
    ∃ is, mergeAll op ms ls rs = some is ∧ TypedAll ms is ∧
      (ApartMembers ms → ∀ j, anyAt ix j (entries ms is) = op.bool (anyAt ix j (entries ms ls)) (anyAt ix j (entries ms rs))) := by
  intro ms
  induction ms with
  | nil =>
    intro ls rs hl hr
    cases ls with
    | cons => exact hl.elim
    | nil =>
      cases rs with
      | cons => exact hr.elim
      | nil => exact ⟨[], rfl, trivial, fun _ j => (BitOp.false_false op).symm⟩
  | cons m ms ih =>
    intro ls rs hl hr
    cases ls with
    | nil => exact hl.elim
    | cons l ls =>
      cases rs with
      | nil => exact hr.elim
      | cons r rs =>
        obtain ⟨i, h1, h2, h3⟩ := mergeMember_some op hl.1 hr.1
        obtain ⟨is, g1, g2, g3⟩ := ih hl.2 hr.2
        refine ⟨i :: is, by simp [mergeAll, h1, g1], ⟨h2, g2⟩, fun ha j => ?_⟩
        obtain ⟨ha1, ha2⟩ := List.pairwise_cons.1 ha
        rw [anyAt_cons, anyAt_cons, anyAt_cons, g3 ha2]
        by_cases hc : m.start ≤ j ∧ j ≤ m.stop
        · rw [anyAt_rest ha1 hc, anyAt_rest ha1 hc, h3]
          simp [hc, BitOp.false_false]
        · simp [hc]

theorem invertAll_some {n : Nat} (ix : Member → Nat → Nat) : ∀ {ms : List Member} {is : List Init}, TypedAll ms is → (∀ m ∈ ms, m.Ok n ∧ Kinded m) →
    ∃ is', invertAll ms is = some is' ∧ TypedAll ms is' ∧
      (ApartMembers ms → ∀ m ∈ ms, ∀ j, m.start ≤ j → j ≤ m.stop → ix m j < m.width →
        anyAt ix j (entries ms is') = ((m.bool || decide (ix m j + 1 < m.width)) && !anyAt ix j (entries ms is))) := by
  intro ms
  induction ms with
  | nil =>
    intro is hi _
    cases is with
    | cons => exact hi.elim
    | nil => exact ⟨[], rfl, trivial, fun _ m hm => by cases hm⟩
  | cons m ms ih =>
    intro is hi hk
    cases is with
    | nil => exact hi.elim
    | cons i is =>
      obtain ⟨h0, h0'⟩ := hk m (by simp)
      obtain ⟨i', h1, h2, h3⟩ := invertMember_some h0 h0' hi.1
      obtain ⟨is', g1, g2, g3⟩ := ih hi.2 (fun m' hm' => hk m' (by simp [hm']))
      refine ⟨i' :: is', by simp [invertAll, h1, g1], ⟨h2, g2⟩, fun ha m' hm' j hj1 hj2 hw => ?_⟩
      obtain ⟨ha1, ha2⟩ := List.pairwise_cons.1 ha
      rw [anyAt_cons, anyAt_cons]
      rcases List.mem_cons.1 hm' with rfl | hm'
      · rw [anyAt_rest ha1 ⟨hj1, hj2⟩, anyAt_rest ha1 ⟨hj1, hj2⟩, h3 _ hw]
        simp [hj1, hj2]
      · have hc : ¬ (m.start ≤ j ∧ j ≤ m.stop) := by rcases ha1 m' hm' with h | h <;> omega
        rw [g3 ha2 m' hm' j hj1 hj2 hw]
        simp [hc]

/-! ## Constants -/

/-- The initializers of the members. -/
def Const.expand (ms : List Member) : Const → List Init
  | .zero => ms.map fun _ => .zero
  | .struct is => is

theorem typed_zeros : ∀ (ms : List Member), TypedAll ms (ms.map fun _ => .zero) := by
  intro ms
  induction ms with
  | nil => trivial
  | cons m ms ih => exact ⟨trivial, ih⟩

theorem Const.Typed.expand {ms : List Member} {c : Const} (h : c.Typed ms) : TypedAll ms (c.expand ms) := by
  cases c with
  | zero => exact typed_zeros ms
  | struct is => exact h

theorem anyAt_zeros {ix : Member → Nat → Nat} {j : Nat} : ∀ (ms : List Member), anyAt ix j (entries ms (ms.map fun _ => .zero)) = false := by
  intro ms
  induction ms with
  | nil => rfl
  | cons m ms ih =>
    rw [List.map_cons, anyAt_cons, ih, value_zero]
    simp

theorem merge_some (op : BitOp) (ix : Member → Nat → Nat) {ms : List Member} {l r : Const} (hl : l.Typed ms) (hr : r.Typed ms) (ha : ApartMembers ms) :
    ∃ c, sema_merge_bitstruct_const_initializers op ms l r = some c ∧ c.Typed ms ∧
      ∀ j, anyAt ix j (entries ms (c.expand ms)) = op.bool (anyAt ix j (entries ms (l.expand ms))) (anyAt ix j (entries ms (r.expand ms))) := by
  cases l with
  | zero =>
    cases r with
    | zero =>
      refine ⟨.zero, rfl, trivial, fun j => ?_⟩
      simp only [Const.expand, anyAt_zeros, BitOp.false_false]
    | struct rs =>
      refine ⟨if op = .and then .zero else .struct rs, rfl, by split <;> assumption, fun j => ?_⟩
      cases op <;> simp [Const.expand, anyAt_zeros, BitOp.bool]
  | struct ls =>
    cases r with
    | zero =>
      refine ⟨if op = .and then .zero else .struct ls, rfl, by split <;> assumption, fun j => ?_⟩
      cases op <;> simp [Const.expand, anyAt_zeros, BitOp.bool]
    | struct rs =>
      obtain ⟨is, h1, h2, h3⟩ := mergeAll_some op ix hl hr
      exact ⟨.struct is, by simp [sema_merge_bitstruct_const_initializers, h1], h2, h3 ha⟩

theorem invert_some {n : Nat} (ix : Member → Nat → Nat) {ms : List Member} {c : Const} (hc : c.Typed ms) (hk : ∀ m ∈ ms, m.Ok n ∧ Kinded m)
    (ha : ApartMembers ms) :
    ∃ c', sema_invert_bitstruct_const_initializer ms c = some c' ∧ c'.Typed ms ∧
      ∀ m ∈ ms, ∀ j, m.start ≤ j → j ≤ m.stop → ix m j < m.width →
        anyAt ix j (entries ms (c'.expand ms)) = ((m.bool || decide (ix m j + 1 < m.width)) && !anyAt ix j (entries ms (c.expand ms))) := by
  obtain ⟨is, h1, h2, h3⟩ := invertAll_some ix hc.expand hk
  refine ⟨.struct is, ?_, h2, h3 ha⟩
  cases c with
  | zero =>
    have h1 : invertAll ms (ms.map fun _ => .zero) = some is := h1
    simp [sema_invert_bitstruct_const_initializer, h1]
  | struct is0 =>
    have h1 : invertAll ms is0 = some is := h1
    simp [sema_invert_bitstruct_const_initializer, h1]

/-! ## Bytes -/

theorem entries_mem : ∀ {ms : List Member} {is : List Init} {e : Entry}, e ∈ entries ms is → ∃ i, e.1 ∈ ms ∧ e.2 = i.value e.1 ∧ i ∈ is := by
  intro ms
  induction ms with
  | nil => intro is e h; cases h
  | cons m ms ih =>
    intro is e h
    cases is with
    | nil => cases h
    | cons i is =>
      rcases List.mem_cons.1 h with rfl | h
      · exact ⟨i, by simp, rfl, by simp⟩
      · obtain ⟨i', h1, h2, h3⟩ := ih h
        exact ⟨i', by simp [h1], h2, by simp [h3]⟩

theorem entries_typed : ∀ {ms : List Member} {is : List Init}, TypedAll ms is → ∀ {e : Entry}, e ∈ entries ms is → e.1 ∈ ms ∧ e.1.Valid e.2 := by
  intro ms
  induction ms with
  | nil => intro is _ e h; cases h
  | cons m ms ih =>
    intro is ht e h
    cases is with
    | nil => cases h
    | cons i is =>
      rcases List.mem_cons.1 h with rfl | h
      · refine ⟨by simp, fun hb => ?_⟩
        have ht := ht.1
        cases i with
        | zero => show (0#(8 * m.bytes)).toNat < 2; simp
        | bool b =>
          show ((BitVec.ofBool b).setWidth (8 * m.bytes)).toNat < 2
          rw [BitVec.toNat_setWidth]
          refine Nat.lt_of_le_of_lt (Nat.mod_le _ _) ?_
          cases b <;> decide
        | int c => exact absurd ht.1 (by rw [show m.bool = true from hb]; simp)
      · obtain ⟨h1, h2⟩ := ih ht.2 h
        exact ⟨by simp [h1], h2⟩

theorem entries_apart : ∀ {ms : List Member} {is : List Init}, ApartMembers ms → Apart (entries ms is) := by
  intro ms
  induction ms with
  | nil => intro is _; exact List.Pairwise.nil
  | cons m ms ih =>
    intro is h
    cases is with
    | nil => exact List.Pairwise.nil
    | cons i is =>
      obtain ⟨h1, h2⟩ := List.pairwise_cons.1 h
      refine List.pairwise_cons.2 ⟨fun e he => ?_, ih h2⟩
      obtain ⟨_, h3, _⟩ := entries_mem he
      exact h1 _ h3

theorem bytesInt_some {p swap : Bool} {n : Nat} {ms : List Member} (hn : swap = true → 2 ≤ n) (hok : ∀ m ∈ ms, m.Ok n) {c : Const} (hc : c.Typed ms) :
    ∃ mem, c.bytesInt p swap n ms = some mem ∧ mem.length = n ∧
      ∀ j, j < 8 * n → bitAt mem (pos (p ^^ swap) n j) = anyAt (fun m j => j - m.start) j (entries ms (c.expand ms)) := by
  cases c with
  | zero =>
    refine ⟨_, rfl, by simp, fun j _ => ?_⟩
    rw [bitAt_zero]
    exact (anyAt_zeros ms).symm
  | struct is =>
    obtain ⟨r, hr, hrb⟩ := constAll_some (n := n) (entries ms is) 0 (fun e he => hok _ (entries_typed hc he).1)
    obtain ⟨z, hz, hzl, hzb⟩ := stored (p := p) r hn
    have hr' : constAll (entries ms is) (0#(8 * n)) = some r := hr
    refine ⟨store p n z, by simp [Const.bytesInt, constInt, hr', hz], hzl, fun j hj => ?_⟩
    rw [hzb j hj, hrb j hj, show (0 : BitVec (8 * n)).getLsbD j = false by simp, Bool.false_or]
    rfl

theorem bytesArray_some {swap : Bool} {n : Nat} {ms : List Member} (hok : ∀ m ∈ ms, m.Ok n ∧ Swappable swap m) {c : Const} (hc : c.Typed ms) :
    ∃ mem, c.bytesArray swap n ms = some mem ∧ mem.length = n ∧
      ∀ j, bitAt mem j = anyAt (fun m j => rev swap m.width (j - m.start)) j (entries ms (c.expand ms)) := by
  cases c with
  | zero =>
    refine ⟨_, rfl, by simp, fun j => ?_⟩
    rw [bitAt_zero]
    exact (anyAt_zeros ms).symm
  | struct is =>
    obtain ⟨r, hr, hrl, hrb⟩ := constArrayAll_some (swap := swap) (entries ms is) (List.replicate n 0) (fun e he => by
      obtain ⟨h1, h2⟩ := entries_typed hc he
      obtain ⟨h3, h4⟩ := hok _ h1
      exact ⟨by simpa using h3, h4, h2⟩)
    refine ⟨r, hr, by simpa using hrl, fun j => ?_⟩
    rw [hrb, bitAt_zero, Bool.or_false]
    rfl

/-! ## Code -/

theorem op_bits (op : BitOp) {w : Nat} (a b : BitVec w) (k : Nat) : (op.bits a b).getLsbD k = op.bool (a.getLsbD k) (b.getLsbD k) := by
  cases op
  · exact BitVec.getLsbD_and
  · exact BitVec.getLsbD_or
  · exact BitVec.getLsbD_xor

theorem binary_some {p : Bool} {n : Nat} (op : BitOp) {l r : Mem} (hl : l.length = n) (hr : r.length = n) :
    ∃ mem, llvm_emit_bitstruct_binary_op p n op l r = some mem ∧ mem.length = n ∧ ∀ j, j < 8 * n → bitAt mem j = op.bool (bitAt l j) (bitAt r j) := by
  obtain ⟨x, hx, hxb⟩ := load_some (p := p) hl
  obtain ⟨y, hy, hyb⟩ := load_some (p := p) hr
  refine ⟨store p n (op.bits x y), by simp [llvm_emit_bitstruct_binary_op, hx, hy], store_length _ _ _, fun j hj => ?_⟩
  rw [bitAt_store _ _ _ hj, op_bits, hxb _ (pos_lt hj), hyb _ (pos_lt hj), pos_pos hj]

theorem not_some {p : Bool} {n : Nat} {l : Mem} (hl : l.length = n) :
    ∃ mem, emitNot p n l = some mem ∧ mem.length = n ∧ ∀ j, j < 8 * n → bitAt mem j = !bitAt l j := by
  obtain ⟨x, hx, hxb⟩ := load_some (p := p) hl
  refine ⟨store p n (~~~x), by simp [emitNot, hx], store_length _ _ _, fun j hj => ?_⟩
  rw [bitAt_store _ _ _ hj, BitVec.getLsbD_not, hxb _ (pos_lt hj), pos_pos hj]
  simp [pos_lt hj]

end C3.Bitstruct
