import Verif.Casts.FoldSpec
import Verif.Casts.LemmasEval

set_option autoImplicit false

namespace C3.Casts
open C3.Bigint

theorem ofInt_modEq (w : Nat) (x : Int) : x ≡ ((BitVec.ofInt w x).toNat : Int) [ZMOD 2 ^ w] := by
  rw [BitVec.toNat_ofInt, Int.toNat_of_nonneg (Int.emod_nonneg _ (by positivity))]
  push_cast
  exact (Int.mod_modEq x _).symm

theorem modEq_of_ofInt_eq {w : Nat} {x y : Int} (h : BitVec.ofInt w x = BitVec.ofInt w y) :
    x ≡ y [ZMOD 2 ^ w] := by
  have := ofInt_modEq w x
  rw [h] at this
  exact this.trans (ofInt_modEq w y).symm

theorem and_modEq (w : Nat) (x y : Int) :
    Int.land x y ≡ ((BitVec.ofInt w x &&& BitVec.ofInt w y).toNat : Int) [ZMOD 2 ^ w] := by
  have := land_congr (ofInt_modEq w x) (ofInt_modEq w y)
  rw [BitVec.toNat_and]
  exact this
theorem or_modEq (w : Nat) (x y : Int) :
    Int.lor x y ≡ ((BitVec.ofInt w x ||| BitVec.ofInt w y).toNat : Int) [ZMOD 2 ^ w] := by
  have := lor_congr (ofInt_modEq w x) (ofInt_modEq w y)
  rw [BitVec.toNat_or]
  exact this
theorem xor_modEq (w : Nat) (x y : Int) :
    Int.xor x y ≡ ((BitVec.ofInt w x ^^^ BitVec.ofInt w y).toNat : Int) [ZMOD 2 ^ w] := by
  have := xor_congr (ofInt_modEq w x) (ofInt_modEq w y)
  rw [BitVec.toNat_xor]
  exact this

/-- A folded constant agrees with the run-time value `v`. -/
def Agrees (r : Option Res) (v : Int) (t : TypeKind) : Prop :=
  ∃ c, r = some (.ok (.lit c)) ∧ c.WF ∧ c.val = v ∧ c.type = t

theorem agrees_of_wraps {t : TypeKind} {x : Int} {o : Option CInt}
    (h : ∃ r, o = some r ∧ r.type = t ∧ Wraps t x r.val) : Agrees (ofInt o) (reg t x) t := by
  obtain ⟨r, rfl, ht, hw⟩ := h
  refine ⟨r, rfl, ?_, (reg_of_wraps hw).symm, ht⟩
  unfold CInt.WF; rw [ht]; exact hw.1

theorem agrees_bits {t : TypeKind} {x : Int} {c : CInt} {b : BitVec t.bits} (hwf : c.WF) (ht : c.type = t)
    (hb : BitVec.ofInt t.bits c.val = b) (hx : x ≡ (b.toNat : Int) [ZMOD 2 ^ t.bits]) :
    Agrees (some (.ok (.lit c))) (reg t x) t := by
  refine ⟨c, rfl, hwf, ?_, ht⟩
  symm
  apply reg_of_wraps
  rw [wraps_iff_modEq]
  refine ⟨by rw [← ht]; exact hwf, ?_⟩
  have := ofInt_modEq t.bits c.val
  rw [hb] at this
  exact hx.trans this.symm

theorem foldBin_const {op : BinOp} {a b : CInt} {v : Int} (ht : a.type = b.type) (ha : a.WF) (hb : b.WF)
    (hm : op = .mod → 0 ≤ b.val) (h : emitBin a.type op a.val b.val = some v) :
    Agrees (foldBin op (.lit a) (.lit b)) v a.type := by
  have hbw := C05_bitwise a b ht ha hb
  cases op <;> simp only [emitBin] at h <;> simp only [foldBin]
  case add => cases h; exact agrees_of_wraps (C01_add a b ht)
  case sub => cases h; exact agrees_of_wraps (C01_sub a b ht)
  case mul => cases h; exact agrees_of_wraps (C01_mul a b ht)
  case or => cases h; exact agrees_bits hbw.2.1.1 hbw.2.1.2.1 hbw.2.1.2.2 (or_modEq _ _ _)
  case xor => cases h; exact agrees_bits hbw.2.2.1 hbw.2.2.2.1 hbw.2.2.2.2 (xor_modEq _ _ _)
  case and => cases h; exact agrees_bits hbw.1.1 hbw.1.2.1 hbw.1.2.2 (and_modEq _ _ _)
  case div =>
    split at h
    · cases h
    · next h0 =>
      split at h
      · next hr =>
        cases h
        have hr := reg_eq_iff.1 hr
        rcases C02_div_partial a b ht ha hb (by
          rintro ⟨h1, h2, h3, h4⟩
          rw [h3, h4, show ∀ x : Int, x.tdiv (-1) = -x by intro x; rw [Int.tdiv_neg, Int.tdiv_one]] at hr
          unfold TypeKind.InRange TypeKind.minVal TypeKind.maxVal at hr
          rw [if_pos h1, if_pos h1] at hr
          omega) with ⟨h1, _⟩ | ⟨_, r, hf, hty, hw⟩
        · exact absurd h1 h0
        · rw [hf]
          exact ⟨r, rfl, by unfold CInt.WF; rw [hty]; exact hw.1, hw.unique (wraps_self hr), hty⟩
      · cases h
  case mod =>
    split at h
    · cases h
    · next h0 =>
      split at h
      · next hr =>
        cases h
        rcases C03_rem_partial a b ht ha hb (hm rfl) with ⟨h1, _⟩ | ⟨_, r, hf, hty, hwf, heq, _, _⟩
        · exact absurd h1 h0
        · rw [hf]
          refine ⟨r, rfl, hwf, ?_, hty⟩
          have := Int.tmod_def a.val b.val
          rw [Int.mul_comm] at this
          omega
      · cases h

theorem shiftAmount_const {tl : TypeKind} {b : CInt} (hb : b.WF) {s : Nat}
    (h : shiftAmount tl b.type b.val = some s) (h0 : 0 ≤ b.val ∧ b.val < tl.bits) : b.val.toNat = s := by
  unfold shiftAmount at h
  simp only [bitsize_eq] at h
  split at h
  · cases h
    rw [BitVec.toNat_setWidth]
    have e1 : (BitVec.ofInt (type_kind_bitsize b.type) b.val).toNat = b.val.toNat := by
      rw [bitsize_eq, BitVec.toNat_ofInt, Int.emod_eq_of_lt h0.1]
      unfold CInt.WF TypeKind.InRange TypeKind.maxVal at hb
      push_cast
      split at hb
      · have : (2 : Int) ^ (b.type.bits - 1) ≤ 2 ^ b.type.bits := pow_le_pow_right₀ (by decide) (by omega)
        omega
      · omega
    rw [e1, bitsize_eq, Nat.mod_eq_of_lt]
    have : tl.bits < 2 ^ tl.bits := Nat.lt_two_pow_self
    omega
  · cases h

theorem andThen_ok {r : Option Res} {f : Expr → Option Res} {e' : Expr}
    (h : Res.andThen r f = some (.ok e')) : ∃ x, r = some (.ok x) ∧ f x = some (.ok e') := by
  unfold Res.andThen at h
  split at h
  · cases h
  · cases h
  · next x => exact ⟨x, rfl, h⟩

theorem ofInt_ok {o : Option CInt} {e' : Expr} (h : ofInt o = some (.ok e')) :
    ∃ c, o = some c ∧ e' = .lit c := by
  cases o with
  | none => cases h
  | some c => cases h; exact ⟨c, rfl, rfl⟩

theorem ofFold_ok {o : Option Fold} {e' : Expr} (h : ofFold o = some (.ok e')) :
    ∃ c, o = some (.const c) ∧ e' = .lit c := by
  unfold ofFold at h
  split at h
  · cases h
  · cases h
  · next c => cases h; exact ⟨c, rfl, rfl⟩

theorem div_type {a b c : CInt} (h : sema_fold_div a b = some (.const c)) : c.type = a.type := by
  unfold sema_fold_div int_div at h
  split at h
  · cases h
  · simp only [Option.pure_def, Option.bind_eq_bind] at h
    split at h
    · cases hx : i128_sdiv a.i b.i with
      | none => simp [hx] at h
      | some x => simp [hx] at h; rw [← h]
    · cases hx : i128_udiv a.i b.i with
      | none => simp [hx] at h
      | some x => simp [hx] at h; rw [← h]

theorem mod_type {a b c : CInt} (h : sema_fold_mod a b = some (.const c)) : c.type = a.type := by
  unfold sema_fold_mod int_rem at h
  split at h
  · cases h
  · simp only [Option.pure_def, Option.bind_eq_bind] at h
    split at h
    · cases hx : i128_srem a.i b.i with
      | none => simp [hx] at h
      | some x => simp [hx] at h; rw [← h]
    · cases hx : i128_urem a.i b.i with
      | none => simp [hx] at h
      | some x => simp [hx] at h; rw [← h]

theorem shl64_type {a c : CInt} {n : BitVec 64} (h : int_shl64 a n = some c) : c.type = a.type := by
  unfold int_shl64 at h
  simp only [Option.pure_def, Option.bind_eq_bind, Option.bind_eq_some_iff] at h
  obtain ⟨x, _, y, _, h⟩ := h
  cases h; rfl

theorem shr64_type {a c : CInt} {n : BitVec 64} (h : int_shr64 a n = some c) : c.type = a.type := by
  unfold int_shr64 at h
  split at h
  · simp only [Option.pure_def, Option.bind_eq_bind, Option.bind_eq_some_iff] at h
    obtain ⟨x, _, y, _, h⟩ := h
    cases h; rfl
  · simp only [Option.pure_def, Option.bind_eq_bind, Option.bind_eq_some_iff] at h
    obtain ⟨x, _, y, _, h⟩ := h
    cases h; rfl

theorem shift_type {s : Bool} {a b c : CInt} (h : sema_fold_shift s a b = some (.const c)) :
    c.type = a.type := by
  unfold sema_fold_shift at h
  split at h
  · cases h
  split at h
  · cases h
  split at h
  · simp only [Option.pure_def, Option.bind_eq_bind, Option.bind_eq_some_iff] at h
    obtain ⟨x, h1, h⟩ := h
    cases h; exact shr64_type h1
  · simp only [Option.pure_def, Option.bind_eq_bind, Option.bind_eq_some_iff] at h
    obtain ⟨x, h1, h⟩ := h
    cases h; exact shl64_type h1

theorem conv_type {c r : CInt} {t : TypeKind} (h : int_conv c t = some r) : r.type = t := by
  unfold int_conv at h
  simp only [Option.pure_def, Option.bind_eq_bind] at h
  split at h
  · cases h; rfl
  split at h
  · split at h
    · cases h; rfl
    · simp only [Option.bind_eq_some_iff] at h
      obtain ⟨x, _, y, _, h⟩ := h
      cases h; rfl
  · simp only [Option.bind_eq_some_iff] at h
    obtain ⟨x, _, y, _, h⟩ := h
    split at h
    · simp only [Option.bind_eq_some_iff] at h
      obtain ⟨x, _, w, _, h⟩ := h
      cases h; rfl
    · cases h; rfl

/-- What folding a binary operator gives: a literal, from two literals, or the operator again. -/
theorem foldBin_cases {op : BinOp} {l r e' : Expr} (h : foldBin op l r = some (.ok e')) :
    (∃ a b c, l = .lit a ∧ r = .lit b ∧ e' = .lit c ∧ (a.type = b.type → c.type = a.type)) ∨
    (e' = .bin op l r ∧ ¬ (∃ a b, l = .lit a ∧ r = .lit b)) := by
  unfold foldBin at h
  split at h
  · next a b =>
    left
    cases op <;> simp only at h
    case add =>
      obtain ⟨c, hc, rfl⟩ := ofInt_ok h
      refine ⟨a, b, c, rfl, rfl, rfl, fun ht => ?_⟩
      obtain ⟨r, h1, h2, _⟩ := C01_add a b ht
      rw [hc] at h1; cases h1; exact h2
    case sub =>
      obtain ⟨c, hc, rfl⟩ := ofInt_ok h
      refine ⟨a, b, c, rfl, rfl, rfl, fun ht => ?_⟩
      obtain ⟨r, h1, h2, _⟩ := C01_sub a b ht
      rw [hc] at h1; cases h1; exact h2
    case mul =>
      obtain ⟨c, hc, rfl⟩ := ofInt_ok h
      refine ⟨a, b, c, rfl, rfl, rfl, fun ht => ?_⟩
      obtain ⟨r, h1, h2, _⟩ := C01_mul a b ht
      rw [hc] at h1; cases h1; exact h2
    case div =>
      obtain ⟨c, hc, rfl⟩ := ofFold_ok h
      exact ⟨a, b, c, rfl, rfl, rfl, fun _ => div_type hc⟩
    case mod =>
      obtain ⟨c, hc, rfl⟩ := ofFold_ok h
      exact ⟨a, b, c, rfl, rfl, rfl, fun _ => mod_type hc⟩
    all_goals cases h; exact ⟨a, b, _, rfl, rfl, rfl, fun _ => rfl⟩
  · next hn =>
    right
    split at h
    · cases h
    · cases h
      refine ⟨rfl, ?_⟩
      rintro ⟨a, b, rfl, hb⟩
      cases hb
      exact hn _ rfl
  · next hn hn' =>
    right
    cases h
    refine ⟨rfl, ?_⟩
    rintro ⟨a, b, rfl, rfl⟩
    exact hn _ rfl

theorem foldShift_cases {s : Bool} {l r e' : Expr} (h : foldShift s l r = some (.ok e')) :
    (∃ a b c, l = .lit a ∧ r = .lit b ∧ e' = .lit c ∧ sema_fold_shift s a b = some (.const c)) ∨
    (e' = (if s then .shr l r else .shl l r) ∧ ¬ (∃ a b, l = .lit a ∧ r = .lit b)) := by
  unfold foldShift at h
  split at h
  · next a b =>
    left
    obtain ⟨c, hc, rfl⟩ := ofFold_ok h
    exact ⟨a, b, c, rfl, rfl, rfl, hc⟩
  · next hn =>
    right
    split at h
    · cases h
    split at h
    · cases h
    · cases h
      refine ⟨rfl, ?_⟩
      rintro ⟨a, b, rfl, hb⟩
      cases hb
      exact hn _ rfl
  · next hn hn' =>
    right
    cases h
    refine ⟨rfl, ?_⟩
    rintro ⟨a, b, rfl, rfl⟩
    exact hn _ rfl

/-- A unary operator on an analysed operand. -/
def foldNeg (e : Expr) : Option Res :=
  match e with
  | .lit c => ofInt (int_neg c)
  | e => some (.ok (.neg e))
def foldNot (e : Expr) : Option Res :=
  match e with
  | .lit c => ofInt (int_not c)
  | e => some (.ok (.bitneg e))
def foldExt (t : TypeKind) (e : Expr) : Option Res :=
  match cast_int_to_int e t with
  | none => none
  | some e => some (.ok e)

theorem fold_neg (e : Expr) : fold (.neg e) = Res.andThen (fold e) foldNeg := rfl
theorem fold_bitneg (e : Expr) : fold (.bitneg e) = Res.andThen (fold e) foldNot := rfl
theorem fold_ext (t : TypeKind) (e : Expr) : fold (.ext t e) = Res.andThen (fold e) (foldExt t) := rfl

theorem foldNeg_cases {e e' : Expr} (h : foldNeg e = some (.ok e')) :
    (∃ c d, e = .lit c ∧ e' = .lit d ∧ d.type = c.type ∧ Wraps c.type (-c.val) d.val) ∨
    (e' = .neg e ∧ ¬ ∃ c, e = .lit c) := by
  unfold foldNeg at h
  split at h
  · next c =>
    left
    obtain ⟨d, hd, rfl⟩ := ofInt_ok h
    obtain ⟨r, h1, h2, h3⟩ := C01_neg c
    rw [hd] at h1; cases h1
    exact ⟨c, d, rfl, rfl, h2, h3⟩
  · next hn => right; cases h; exact ⟨rfl, fun ⟨c, hc⟩ => hn c hc⟩

theorem foldNot_cases {e e' : Expr} (h : foldNot e = some (.ok e')) :
    (∃ c d, e = .lit c ∧ e' = .lit d ∧ d.type = c.type ∧ Wraps c.type (-c.val - 1) d.val) ∨
    (e' = .bitneg e ∧ ¬ ∃ c, e = .lit c) := by
  unfold foldNot at h
  split at h
  · next c =>
    left
    obtain ⟨d, hd, rfl⟩ := ofInt_ok h
    obtain ⟨r, h1, h2, h3⟩ := C01_not c
    rw [hd] at h1; cases h1
    exact ⟨c, d, rfl, rfl, h2, h3⟩
  · next hn => right; cases h; exact ⟨rfl, fun ⟨c, hc⟩ => hn c hc⟩

theorem foldExt_cases {t : TypeKind} {e e' : Expr} (h : foldExt t e = some (.ok e')) :
    (∃ c d, e = .lit c ∧ e' = .lit d ∧ d.type = t ∧ (c.WF → Wraps t c.val d.val)) ∨
    (e' = .ext t e ∧ ¬ ∃ c, e = .lit c) := by
  unfold foldExt cast_int_to_int at h
  split at h
  · cases h
  · next x hx =>
    cases h
    split at hx
    · next c =>
      left
      rw [Option.map_eq_some_iff] at hx
      obtain ⟨d, hd, rfl⟩ := hx
      refine ⟨c, d, rfl, rfl, conv_type hd, fun hw => ?_⟩
      obtain ⟨r, h1, h2, h3⟩ := C08_conv c t hw
      rw [hd] at h1; cases h1; exact h3
    · next hn => right; cases hx; exact ⟨rfl, fun ⟨c, hc⟩ => hn c hc⟩

theorem fold_ty : ∀ e : Expr, WT e → ∀ e', fold e = some (.ok e') → e'.ty = e.ty := by
  intro e
  induction e with
  | leaf t i => intro _ e' h; cases h; rfl
  | lit c => intro _ e' h; cases h; rfl
  | len i => intro _ e' h; cases h; rfl
  | bin op l r ihl ihr =>
    intro hw e' h
    obtain ⟨l', hl, h⟩ := andThen_ok h
    obtain ⟨r', hr, h⟩ := andThen_ok h
    have h1 := ihl hw.1 l' hl
    have h2 := ihr hw.2.1 r' hr
    rcases foldBin_cases h with ⟨a, b, c, rfl, rfl, rfl, ht⟩ | ⟨rfl, _⟩
    · have := ht (by have := hw.2.2; rw [← h1, ← h2] at this; exact this)
      show c.type = l.ty
      rw [this, ← h1]; rfl
    · exact h1
  | orElse i l r ihl ihr =>
    intro hw e' h
    obtain ⟨l', hl, h⟩ := andThen_ok h
    obtain ⟨r', hr, h⟩ := andThen_ok h
    cases h
    exact ihl hw.1 l' hl
  | shl l r ihl ihr =>
    intro hw e' h
    obtain ⟨l', hl, h⟩ := andThen_ok h
    obtain ⟨r', hr, h⟩ := andThen_ok h
    have h1 := ihl hw.1 l' hl
    rcases foldShift_cases h with ⟨a, b, c, rfl, rfl, rfl, hc⟩ | ⟨rfl, _⟩
    · show c.type = l.ty
      rw [shift_type hc, ← h1]; rfl
    · exact h1
  | shr l r ihl ihr =>
    intro hw e' h
    obtain ⟨l', hl, h⟩ := andThen_ok h
    obtain ⟨r', hr, h⟩ := andThen_ok h
    have h1 := ihl hw.1 l' hl
    rcases foldShift_cases h with ⟨a, b, c, rfl, rfl, rfl, hc⟩ | ⟨rfl, _⟩
    · show c.type = l.ty
      rw [shift_type hc, ← h1]; rfl
    · exact h1
  | assign t i r ih =>
    intro hw e' h
    obtain ⟨r', hr, h⟩ := andThen_ok h
    cases h; rfl
  | neg e ih =>
    intro hw e' h
    rw [fold_neg] at h
    obtain ⟨x, hx, h⟩ := andThen_ok h
    have h1 := ih hw x hx
    rcases foldNeg_cases h with ⟨c, d, rfl, rfl, ht, _⟩ | ⟨rfl, _⟩
    · show d.type = e.ty
      rw [ht, ← h1]; rfl
    · exact h1
  | bitneg e ih =>
    intro hw e' h
    rw [fold_bitneg] at h
    obtain ⟨x, hx, h⟩ := andThen_ok h
    have h1 := ih hw x hx
    rcases foldNot_cases h with ⟨c, d, rfl, rfl, ht, _⟩ | ⟨rfl, _⟩
    · show d.type = e.ty
      rw [ht, ← h1]; rfl
    · exact h1
  | ext t e ih =>
    intro hw e' h
    rw [fold_ext] at h
    obtain ⟨x, hx, h⟩ := andThen_ok h
    rcases foldExt_cases h with ⟨c, d, rfl, rfl, ht, _⟩ | ⟨rfl, _⟩
    · exact ht
    · rfl
  | tern i a b iha ihb =>
    intro hw e' h
    obtain ⟨a', ha, h⟩ := andThen_ok h
    obtain ⟨b', hb, h⟩ := andThen_ok h
    cases h
    exact iha hw.1 a' ha
  | plus e ih =>
    intro hw e' h
    obtain ⟨x, hx, h⟩ := andThen_ok h
    cases h; exact ih hw x hx
  | unwrap e ih =>
    intro hw e' h
    obtain ⟨x, hx, h⟩ := andThen_ok h
    cases h; exact ih hw x hx
  | rethrow e ih =>
    intro hw e' h
    obtain ⟨x, hx, h⟩ := andThen_ok h
    cases h; exact ih hw x hx
  | last e ih =>
    intro hw e' h
    obtain ⟨x, hx, h⟩ := andThen_ok h
    cases h; exact ih hw x hx

/-- Folding gives a literal exactly for constant expressions. -/
theorem fold_constant : ∀ e e' : Expr, fold e = some (.ok e') → (Constant e ↔ ∃ c, e' = .lit c) := by
  intro e
  induction e with
  | leaf t i => intro e' h; cases h; exact ⟨fun h => h.elim, fun ⟨c, h⟩ => by cases h⟩
  | lit c => intro e' h; cases h; exact ⟨fun _ => ⟨c, rfl⟩, fun _ => trivial⟩
  | len i => intro e' h; cases h; exact ⟨fun h => h.elim, fun ⟨c, h⟩ => by cases h⟩
  | bin op l r ihl ihr =>
    intro e' h
    obtain ⟨l', hl, h⟩ := andThen_ok h
    obtain ⟨r', hr, h⟩ := andThen_ok h
    show Constant l ∧ Constant r ↔ _
    rw [ihl l' hl, ihr r' hr]
    rcases foldBin_cases h with ⟨a, b, c, rfl, rfl, rfl, ht⟩ | ⟨rfl, hn⟩
    · simp
    · constructor
      · rintro ⟨⟨a, rfl⟩, b, rfl⟩; exact absurd ⟨a, b, rfl, rfl⟩ hn
      · rintro ⟨c, hc⟩; cases hc
  | shl l r ihl ihr =>
    intro e' h
    obtain ⟨l', hl, h⟩ := andThen_ok h
    obtain ⟨r', hr, h⟩ := andThen_ok h
    show Constant l ∧ Constant r ↔ _
    rw [ihl l' hl, ihr r' hr]
    rcases foldShift_cases h with ⟨a, b, c, rfl, rfl, rfl, ht⟩ | ⟨rfl, hn⟩
    · simp
    · constructor
      · rintro ⟨⟨a, rfl⟩, b, rfl⟩; exact absurd ⟨a, b, rfl, rfl⟩ hn
      · rintro ⟨c, hc⟩; cases hc
  | shr l r ihl ihr =>
    intro e' h
    obtain ⟨l', hl, h⟩ := andThen_ok h
    obtain ⟨r', hr, h⟩ := andThen_ok h
    show Constant l ∧ Constant r ↔ _
    rw [ihl l' hl, ihr r' hr]
    rcases foldShift_cases h with ⟨a, b, c, rfl, rfl, rfl, ht⟩ | ⟨rfl, hn⟩
    · simp
    · constructor
      · rintro ⟨⟨a, rfl⟩, b, rfl⟩; exact absurd ⟨a, b, rfl, rfl⟩ hn
      · rintro ⟨c, hc⟩; cases hc
  | neg e ih =>
    intro e' h
    rw [fold_neg] at h
    obtain ⟨x, hx, h⟩ := andThen_ok h
    show Constant e ↔ _
    rw [ih x hx]
    rcases foldNeg_cases h with ⟨c, d, rfl, rfl, ht, _⟩ | ⟨rfl, hn⟩
    · simp
    · exact ⟨fun hc => absurd hc hn, fun ⟨c, hc⟩ => by cases hc⟩
  | bitneg e ih =>
    intro e' h
    rw [fold_bitneg] at h
    obtain ⟨x, hx, h⟩ := andThen_ok h
    show Constant e ↔ _
    rw [ih x hx]
    rcases foldNot_cases h with ⟨c, d, rfl, rfl, ht, _⟩ | ⟨rfl, hn⟩
    · simp
    · exact ⟨fun hc => absurd hc hn, fun ⟨c, hc⟩ => by cases hc⟩
  | ext t e ih =>
    intro e' h
    rw [fold_ext] at h
    obtain ⟨x, hx, h⟩ := andThen_ok h
    show Constant e ↔ _
    rw [ih x hx]
    rcases foldExt_cases h with ⟨c, d, rfl, rfl, ht, _⟩ | ⟨rfl, hn⟩
    · simp
    · exact ⟨fun hc => absurd hc hn, fun ⟨c, hc⟩ => by cases hc⟩
  | orElse i l r ihl ihr =>
    intro e' h
    obtain ⟨l', hl, h⟩ := andThen_ok h
    obtain ⟨r', hr, h⟩ := andThen_ok h
    cases h; exact ⟨fun h => h.elim, fun ⟨c, h⟩ => by cases h⟩
  | tern i l r ihl ihr =>
    intro e' h
    obtain ⟨l', hl, h⟩ := andThen_ok h
    obtain ⟨r', hr, h⟩ := andThen_ok h
    cases h; exact ⟨fun h => h.elim, fun ⟨c, h⟩ => by cases h⟩
  | assign t i e ih =>
    intro e' h
    obtain ⟨x, hx, h⟩ := andThen_ok h
    cases h; exact ⟨fun h => h.elim, fun ⟨c, h⟩ => by cases h⟩
  | plus e ih =>
    intro e' h
    obtain ⟨x, hx, h⟩ := andThen_ok h
    cases h; exact ⟨fun h => h.elim, fun ⟨c, h⟩ => by cases h⟩
  | unwrap e ih =>
    intro e' h
    obtain ⟨x, hx, h⟩ := andThen_ok h
    cases h; exact ⟨fun h => h.elim, fun ⟨c, h⟩ => by cases h⟩
  | rethrow e ih =>
    intro e' h
    obtain ⟨x, hx, h⟩ := andThen_ok h
    cases h; exact ⟨fun h => h.elim, fun ⟨c, h⟩ => by cases h⟩
  | last e ih =>
    intro e' h
    obtain ⟨x, hx, h⟩ := andThen_ok h
    cases h; exact ⟨fun h => h.elim, fun ⟨c, h⟩ => by cases h⟩

/-- The analysed expression has the value of the original, and is a proper constant if a literal. -/
def Keeps (env : Env) (e' : Expr) (v : Int) : Prop :=
  eval env e' = some v ∧ ∀ c, e' = .lit c → c.WF ∧ c.val = v

theorem keeps_lit {env : Env} {c : CInt} {v : Int} (hw : c.WF) (hv : c.val = v) : Keeps env (.lit c) v :=
  ⟨by rw [eval_lit env c hw, hv], fun d hd => by cases hd; exact ⟨hw, hv⟩⟩

theorem keeps_wraps {env : Env} {c : CInt} {t : TypeKind} {x : Int} (ht : c.type = t)
    (hw : Wraps t x c.val) : Keeps env (.lit c) (reg t x) :=
  keeps_lit (by unfold CInt.WF; rw [ht]; exact hw.1) (reg_of_wraps hw).symm

theorem fold_keeps (env : Env) : ∀ e : Expr, WT e → NoNegRem env e → ∀ e' v,
    fold e = some (.ok e') → eval env e = some v → Keeps env e' v := by
  intro e
  induction e with
  | leaf t i => intro _ _ e' v h hv; cases h; exact ⟨hv, fun c hc => by cases hc⟩
  | lit c =>
    intro hw _ e' v h hv; cases h
    rw [eval_lit env c hw] at hv; cases hv
    exact keeps_lit hw rfl
  | len i => intro _ _ e' v h hv; cases h; exact ⟨hv, fun c hc => by cases hc⟩
  | bin op l r ihl ihr =>
    intro hw hn e' v h hv
    obtain ⟨l', hl, h⟩ := andThen_ok h
    obtain ⟨r', hr, h⟩ := andThen_ok h
    simp only [eval] at hv
    split at hv
    · next a b ha hb =>
      have h1 := ihl hw.1 hn.1 l' a hl ha
      have h2 := ihr hw.2.1 hn.2.1 r' b hr hb
      have t1 := fold_ty l hw.1 l' hl
      have t2 := fold_ty r hw.2.1 r' hr
      have hf := h
      rcases foldBin_cases h with ⟨ca, cb, c, rfl, rfl, rfl, _⟩ | ⟨rfl, _⟩
      · obtain ⟨wa, va⟩ := h1.2 ca rfl
        obtain ⟨wb, vb⟩ := h2.2 cb rfl
        have t1' : ca.type = l.ty := t1
        have t2' : cb.type = r.ty := t2
        obtain ⟨d, hd, wd, vd, td⟩ := foldBin_const (op := op) (v := v) (by rw [t1', t2', hw.2.2]) wa wb
          (fun hm => by
            rw [vb]
            exact hn.2.2 hm ((fold_constant l _ hl).2 ⟨ca, rfl⟩) ((fold_constant r _ hr).2 ⟨cb, rfl⟩) b hb)
          (by rw [t1', va, vb]; exact hv)
        rw [hf] at hd
        cases hd
        exact keeps_lit wd vd
      · refine ⟨?_, fun c hc => by cases hc⟩
        simp only [eval, h1.1, h2.1, t1]
        exact hv
    · cases hv
  | orElse i l r ihl ihr =>
    intro hw hn e' v h hv
    obtain ⟨l', hl, h⟩ := andThen_ok h
    obtain ⟨r', hr, h⟩ := andThen_ok h
    cases h
    refine ⟨?_, fun c hc => by cases hc⟩
    simp only [eval] at hv ⊢
    by_cases hc : env.fault i = true
    · rw [if_pos hc] at hv ⊢
      exact (ihr hw.2.1 hn.2 r' v hr hv).1
    · rw [if_neg hc] at hv ⊢
      exact (ihl hw.1 hn.1 l' v hl hv).1
  | tern i l r ihl ihr =>
    intro hw hn e' v h hv
    obtain ⟨l', hl, h⟩ := andThen_ok h
    obtain ⟨r', hr, h⟩ := andThen_ok h
    cases h
    refine ⟨?_, fun c hc => by cases hc⟩
    simp only [eval] at hv ⊢
    by_cases hc : env.cond i = true
    · rw [if_pos hc] at hv ⊢
      exact (ihl hw.1 hn.1 l' v hl hv).1
    · rw [if_neg hc] at hv ⊢
      exact (ihr hw.2.1 hn.2 r' v hr hv).1
  | shl l r ihl ihr =>
    intro hw hn e' v h hv
    obtain ⟨l', hl, h⟩ := andThen_ok h
    obtain ⟨r', hr, h⟩ := andThen_ok h
    simp only [eval] at hv
    split at hv
    · next a b ha hb =>
      have h1 := ihl hw.1 hn.1 l' a hl ha
      have h2 := ihr hw.2 hn.2 r' b hr hb
      have t1 := fold_ty l hw.1 l' hl
      have t2 := fold_ty r hw.2 r' hr
      rcases foldShift_cases h with ⟨ca, cb, c, rfl, rfl, rfl, hc⟩ | ⟨rfl, _⟩
      · obtain ⟨wa, va⟩ := h1.2 ca rfl
        obtain ⟨wb, vb⟩ := h2.2 cb rfl
        have t1' : ca.type = l.ty := t1
        have t2' : cb.type = r.ty := t2
        rw [Option.map_eq_some_iff] at hv
        obtain ⟨s, hs, rfl⟩ := hv
        rcases C04_shift false ca cb wa with ⟨_, he⟩ | ⟨hr, q, he, tq, wq, hq, _⟩
        · rw [hc] at he; cases he
        · rw [hc] at he; cases he
          rw [← t1', ← t2', ← vb] at hs
          have hq := hq rfl
          rw [shiftAmount_const wb hs hr, va] at hq
          rw [← t1']
          exact keeps_wraps tq hq
      · refine ⟨?_, fun c hc => by cases hc⟩
        simp only [Bool.false_eq_true, if_false, eval, h1.1, h2.1, t1, t2]
        exact hv
    · cases hv
  | shr l r ihl ihr =>
    intro hw hn e' v h hv
    obtain ⟨l', hl, h⟩ := andThen_ok h
    obtain ⟨r', hr, h⟩ := andThen_ok h
    simp only [eval] at hv
    split at hv
    · next a b ha hb =>
      have h1 := ihl hw.1 hn.1 l' a hl ha
      have h2 := ihr hw.2 hn.2 r' b hr hb
      have t1 := fold_ty l hw.1 l' hl
      have t2 := fold_ty r hw.2 r' hr
      rcases foldShift_cases h with ⟨ca, cb, c, rfl, rfl, rfl, hc⟩ | ⟨rfl, _⟩
      · obtain ⟨wa, va⟩ := h1.2 ca rfl
        obtain ⟨wb, vb⟩ := h2.2 cb rfl
        have t1' : ca.type = l.ty := t1
        have t2' : cb.type = r.ty := t2
        rw [Option.map_eq_some_iff] at hv
        obtain ⟨s, hs, rfl⟩ := hv
        rcases C04_shift true ca cb wa with ⟨_, he⟩ | ⟨hr, q, he, tq, wq, _, hq⟩
        · rw [hc] at he; cases he
        · rw [hc] at he; cases he
          rw [← t1', ← t2', ← vb] at hs
          have hq := hq rfl
          rw [shiftAmount_const wb hs hr, va] at hq
          exact keeps_lit wq hq
      · refine ⟨?_, fun c hc => by cases hc⟩
        simp only [if_true, eval, h1.1, h2.1, t1, t2]
        exact hv
    · cases hv
  | neg e ih =>
    intro hw hn e' v h hv
    rw [fold_neg] at h
    obtain ⟨x, hx, h⟩ := andThen_ok h
    simp only [eval, Option.map_eq_some_iff] at hv
    obtain ⟨a, ha, rfl⟩ := hv
    have h1 := ih hw hn x a hx ha
    have t1 := fold_ty e hw x hx
    rcases foldNeg_cases h with ⟨c, d, rfl, rfl, ht, hd⟩ | ⟨rfl, _⟩
    · obtain ⟨wa, va⟩ := h1.2 c rfl
      have t1' : c.type = e.ty := t1
      rw [← va, ← t1']
      exact keeps_wraps ht hd
    · exact ⟨by simp only [eval, h1.1, t1, Option.map_some], fun c hc => by cases hc⟩
  | bitneg e ih =>
    intro hw hn e' v h hv
    rw [fold_bitneg] at h
    obtain ⟨x, hx, h⟩ := andThen_ok h
    simp only [eval, Option.map_eq_some_iff] at hv
    obtain ⟨a, ha, rfl⟩ := hv
    have h1 := ih hw hn x a hx ha
    have t1 := fold_ty e hw x hx
    rcases foldNot_cases h with ⟨c, d, rfl, rfl, ht, hd⟩ | ⟨rfl, _⟩
    · obtain ⟨wa, va⟩ := h1.2 c rfl
      have t1' : c.type = e.ty := t1
      rw [← va, ← t1']
      exact keeps_wraps ht hd
    · exact ⟨by simp only [eval, h1.1, t1, Option.map_some], fun c hc => by cases hc⟩
  | ext t e ih =>
    intro hw hn e' v h hv
    rw [fold_ext] at h
    obtain ⟨x, hx, h⟩ := andThen_ok h
    simp only [eval, Option.map_eq_some_iff] at hv
    obtain ⟨a, ha, rfl⟩ := hv
    have h1 := ih hw hn x a hx ha
    rcases foldExt_cases h with ⟨c, d, rfl, rfl, ht, hd⟩ | ⟨rfl, _⟩
    · obtain ⟨wa, va⟩ := h1.2 c rfl
      rw [← va]
      exact keeps_wraps ht (hd wa)
    · exact ⟨by simp only [eval, h1.1, Option.map_some], fun c hc => by cases hc⟩
  | assign t i e ih =>
    intro hw hn e' v h hv
    obtain ⟨x, hx, h⟩ := andThen_ok h
    cases h
    exact ⟨(ih hw.1 hn x v hx hv).1, fun c hc => by cases hc⟩
  | plus e ih =>
    intro hw hn e' v h hv
    obtain ⟨x, hx, h⟩ := andThen_ok h
    cases h
    exact ⟨(ih hw hn x v hx hv).1, fun c hc => by cases hc⟩
  | unwrap e ih =>
    intro hw hn e' v h hv
    obtain ⟨x, hx, h⟩ := andThen_ok h
    cases h
    exact ⟨(ih hw hn x v hx hv).1, fun c hc => by cases hc⟩
  | rethrow e ih =>
    intro hw hn e' v h hv
    obtain ⟨x, hx, h⟩ := andThen_ok h
    cases h
    exact ⟨(ih hw hn x v hx hv).1, fun c hc => by cases hc⟩
  | last e ih =>
    intro hw hn e' v h hv
    obtain ⟨x, hx, h⟩ := andThen_ok h
    cases h
    exact ⟨(ih hw hn x v hx hv).1, fun c hc => by cases hc⟩

theorem ucomp_ge_iff (n : CInt) (t : TypeKind) :
    int_ucomp n (BitVec.ofNat 64 (type_kind_bitsize t)) .GE = true ↔ (t.bits : Int) ≤ n.val := by
  have hb : ((BitVec.ofNat 64 t.bits).toNat : Int) = t.bits := by cases t <;> rfl
  unfold int_ucomp
  rw [bitsize_eq, unsigned_compare_spec, matches_iff, hb]
  rfl

theorem foldShift_accepts {s : Bool} {l r : Expr} (hl : ∀ c, l = .lit c → c.WF)
    (hr : ∀ c, r = .lit c → 0 ≤ c.val ∧ c.val < l.ty.bits) : ∃ e', foldShift s l r = some (.ok e') := by
  unfold foldShift
  split
  · next a b =>
    rcases C04_shift s a b (hl a rfl) with ⟨hn, _⟩ | ⟨_, q, he, _⟩
    · exact absurd (hr b rfl) hn
    · rw [he]; exact ⟨_, rfl⟩
  · next b _ =>
    have := hr b rfl
    rw [if_neg (by rw [ucomp_ge_iff]; omega), if_neg (by rw [is_neg_iff]; omega)]
    exact ⟨_, rfl⟩
  · exact ⟨_, rfl⟩

/-- An expression all of which is evaluated, and whose value is defined, is accepted. -/
theorem fold_accepts (env : Env) : ∀ e : Expr, WT e → NoNegRem env e → Strict e → ShiftsFit env e →
    ∀ v, eval env e = some v → ∃ e', fold e = some (.ok e') := by
  intro e
  induction e with
  | leaf t i => intro _ _ _ _ v hv; exact ⟨_, rfl⟩
  | lit c => intro _ _ _ _ v hv; exact ⟨_, rfl⟩
  | len i => intro _ _ _ _ v hv; exact ⟨_, rfl⟩
  | bin op l r ihl ihr =>
    intro hw hn hs hf v hv
    simp only [eval] at hv
    split at hv
    · next a b ha hb =>
      obtain ⟨l', hl⟩ := ihl hw.1 hn.1 hs.1 hf.1 a ha
      obtain ⟨r', hr⟩ := ihr hw.2.1 hn.2.1 hs.2 hf.2 b hb
      have h1 := fold_keeps env l hw.1 hn.1 l' a hl ha
      have h2 := fold_keeps env r hw.2.1 hn.2.1 r' b hr hb
      have t1 := fold_ty l hw.1 l' hl
      have t2 := fold_ty r hw.2.1 r' hr
      show ∃ e', Res.andThen (fold l) _ = _
      rw [hl]
      show ∃ e', Res.andThen (fold r) _ = _
      rw [hr]
      show ∃ e', foldBin op l' r' = some (.ok e')
      unfold foldBin
      split
      · next ca cb =>
        obtain ⟨wa, va⟩ := h1.2 ca rfl
        obtain ⟨wb, vb⟩ := h2.2 cb rfl
        have t1' : ca.type = l.ty := t1
        have t2' : cb.type = r.ty := t2
        obtain ⟨d, hd, _⟩ := foldBin_const (op := op) (v := v) (by rw [t1', t2', hw.2.2]) wa wb
          (fun hm => by
            rw [vb]
            exact hn.2.2 hm ((fold_constant l _ hl).2 ⟨ca, rfl⟩) ((fold_constant r _ hr).2 ⟨cb, rfl⟩) b hb)
          (by rw [t1', va, vb]; exact hv)
        exact ⟨_, hd⟩
      · next cb _ =>
        obtain ⟨wb, vb⟩ := h2.2 cb rfl
        rw [if_neg]
        · exact ⟨_, rfl⟩
        · rintro ⟨ho, hz⟩
          rw [is_zero_iff, vb] at hz
          rcases ho with rfl | rfl <;> simp [emitBin, hz] at hv
      · exact ⟨_, rfl⟩
    · cases hv
  | orElse i l r ihl ihr => intro _ _ hs; exact hs.elim
  | tern i l r ihl ihr => intro _ _ hs; exact hs.elim
  | shl l r ihl ihr =>
    intro hw hn hs hf v hv
    simp only [eval] at hv
    split at hv
    · next a b ha hb =>
      obtain ⟨l', hl⟩ := ihl hw.1 hn.1 hs.1 hf.1 a ha
      obtain ⟨r', hr⟩ := ihr hw.2 hn.2 hs.2 hf.2.1 b hb
      have h1 := fold_keeps env l hw.1 hn.1 l' a hl ha
      have h2 := fold_keeps env r hw.2 hn.2 r' b hr hb
      have t1 := fold_ty l hw.1 l' hl
      show ∃ e', Res.andThen (fold l) _ = _
      rw [hl]
      show ∃ e', Res.andThen (fold r) _ = _
      rw [hr]
      exact foldShift_accepts (fun c hc => (h1.2 c hc).1) (fun c hc => by
        rw [(h2.2 c hc).2, t1]; exact hf.2.2 ((fold_constant r _ hr).2 ⟨c, hc⟩) b hb)
    · cases hv
  | shr l r ihl ihr =>
    intro hw hn hs hf v hv
    simp only [eval] at hv
    split at hv
    · next a b ha hb =>
      obtain ⟨l', hl⟩ := ihl hw.1 hn.1 hs.1 hf.1 a ha
      obtain ⟨r', hr⟩ := ihr hw.2 hn.2 hs.2 hf.2.1 b hb
      have h1 := fold_keeps env l hw.1 hn.1 l' a hl ha
      have h2 := fold_keeps env r hw.2 hn.2 r' b hr hb
      have t1 := fold_ty l hw.1 l' hl
      show ∃ e', Res.andThen (fold l) _ = _
      rw [hl]
      show ∃ e', Res.andThen (fold r) _ = _
      rw [hr]
      exact foldShift_accepts (fun c hc => (h1.2 c hc).1) (fun c hc => by
        rw [(h2.2 c hc).2, t1]; exact hf.2.2 ((fold_constant r _ hr).2 ⟨c, hc⟩) b hb)
    · cases hv
  | neg e ih =>
    intro hw hn hs hf v hv
    simp only [eval, Option.map_eq_some_iff] at hv
    obtain ⟨a, ha, rfl⟩ := hv
    obtain ⟨x, hx⟩ := ih hw hn hs hf a ha
    rw [fold_neg, hx]
    show ∃ e', foldNeg x = some (.ok e')
    unfold foldNeg
    split
    · next c => obtain ⟨r, h1, _⟩ := C01_neg c; rw [h1]; exact ⟨_, rfl⟩
    · exact ⟨_, rfl⟩
  | bitneg e ih =>
    intro hw hn hs hf v hv
    simp only [eval, Option.map_eq_some_iff] at hv
    obtain ⟨a, ha, rfl⟩ := hv
    obtain ⟨x, hx⟩ := ih hw hn hs hf a ha
    rw [fold_bitneg, hx]
    show ∃ e', foldNot x = some (.ok e')
    unfold foldNot
    split
    · next c => obtain ⟨r, h1, _⟩ := C01_not c; rw [h1]; exact ⟨_, rfl⟩
    · exact ⟨_, rfl⟩
  | ext t e ih =>
    intro hw hn hs hf v hv
    simp only [eval, Option.map_eq_some_iff] at hv
    obtain ⟨a, ha, rfl⟩ := hv
    obtain ⟨x, hx⟩ := ih hw hn hs hf a ha
    have h1 := fold_keeps env e hw hn x a hx ha
    rw [fold_ext, hx]
    show ∃ e', foldExt t x = some (.ok e')
    unfold foldExt cast_int_to_int
    split
    · next he =>
      split at he
      · next c =>
        obtain ⟨r, h2, _⟩ := C08_conv c t (h1.2 c rfl).1
        rw [h2] at he; cases he
      · cases he
    · exact ⟨_, rfl⟩
  | assign t i e ih =>
    intro hw hn hs hf v hv
    obtain ⟨x, hx⟩ := ih hw.1 hn hs hf v hv
    exact ⟨.assign t i x, by simp only [fold, hx, Res.andThen]⟩
  | plus e ih =>
    intro hw hn hs hf v hv
    obtain ⟨x, hx⟩ := ih hw hn hs hf v hv
    exact ⟨.plus x, by simp only [fold, hx, Res.andThen]⟩
  | unwrap e ih =>
    intro hw hn hs hf v hv
    obtain ⟨x, hx⟩ := ih hw hn hs hf v hv
    exact ⟨.unwrap x, by simp only [fold, hx, Res.andThen]⟩
  | rethrow e ih =>
    intro hw hn hs hf v hv
    obtain ⟨x, hx⟩ := ih hw hn hs hf v hv
    exact ⟨.rethrow x, by simp only [fold, hx, Res.andThen]⟩
  | last e ih =>
    intro hw hn hs hf v hv
    obtain ⟨x, hx⟩ := ih hw hn hs hf v hv
    exact ⟨.last x, by simp only [fold, hx, Res.andThen]⟩

end C3.Casts
