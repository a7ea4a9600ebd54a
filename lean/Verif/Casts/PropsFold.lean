import Verif.Casts.LemmasFold

/-!
# C48: constant folding agrees with evaluation at run time

`fold e` is the outcome of analysing `e` with all integer operations on constants carried out by the
compiler (`FoldModel.lean`), `eval` what the generated code computes (`Model.lean`; `none` is undefined
or a panic).
-/

set_option autoImplicit false

namespace C3.Casts
open C3.Bigint

/-- C48 (partial): an accepted expression computes after folding what it computes without folding, in
every execution where that is defined, and keeps its type.  Missing are constant remainders by negative
constants, where it does not hold (`C48_neg_rem`). -/
theorem C48_fold_partial (env : Env) (e e' : Expr) (v : Int) (hw : WT e) (hn : NoNegRem env e)
    (h : fold e = some (.ok e')) (hv : eval env e = some v) :
    e'.ty = e.ty ∧ eval env e' = some v :=
  ⟨fold_ty e hw e' h, (fold_keeps env e hw hn e' v h hv).1⟩

/-- `(x + 200 * 300) ^ (-7 >> 1)`, all in 16 bits, and its folded form. -/
def sample (folded : Bool) : Expr :=
  if folded then
    .bin .xor (.bin .add (.leaf .I16 0) (.lit (mk .I16 (-5536)))) (.lit (mk .I16 (-4)))
  else
    .bin .xor (.bin .add (.leaf .I16 0) (.bin .mul (.lit (mk .I16 200)) (.lit (mk .I16 300))))
      (.shr (.lit (mk .I16 (-7))) (.lit (mk .I32 1)))

/-- An execution in which every leaf holds `x`. -/
def allEnv (x : Int) : Env := ⟨fun _ _ => x, fun _ => 0, fun _ => true, fun _ => false⟩

example : WT (sample false) ∧ NoNegRem (allEnv 5) (sample false) ∧
    fold (sample false) = some (.ok (sample true)) ∧ eval (allEnv 5) (sample false) = some 5529 ∧
    eval (allEnv 5) (sample true) = some 5529 :=
  ⟨⟨⟨trivial, ⟨(by decide +kernel : (mk .I16 200).WF), (by decide +kernel : (mk .I16 300).WF), rfl⟩, rfl⟩,
      ⟨(by decide +kernel : (mk .I16 (-7)).WF), (by decide +kernel : (mk .I32 1).WF)⟩, rfl⟩,
    ⟨⟨trivial, ⟨trivial, trivial, fun h => by cases h⟩, fun h => by cases h⟩, ⟨trivial, trivial⟩,
      fun h => by cases h⟩,
    by decide +kernel, by decide +kernel, by decide +kernel⟩

/-- C48: an accepted expression made of literals only becomes one literal, whose value fits its type
and is the value of the expression at run time; no other expression becomes a literal. -/
theorem C48_constant_partial (env : Env) (e e' : Expr) (hw : WT e) (h : fold e = some (.ok e')) :
    (Constant e ↔ ∃ c, e' = .lit c) ∧
    (NoNegRem env e → ∀ c v, e' = .lit c → eval env e = some v →
      c.type = e.ty ∧ c.type.InRange c.val ∧ c.val = v) := by
  refine ⟨fold_constant e e' h, ?_⟩
  rintro hn c v rfl hv
  obtain ⟨w, hc⟩ := (fold_keeps env e hw hn _ v h hv).2 c rfl
  exact ⟨fold_ty e hw _ h, w, hc⟩

/-- `~(100 << 1)` in eight bits. -/
def constSample : Expr := .bitneg (.shl (.lit (mk .U8 100)) (.lit (mk .I32 1)))

example : WT constSample ∧ Constant constSample ∧ fold constSample = some (.ok (.lit (mk .U8 55))) ∧
    NoNegRem (allEnv 0) constSample ∧ eval (allEnv 0) constSample = some 55 :=
  ⟨⟨(by decide +kernel : (mk .U8 100).WF), (by decide +kernel : (mk .I32 1).WF)⟩, ⟨trivial, trivial⟩,
    by decide +kernel, ⟨trivial, trivial⟩, by decide +kernel⟩

/-- C48: the compiler neither refuses an expression while folding, nor runs into undefined behaviour
itself, if all of the expression is evaluated, its value is defined in some execution, and constant
shift amounts are within the width shifted. -/
theorem C48_accepts_partial (env : Env) (e : Expr) (v : Int) (hw : WT e) (hn : NoNegRem env e)
    (hs : Strict e) (hf : ShiftsFit env e) (hv : eval env e = some v) : ∃ e', fold e = some (.ok e') :=
  fold_accepts env e hw hn hs hf v hv

example : Strict (sample false) ∧ ShiftsFit (allEnv 5) (sample false) ∧
    (eval (allEnv 5) (sample false)).isSome :=
  ⟨⟨⟨trivial, trivial, trivial⟩, trivial, trivial⟩,
    ⟨⟨trivial, trivial, trivial⟩, trivial, trivial, fun _ b hb => by
      have : b = 1 := by
        have h : eval (allEnv 5) (.lit (mk .I32 1)) = some 1 := by decide +kernel
        exact (Option.some.inj (h.symm.trans hb)).symm
      subst this
      exact (by decide : (0 : Int) ≤ 1 ∧ (1 : Int) < TypeKind.bits .I16)⟩,
    by decide +kernel⟩

/-- C48: a constant zero divisor is refused whatever is divided. -/
theorem C48_zero_divisor (op : BinOp) (hop : op = .div ∨ op = .mod) (l l' r : Expr) (c : CInt)
    (hl : fold l = some (.ok l')) (hr : fold r = some (.ok (.lit c))) (hc : c.val = 0) :
    fold (.bin op l r) = some .error := by
  show Res.andThen (fold l) _ = _
  rw [hl]
  show Res.andThen (fold r) _ = _
  rw [hr]
  show foldBin op l' (.lit c) = _
  have hz := (is_zero_iff c).2 hc
  unfold foldBin
  split
  · next h =>
    cases h
    rcases hop with rfl | rfl
    · simp [sema_fold_div, hz, ofFold]
    · simp [sema_fold_mod, hz, ofFold]
  · next h =>
    cases h
    rw [if_pos ⟨hop, hz⟩]
  · next h _ => exact absurd rfl (h c)

example : fold (.bin .mod (.leaf .I32 0) (.bin .sub (.lit (mk .I32 3)) (.lit (mk .I32 3)))) = some .error := by
  decide +kernel

/-- C48 (negation): for every negative constant divisor of a signed type that does not divide the
dividend, the constant remainder has the wrong sign: with variables holding the same values the program
computes the opposite. -/
theorem C48_neg_rem (a b : CInt) (h : a.type = b.type) (ha : a.WF) (hb : b.WF) (hneg : b.val < 0)
    (hdvd : ¬ b.val ∣ a.val) :
    ∃ c v, fold (.bin .mod (.lit a) (.lit b)) = some (.ok (.lit c)) ∧
      (∀ env, eval env (.bin .mod (.lit a) (.lit b)) = some v) ∧
      (∀ env : Env, env.val a.type 0 = a.val → env.val a.type 1 = b.val →
        eval env (.bin .mod (.leaf a.type 0) (.leaf a.type 1)) = some v) ∧
      c.val = -v ∧ c.val ≠ v := by
  obtain ⟨c, hc, h1, h2⟩ := C03_neg_divisor a b h hneg hdvd
  have h0 : b.val ≠ 0 := by omega
  have hdiv : a.type.InRange (a.val.tdiv b.val) := by
    have hb1 : b.val ≠ -1 := by
      intro he
      apply hdvd
      rw [he]
      exact ⟨-a.val, by omega⟩
    have h2 : (a.val.tdiv b.val).natAbs = a.val.natAbs / b.val.natAbs := Int.natAbs_tdiv a.val b.val
    have h3 : a.val.natAbs / b.val.natAbs ≤ a.val.natAbs / 2 :=
      Nat.div_le_div_left (by omega) (by omega)
    unfold CInt.WF at ha
    have hsg : a.type.signed = true := by
      rw [h]
      cases hs : b.type.signed
      · rw [val_unsigned _ hs] at hneg; omega
      · rfl
    unfold TypeKind.InRange TypeKind.minVal TypeKind.maxVal at *
    rw [if_pos hsg, if_pos hsg] at *
    have hp : (1 : Int) < 2 ^ (a.type.bits - 1) := by cases a.type <;> decide
    generalize (2 : Int) ^ (a.type.bits - 1) = p at *
    omega
  have hem : emitBin a.type .mod a.val b.val = some (a.val.tmod b.val) := by
    simp only [emitBin]
    rw [if_neg h0, if_pos (reg_self hdiv)]
  refine ⟨c, a.val.tmod b.val, ?_, ?_, ?_, h1, h2⟩
  · show foldBin .mod (.lit a) (.lit b) = _
    simp only [foldBin, hc, ofFold]
  · intro env
    simp only [eval, Expr.ty]
    have e1 := eval_lit env a ha
    have e2 := eval_lit env b hb
    simp only [eval, Option.some.injEq] at e1 e2
    rw [e1, e2]
    exact hem
  · intro env e1 e2
    simp only [eval, Expr.ty, e1, e2]
    exact hem

example : (mk .I32 7).WF ∧ (mk .I32 (-3)).WF ∧
    fold (.bin .mod (.lit (mk .I32 7)) (.lit (mk .I32 (-3)))) = some (.ok (.lit (mk .I32 (-1)))) ∧
    eval (allEnv 0) (.bin .mod (.lit (mk .I32 7)) (.lit (mk .I32 (-3)))) = some 1 := by decide +kernel

theorem dvd_emod {k x m : Int} (h : k ∣ x) (h2 : k ∣ m) : k ∣ x % m := by
  rw [Int.emod_def]
  exact Int.dvd_sub h (Dvd.dvd.mul_right h2 _)

/-- C48 (negation): at run time the amount of a shift is cut to the width of the left side before it is
checked, so shifting by a multiple of `2 ^ width` is not caught and shifts by zero; the same amount
written as a constant is refused. -/
theorem C48_shift_cut (tl : TypeKind) (c : CInt) (env : Env) (henv : env.OK)
    (hd : (2 : Int) ^ tl.bits ∣ c.val) (h0 : c.val ≠ 0) (hv : env.val c.type 1 = c.val) :
    eval env (.shl (.leaf tl 0) (.leaf c.type 1)) = some (env.val tl 0) ∧
    eval env (.shr (.leaf tl 0) (.leaf c.type 1)) = some (env.val tl 0) ∧
    fold (.shl (.leaf tl 0) (.lit c)) = some .error ∧
    fold (.shr (.leaf tl 0) (.lit c)) = some .error := by
  have hlt : tl.bits < 2 ^ tl.bits := Nat.lt_two_pow_self
  have hpos : 0 < tl.bits := by cases tl <;> decide
  have hr := henv.1 c.type 1
  rw [hv] at hr
  have hs : shiftAmount tl c.type c.val = some 0 := by
    unfold shiftAmount
    rw [bitsize_eq, bitsize_eq]
    have : ((BitVec.ofInt c.type.bits c.val).setWidth tl.bits).toNat = 0 := by
      rw [BitVec.toNat_setWidth, BitVec.toNat_ofInt]
      have hle : tl.bits ≤ c.type.bits := by
        apply Decidable.byContradiction
        intro hgt
        have h1 : (2 : Int) ^ c.type.bits ≤ 2 ^ tl.bits := pow_le_pow_right₀ (by decide) (by omega)
        have habs : (c.val.natAbs : Int) < 2 ^ c.type.bits := by
          unfold TypeKind.InRange TypeKind.minVal TypeKind.maxVal at hr
          have h3 : (2 : Int) ^ (c.type.bits - 1) < 2 ^ c.type.bits := by cases c.type <;> decide
          split at hr <;> omega
        have := Int.le_of_dvd (by omega) (Int.dvd_natAbs.2 hd)
        omega
      have hd2 : (2 : Int) ^ tl.bits ∣ c.val % 2 ^ c.type.bits :=
        (dvd_emod hd (pow_dvd_pow 2 hle))
      have e : ((c.val % ((2 ^ c.type.bits : Nat) : Int)).toNat : Int) = c.val % 2 ^ c.type.bits := by
        rw [Int.toNat_of_nonneg (Int.emod_nonneg _ (by positivity))]
        push_cast; rfl
      apply Nat.mod_eq_zero_of_dvd
      rw [← Int.natCast_dvd_natCast, e]
      push_cast
      exact hd2
    simp only [this, if_pos hpos]
  have hbad : (tl.bits : Int) ≤ c.val ∨ c.val < 0 := by
    by_cases h : c.val < 0
    · exact .inr h
    · left
      have := Int.le_of_dvd (by omega) hd
      have h2 : (tl.bits : Int) < 2 ^ tl.bits := by exact_mod_cast hlt
      omega
  have hf : ∀ s, foldShift s (.leaf tl 0) (.lit c) = some .error := by
    intro s
    unfold foldShift
    rcases hbad with h | h
    · exact if_pos ((ucomp_ge_iff c tl).2 h)
    · simp only
      split
      · rfl
      · rw [if_pos ((is_neg_iff c).2 h)]
  refine ⟨?_, ?_, hf false, hf true⟩
  · simp only [eval, Expr.ty, hv, hs, Option.map_some, pow_zero, mul_one]
    rw [reg_self (henv.1 tl 0)]
  · simp only [eval, Expr.ty, hv, hs, Option.map_some, pow_zero, Int.ediv_one]

example : ((2 : Int) ^ TypeKind.bits .I32 ∣ (mk .I64 (2 ^ 32)).val) ∧ (mk .I64 (2 ^ 32)).val ≠ 0 ∧
    (mk .I64 (2 ^ 32)).type = .I64 := by decide +kernel

/-- C48 (negation of acceptance without strictness): a branch that is never taken is folded too, and
its errors are reported. -/
theorem C48_dead_branch (i : Nat) (a : Expr) (t : TypeKind) (env : Env) (h : env.cond i = true)
    (a' : Expr) (ha : fold a = some (.ok a')) :
    fold (.tern i a (.bin .div (.leaf t 0) (.lit ⟨⟨0, 0⟩, t⟩))) = some .error ∧
    eval env (.tern i a (.bin .div (.leaf t 0) (.lit ⟨⟨0, 0⟩, t⟩))) = eval env a := by
  constructor
  · show Res.andThen (fold a) _ = _
    rw [ha]
    rfl
  · simp only [eval, h, if_true]

example : (allEnv 0).cond 3 = true ∧ fold (.leaf .U8 2) = some (.ok (.leaf .U8 2)) := ⟨rfl, rfl⟩

end C3.Casts
