import Verif.Casts.LemmasEval

/-!
# C25: implicit conversions between integer types

`castImplicit e t` is the expression that replaces `e` where a value of type `t` is wanted, or `none`
when the compiler refuses the conversion without a cast.
-/

set_option autoImplicit false

namespace C3.Casts
open C3.Bigint

/-- An environment in which all variables of one type have one value. -/
theorem ok_of (f : TypeKind → Int) (h : ∀ t : TypeKind, t.InRange (f t)) :
    Env.OK ⟨fun t _ => f t, fun _ => 0, fun _ => false, fun _ => false⟩ :=
  ⟨fun t _ => h t, fun _ => inRange_zero .U64⟩

/-- C25: an implicit narrowing is accepted exactly when everything the value is taken from fits the
target: constants are values of the target type, and variables, calls, assigned variables and
conversions have no more bits than it.  Missing: slice lengths, for which the rule is not about their
type (`C25_len`). -/
theorem C25_leaves_partial (e : Expr) (t : TypeKind) (hw : WT e) (hlt : t.bits < e.ty.bits)
    (hn : NoLen t.bits e) :
    (castImplicit e t).isSome = true ↔ ∀ s ∈ sources t.bits e, SourceFits t s := by
  rw [← may_narrow_iff t e hw hn]
  rw [castImplicit_narrow hlt]
  cases e with
  | lit c =>
    obtain ⟨r, hr, _⟩ := C08_conv c t hw
    simp only [constOverflows, recursive_may_narrow, cast_int_to_int, hr]
    generalize expr_const_will_overflow c t = b
    cases b <;> simp
  | _ =>
    simp only [constOverflows, cast_int_to_int, Bool.false_eq_true, if_false]
    generalize recursive_may_narrow t _ = b
    cases b <;> simp

/-- `char c = (a & 15) + b` for `char` variables is accepted, `char c = a + i` for an `int` is not. -/
example :
    let a : Expr := .ext .I32 (.leaf .U8 0)
    let e : Expr := .bin .add (.bin .and a (.lit (mk .I32 15))) (.ext .I32 (.leaf .U8 1))
    let f : Expr := .bin .add a (.leaf .I32 2)
    (castImplicit e .U8).isSome = true ∧ (castImplicit f .U8).isSome = false ∧
    sources 8 f = [.leaf .U8 0, .leaf .I32 2] ∧
    (castImplicit (.bin .add a (.lit (mk .I32 256))) .U8).isSome = false := by decide +kernel

/-- C25: the value of an implicitly narrowed expression is its value in exact arithmetic, reduced to
the target type; in particular it is the exact value whenever that is a value of the target type.
Missing: operands of divisions, remainders and right shifts must not have wrapped
(`C25_division`). -/
theorem C25_narrow_partial (env : Env) (henv : env.OK) (e e' : Expr) (t : TypeKind) (hw : WT e)
    (h : castImplicit e t = some e') (v : Int) (hv : eval env e = some v)
    (hS : Steady (narrowCut t.bits) env e) :
    ∃ x v', exact (narrowCut t.bits) env e = some x ∧ eval env e' = some v' ∧ e'.ty = t ∧
      Wraps t x v' ∧ (t.InRange x → v' = x) := by
  obtain ⟨_, hty, hc⟩ := cast_eval env e e' t hw henv h
  obtain ⟨v', hv', hwr⟩ := hc v hv
  obtain ⟨x, hx, hvx⟩ := narrow_congr t.bits env e hw hS v hv
  rw [wraps_iff_modEq] at hwr
  have hxw : Wraps t x v' := (wraps_iff_modEq t x v').2 ⟨hwr.1, hvx.symm.trans hwr.2⟩
  exact ⟨x, v', hx, hv', hty, hxw, fun hr => hxw.unique (wraps_self hr)⟩

/-- `short s = a * b - c` for `short` variables, computed as an `int`: the products and differences
are exact before the truncation, and `300 * 200 - 40000 = 20000` is unharmed. -/
example :
    let x (i : Nat) : Expr := .ext .I32 (.leaf .I16 i)
    let e : Expr := .bin .sub (.bin .mul (x 0) (x 1)) (.bin .mul (x 2) (x 1))
    let env : Env := ⟨fun _ i => if i = 0 then 300 else if i = 1 then 200 else 200, fun _ => 0,
      fun _ => false, fun _ => false⟩
    castImplicit e .I16 = some (.ext .I16 e) ∧ eval env (.ext .I16 e) = some 20000 ∧
    exact (narrowCut 16) env e = some 20000 := by decide +kernel

/-- C25: an accepted implicit widening concerns only expressions in which no operation has wrapped:
the value before the conversion is already the exact one, and it is kept unless a negative number is
converted to an unsigned type (`C25_sign`).  Missing: `+e`, `e!!` and expression lists, which the check
does not look into (`C25_plus`). -/
theorem C25_widen_partial (env : Env) (henv : env.OK) (e e' : Expr) (t : TypeKind) (hw : WT e)
    (hb : Bare e) (hlt : e.ty.bits < t.bits) (h : castImplicit e t = some e') (v : Int)
    (hv : eval env e = some v) :
    exact widenCut env e = some v ∧ ∃ v', eval env e' = some v' ∧ e'.ty = t ∧ Wraps t v v' ∧
      (t.signed = true ∨ e.ty.signed = false → v' = v) := by
  obtain ⟨_, hty, hc⟩ := cast_eval env e e' t hw henv h
  obtain ⟨v', hv', hwr⟩ := hc v hv
  have hr := eval_inRange env henv e hw v hv
  refine ⟨?_, v', hv', hty, hwr, fun hs => hwr.unique (wraps_self ?_)⟩
  · rw [castImplicit_widen hlt] at h
    split at h
    · next hs => exact widen_exact env e hw hb hs v hv
    · cases h
  · have h1 : (2 : Int) ^ e.ty.bits ≤ 2 ^ (t.bits - 1) := pow_le_pow_right₀ (by decide) (by omega)
    have h2 : (2 : Int) ^ (e.ty.bits - 1) ≤ 2 ^ (t.bits - 1) := pow_le_pow_right₀ (by decide) (by omega)
    have h3 : (2 : Int) ^ (t.bits - 1) ≤ 2 ^ t.bits := pow_le_pow_right₀ (by decide) (by omega)
    unfold TypeKind.InRange TypeKind.minVal TypeKind.maxVal at hr ⊢
    cases ht : t.signed <;> cases he : e.ty.signed <;> simp only [ht, he] at hr hs ⊢ <;> simp_all <;>
      omega

/-- `long l = c ? a / b : d` is accepted, `long l = a - b` is not. -/
example :
    let a : Expr := .leaf .I32 0
    let b : Expr := .leaf .I32 1
    let e : Expr := .tern 0 (.bin .div a b) (.leaf .I32 2)
    castImplicit e .I64 = some (.ext .I64 e) ∧ castImplicit (.bin .sub a b) .I64 = none := by decide +kernel

/-- C25: between types of the same size everything but a constant is accepted; a constant is accepted
when it is a value of the target type.  The bits stay, so the value stays exactly when it is a value of
the target type. -/
theorem C25_same_size (env : Env) (henv : env.OK) (e : Expr) (t : TypeKind) (hw : WT e)
    (hsz : e.ty.bits = t.bits) :
    ((castImplicit e t).isSome = true ↔ ∀ c, e = .lit c → t.InRange c.val) ∧
    ∀ e' v, castImplicit e t = some e' → eval env e = some v →
      ∃ v', eval env e' = some v' ∧ Wraps t v v' ∧ (v' = v ↔ t.InRange v) := by
  constructor
  · rw [castImplicit_same hsz]
    cases e with
    | lit c =>
      obtain ⟨r, hr, _⟩ := C08_conv c t hw
      have hfit := C07_fits c t
      simp only [constOverflows, cast_int_to_int, hr, Expr.ty, expr_const_will_overflow]
      by_cases hct : c.type = t
      · rw [if_pos hct]
        simp only [Option.isSome_some, true_iff, Expr.lit.injEq]
        intro c' hc'; subst hc'; rw [← hct]; exact hw
      · rw [if_neg hct]
        simp only [Expr.lit.injEq, forall_eq']
        rw [← hfit]
        generalize int_fits c t = b
        cases b <;> simp
    | _ =>
      simp only [constOverflows, cast_int_to_int, Bool.false_eq_true, if_false, reduceCtorEq,
        false_implies, implies_true, iff_true]
      split <;> rfl
  · intro e' v h hv
    obtain ⟨_, _, hc⟩ := cast_eval env e e' t hw henv h
    obtain ⟨v', hv', hwr⟩ := hc v hv
    exact ⟨v', hv', hwr, fun h => h ▸ hwr.1, fun h => hwr.unique (wraps_self h)⟩

example : castImplicit (.leaf .I32 0) .U32 = some (.ext .U32 (.leaf .I32 0)) ∧
    castImplicit (.lit (mk .I32 (-1))) .U32 = none ∧
    castImplicit (.lit (mk .I32 7)) .U32 = some (.lit (mk .U32 7)) := by decide +kernel

/-- C25: a constant is implicitly converted to a type of the same or a smaller size exactly when it is a
value of that type, and then keeps its value. -/
theorem C25_const (env : Env) (henv : env.OK) (c : CInt) (t : TypeKind) (hc : c.WF)
    (hsz : t.bits ≤ c.type.bits) :
    (t.InRange c.val → ∃ e', castImplicit (.lit c) t = some e' ∧ eval env e' = some c.val) ∧
    (¬ t.InRange c.val → castImplicit (.lit c) t = none) := by
  have key : (castImplicit (.lit c) t).isSome = true ↔ t.InRange c.val := by
    rcases Nat.lt_or_eq_of_le hsz with h | h
    · rw [C25_leaves_partial (.lit c) t hc h (by intro i hi; simp [sources] at hi)]
      simp only [sources, List.forall_mem_singleton]
      rfl
    · rw [(C25_same_size env henv (.lit c) t hc h.symm).1]
      simp
  constructor
  · intro hr
    obtain ⟨e', he'⟩ := Option.isSome_iff_exists.1 (key.2 hr)
    obtain ⟨_, _, hev⟩ := cast_eval env (.lit c) e' t hc henv he'
    obtain ⟨v', hv', hwr⟩ := hev c.val (eval_lit env c hc)
    exact ⟨e', he', by rw [hv', hwr.unique (wraps_self hr)]⟩
  · intro hr
    cases h : castImplicit (.lit c) t with
    | none => rfl
    | some e' => exact absurd (key.1 (by rw [h]; rfl)) hr

/-! ## Where information is lost without a cast -/

/-- C25 (negation): a negative number is implicitly converted to any unsigned type of the same size or a
larger one, and changes its value. -/
theorem C25_sign (s t : TypeKind) (hs : s.signed = true) (ht : t.signed = false) (hsz : s.bits ≤ t.bits)
    (i : Nat) (env : Env) (henv : env.OK) (hneg : env.val s i < 0) :
    ∃ e', castImplicit (.leaf s i) t = some e' ∧ eval env e' = some (env.val s i + 2 ^ t.bits) := by
  have hne : s ≠ t := by intro h; rw [h, ht] at hs; cases hs
  refine ⟨.ext t (.leaf s i), ?_, ?_⟩
  · rcases Nat.lt_or_eq_of_le hsz with h | h
    · rw [castImplicit_widen (e := .leaf s i) h]; rfl
    · have hne' : ¬ (Expr.leaf s i).ty = t := hne
      rw [castImplicit_same (e := .leaf s i) h, if_neg hne']; rfl
  · simp only [eval, Option.map_some, Option.some.injEq]
    apply reg_of_wraps
    have hr := henv.1 s i
    rw [wraps_iff_modEq]
    refine ⟨?_, ?_⟩
    · have h1 : (2 : Int) ^ (s.bits - 1) ≤ 2 ^ t.bits := pow_le_pow_right₀ (by decide) (by omega)
      unfold TypeKind.InRange TypeKind.minVal TypeKind.maxVal at hr ⊢
      simp only [hs, ht, if_true, Bool.false_eq_true, if_false] at hr ⊢
      omega
    · exact (Int.modEq_iff_dvd).2 ⟨1, by ring⟩

example : ∃ env : Env, env.OK ∧ env.val .I32 0 < 0 :=
  ⟨⟨fun t _ => if t = .I32 then -1 else 0, fun _ => 0, fun _ => false, fun _ => false⟩,
    ok_of (fun t => if t = .I32 then -1 else 0) (by intro t; cases t <;> decide), by decide⟩

/-- C25 (negation): a negative constant is refused for every unsigned type that is not larger than its
own, and silently turned into a large number for every larger one (`ulong x = -1`). -/
theorem C25_const_widen (c : CInt) (hc : c.WF) (hneg : c.val < 0) (t : TypeKind)
    (ht : t.signed = false) (env : Env) (henv : env.OK) :
    (t.bits ≤ c.type.bits → castImplicit (.lit c) t = none) ∧
    (c.type.bits < t.bits → ∃ e', castImplicit (.lit c) t = some e' ∧
      eval env e' = some (c.val + 2 ^ t.bits)) := by
  have hnr : ¬ t.InRange c.val := by
    unfold TypeKind.InRange TypeKind.minVal
    simp only [ht, Bool.false_eq_true, if_false]
    omega
  refine ⟨fun h => (C25_const env henv c t hc h).2 hnr, fun h => ?_⟩
  obtain ⟨r, hr, _⟩ := C08_conv c t hc
  have he : castImplicit (.lit c) t = some (.lit r) := by
    rw [castImplicit_widen (e := .lit c) h]
    simp only [expr_is_simple, cast_int_to_int, hr, if_true]
    rfl
  refine ⟨.lit r, he, ?_⟩
  obtain ⟨_, _, hev⟩ := cast_eval env (.lit c) (.lit r) t hc henv he
  obtain ⟨v', hv', hwr⟩ := hev c.val (eval_lit env c hc)
  rw [hv', hwr.unique (r' := c.val + 2 ^ t.bits)]
  rw [wraps_iff_modEq]
  refine ⟨?_, (Int.modEq_iff_dvd).2 ⟨1, by ring⟩⟩
  have hp : (2 : Int) ^ (c.type.bits - 1) ≤ 2 ^ t.bits := pow_le_pow_right₀ (by decide) (by omega)
  have hr := hc
  unfold CInt.WF at hr
  have hs : c.type.signed = true := by
    cases h : c.type.signed
    · unfold TypeKind.InRange TypeKind.minVal at hr
      simp only [h, Bool.false_eq_true, if_false] at hr
      omega
    · rfl
  unfold TypeKind.InRange TypeKind.minVal TypeKind.maxVal at hr ⊢
  simp only [hs, ht, if_true, Bool.false_eq_true, if_false] at hr ⊢
  omega

example : (mk .I32 (-1)).WF ∧ (mk .I32 (-1)).val < 0 ∧ castImplicit (.lit (mk .I32 (-1))) .U32 = none ∧
    castImplicit (.lit (mk .I32 (-1))) .U64 = some (.lit (mk .U64 (2 ^ 64 - 1))) := by decide +kernel

/-- The sum of two variables of a type below 32 bits, promoted to `int`. -/
def sum (s : TypeKind) : Expr := .bin .add (.ext .I32 (.leaf s 0)) (.ext .I32 (.leaf s 1))

/-- C25 (negation): the sum of two small unsigned variables is computed as an `int`, where it is exact,
and implicitly narrowed to their type, where its carry is lost. -/
theorem C25_carry (s : TypeKind) (hs : s.signed = false) (hb : s.bits < 32) (env : Env) (henv : env.OK)
    (hover : 2 ^ s.bits ≤ env.val s 0 + env.val s 1) :
    ∃ e', castImplicit (sum s) s = some e' ∧ eval env (sum s) = some (env.val s 0 + env.val s 1) ∧
      eval env e' = some (env.val s 0 + env.val s 1 - 2 ^ s.bits) := by
  have h0 := henv.1 s 0
  have h1 := henv.1 s 1
  have he : eval env (sum s) = some (env.val s 0 + env.val s 1) := by
    simp only [sum, eval, Option.map_some, emitBin, Expr.ty, Option.some.injEq]
    have h32 : ∀ x : Int, 0 ≤ x → x ≤ 200000 → TypeKind.InRange .I32 x := by
      intro x hx hx'
      simp only [TypeKind.InRange, TypeKind.minVal, TypeKind.maxVal, TypeKind.signed, TypeKind.bits]
      norm_num
      omega
    have hs16 : (2 : Int) ^ s.bits ≤ 65536 := by
      revert hb hs
      cases s <;> decide
    unfold TypeKind.InRange TypeKind.minVal TypeKind.maxVal at h0 h1
    simp only [hs, Bool.false_eq_true, if_false] at h0 h1
    have e0 := reg_self (h32 _ h0.1 (by omega))
    have e1 := reg_self (h32 _ h1.1 (by omega))
    have e2 := reg_self (h32 (env.val s 0 + env.val s 1) (by omega) (by omega))
    rw [e0, e1, e2]
  refine ⟨.ext s (sum s), ?_, he, ?_⟩
  · clear he h0 h1 hover henv
    revert hs hb
    cases s <;> intro hs hb <;>
      first
      | exact absurd hs (by decide)
      | exact absurd hb (by decide)
      | decide +kernel
  · have : eval env (.ext s (sum s)) = (eval env (sum s)).map (reg s) := rfl
    rw [this, he]
    simp only [Option.map_some, Option.some.injEq]
    apply reg_of_wraps
    rw [wraps_iff_modEq]
    refine ⟨?_, (Int.modEq_iff_dvd).2 ⟨-1, by ring⟩⟩
    unfold TypeKind.InRange TypeKind.minVal TypeKind.maxVal at *
    simp only [hs, Bool.false_eq_true, if_false] at *
    omega

example : ∃ env : Env, env.OK ∧ 2 ^ TypeKind.U8.bits ≤ env.val .U8 0 + env.val .U8 1 :=
  ⟨⟨fun t _ => if t = .U8 then 200 else 0, fun _ => 0, fun _ => false, fun _ => false⟩,
    ok_of (fun t => if t = .U8 then 200 else 0) (by intro t; cases t <;> decide), by decide⟩

/-- C25 (negation): the length of a slice, a 64-bit number, is implicitly converted to a 32-bit type; a
length that is no value of that type changes. -/
theorem C25_len (t : TypeKind) (ht : t.bits = 32) (i : Nat) (env : Env)
    (hbig : ¬ t.InRange (env.len i)) :
    ∃ e' v', castImplicit (.len i) t = some e' ∧ eval env (.len i) = some (env.len i) ∧
      eval env e' = some v' ∧ v' ≠ env.len i := by
  refine ⟨.ext t (.len i), reg t (env.len i), ?_, rfl, rfl, fun h => hbig (reg_eq_iff.1 h)⟩
  have h1 : t.bits < (Expr.len i).ty.bits := by rw [ht]; exact (by decide : 32 < TypeKind.U64.bits)
  have h2 : recursive_may_narrow t (.len i) = true := by
    simp only [recursive_may_narrow, decide_eq_true_eq, Nat.not_lt]
    rw [size_le, ht]; decide
  rw [castImplicit_narrow h1, if_neg (by simp [constOverflows]), if_pos h2]
  rfl

example : ¬ TypeKind.InRange .I32 (2 ^ 32) ∧ TypeKind.InRange .U64 (2 ^ 32) ∧
    reg .I32 (2 ^ 32) = 0 := by decide +kernel

/-- C25 (negation): the check for widening does not look into `+e`, `e!!` and expression lists.  With
them the widening of a sum is accepted, though the plain sum is refused because it may have wrapped, and
the value is not the exact one. -/
theorem C25_plus (e : Expr) (t : TypeKind) (hlt : e.ty.bits < t.bits) :
    castImplicit (.plus e) t = some (.ext t (.plus e)) ∧
    castImplicit (.unwrap e) t = some (.ext t (.unwrap e)) ∧
    castImplicit (.last e) t = some (.ext t (.last e)) ∧
    ∃ s : Expr, WT s ∧ s.ty = .I32 ∧ castImplicit s .I64 = none ∧ ∃ env : Env, env.OK ∧
      exact widenCut env s = some (2 ^ 31) ∧ eval env (.ext .I64 (.plus s)) = some (-2 ^ 31) := by
  refine ⟨?_, ?_, ?_, .bin .add (.leaf .I32 0) (.leaf .I32 1), ⟨trivial, trivial, rfl⟩, rfl,
    by decide +kernel,
    ⟨fun t i => if t = .I32 then (if i = 0 then 2 ^ 31 - 1 else 1) else 0, fun _ => 0, fun _ => false,
      fun _ => false⟩, ⟨fun t i => ?_, fun _ => inRange_zero .U64⟩, by decide +kernel, by decide +kernel⟩
  · rw [castImplicit_widen (e := .plus e) hlt]; rfl
  · rw [castImplicit_widen (e := .unwrap e) hlt]; rfl
  · rw [castImplicit_widen (e := .last e) hlt]; rfl
  · show TypeKind.InRange t (if t = .I32 then (if i = 0 then 2 ^ 31 - 1 else 1) else 0)
    by_cases h : i = 0
    · simp only [h, if_true]; cases t <;> decide
    · simp only [h, if_false]; cases t <;> decide

/-- C25 (negation): without the condition on divisions the narrowed value can differ from the exact one
although that is a value of the target type: `short s = (a * b * c) / d` with all variables `short`. -/
theorem C25_division : ∃ (e e' : Expr) (env : Env), WT e ∧ env.OK ∧ castImplicit e .I16 = some e' ∧
    ∃ x v, TypeKind.InRange .I16 x ∧ exact (narrowCut 16) env e = some x ∧ eval env e' = some v ∧
      v ≠ x := by
  refine ⟨.bin .div (.bin .mul (.bin .mul (.ext .I32 (.leaf .I16 0)) (.ext .I32 (.leaf .I16 0)))
      (.ext .I32 (.leaf .I16 0))) (.bin .mul (.ext .I32 (.leaf .I16 0)) (.ext .I32 (.leaf .I16 0))), _,
    ⟨fun t _ => if t = .I16 then 4096 else 0, fun _ => 0, fun _ => false, fun _ => false⟩,
    ⟨⟨⟨trivial, trivial, rfl⟩, trivial, rfl⟩, ⟨trivial, trivial, rfl⟩, rfl⟩,
    ok_of (fun t => if t = .I16 then 4096 else 0) (by intro t; cases t <;> decide), rfl,
    4096, 0, by decide +kernel, by decide +kernel, by decide +kernel, by decide⟩

end C3.Casts
