import Verif.ConstCompare.Lemmas

/-! # C27: constant equality and inequality -/

set_option autoImplicit false

namespace C3.ConstCompare
open C3.Bigint

theorem ret_pair (p : Prop) [Decidable p] (f : CmpOp → Option Bool) (h : ∀ op, f op = ret (decide p) op) :
    ∃ r, f .EQ = some r ∧ (r = true ↔ p) ∧ f .NE = some (!r) :=
  ⟨decide p, h .EQ, by simp, h .NE⟩

theorem content_same (mem : Mem) (a b : Const) (x y : Bytes) (ha : a.content mem = some (x.content mem))
    (hb : b.content mem = some (y.content mem)) :
    (x.content mem = y.content mem) ↔ ∃ c, a.content mem = some c ∧ b.content mem = some c := by
  rw [ha, hb]
  constructor
  · intro h; exact ⟨_, rfl, by rw [h]⟩
  · rintro ⟨c, h1, h2⟩
    simp only [Option.some.injEq] at h1 h2
    rw [h1, h2]

/-- C27: folding `a == b` is true exactly when the constants denote the same value, and folding `a != b` is
its negation, for all comparable constants other than faults, and for strings as long as the left one has no
zero byte.

Missing for the full property: faults (`C27_fault_inequality`) and strings with zero bytes
(`C27_string_nul`), for both of which it is false. -/
theorem C27_equality_partial (mem : Mem) (a b : Const) (h : Comparable a b) (hf : NotFault a) (hz : NulFree mem a b) :
    ∃ r, expr_const_compare mem a b .EQ = some r ∧ (r = true ↔ Same mem a b) ∧ expr_const_compare mem a b .NE = some (!r) := by
  cases h with
  | float a b =>
    have h1 := fps_spec a b .EQ
    have h2 := fps_spec a b .NE
    refine ⟨compare_fps a b .EQ, rfl, ?_, ?_⟩
    · rw [h1]
      simp only [Same]
      cases scaled a <;> cases scaled b <;> simp [CmpOp.holds]
      exact eq_comm
    · show some (compare_fps a b .NE) = _
      congr 1
      rw [Bool.eq_iff_iff, h2, Bool.not_eq_true', ← Bool.not_eq_true, h1]
      cases scaled a <;> cases scaled b <;> simp [CmpOp.holds]
  | integer a b =>
    have h1 := C06_compare a b .EQ
    have h2 := C06_compare a b .NE
    refine ⟨int_comp a b .EQ, rfl, h1, ?_⟩
    show some (int_comp a b .NE) = _
    congr 1
    rw [Bool.eq_iff_iff, h2, Bool.not_eq_true', ← Bool.not_eq_true, h1]
    rfl
  | bool a b => exact ⟨a == b, rfl, by simp [Same], rfl⟩
  | enum t a b =>
    refine ⟨a == b, ?_, by simp [Same], ?_⟩ <;> simp [expr_const_compare, contractOther, compareSwitch]
    rfl
  | fault a b => exact hf.elim
  | pointer a b =>
    have h1 := C06_compare ⟨⟨0#64, a⟩, .U64⟩ ⟨⟨0#64, b⟩, .U64⟩ .EQ
    have h2 := C06_compare ⟨⟨0#64, a⟩, .U64⟩ ⟨⟨0#64, b⟩, .U64⟩ .NE
    have hv : ∀ p : Addr, (CInt.mk ⟨0#64, p⟩ .U64).val = p.toNat := fun p => by simp [CInt.val, TypeKind.signed, Int128.u]
    rw [hv, hv] at h1 h2
    simp only [CmpOp.holds] at h1 h2
    refine ⟨int_comp ⟨⟨0#64, a⟩, .U64⟩ ⟨⟨0#64, b⟩, .U64⟩ .EQ, rfl, ?_, ?_⟩
    · rw [h1, Same, Int.ofNat_inj, BitVec.toNat_inj]
    · show some (int_comp ⟨⟨0#64, a⟩, .U64⟩ ⟨⟨0#64, b⟩, .U64⟩ .NE) = _
      congr 1
      rw [Bool.eq_iff_iff, h2, Bool.not_eq_true', ← Bool.not_eq_true, h1]
  | null d hd =>
    have h1 := C06_compare ⟨⟨0#64, 0#64⟩, .U64⟩ ⟨⟨0#64, d.addr⟩, .U64⟩ .EQ
    have h2 := C06_compare ⟨⟨0#64, 0#64⟩, .U64⟩ ⟨⟨0#64, d.addr⟩, .U64⟩ .NE
    have hv : ∀ p : Addr, (CInt.mk ⟨0#64, p⟩ .U64).val = p.toNat := fun p => by simp [CInt.val, TypeKind.signed, Int128.u]
    rw [hv, hv] at h1 h2
    simp only [CmpOp.holds] at h1 h2
    have hne : ¬ (((0#64 : BitVec 64).toNat : Int) = d.addr.toNat) := by
      rw [Int.ofNat_inj, BitVec.toNat_inj]
      exact fun h => hd h.symm
    refine ⟨int_comp ⟨⟨0#64, 0#64⟩, .U64⟩ ⟨⟨0#64, d.addr⟩, .U64⟩ .EQ, rfl, ?_, ?_⟩
    · rw [h1]
      exact ⟨fun h => absurd h hne, fun ⟨c, h, _⟩ => by simp [Const.content] at h⟩
    · show some (int_comp ⟨⟨0#64, 0#64⟩, .U64⟩ ⟨⟨0#64, d.addr⟩, .U64⟩ .NE) = _
      congr 1
      rw [Bool.eq_iff_iff, h2, Bool.not_eq_true', ← Bool.not_eq_true, h1]
  | typeid a b => exact ⟨a == b, rfl, by simp [Same], rfl⟩
  | member a b => exact ⟨a == b, rfl, by simp [Same], rfl⟩
  | bytes a b =>
    simp only [Same]; rw [← content_same mem (.bytes a) (.bytes b) a b rfl rfl]
    exact ret_pair _ (expr_const_compare mem (.bytes a) (.bytes b)) fun op => bytes_cmp mem a b (.bytes b) rfl op
  | bytesString a b =>
    simp only [Same]; rw [← content_same mem (.bytes a) (.string b) a b rfl rfl]
    exact ret_pair _ (expr_const_compare mem (.bytes a) (.string b)) fun op => bytes_cmp mem a b (.string b) rfl op
  | stringBytes a b =>
    simp only [Same]; rw [← content_same mem (.string a) (.bytes b) a b rfl rfl]
    exact ret_pair _ (expr_const_compare mem (.string a) (.bytes b)) fun op => string_cmp mem a b (.bytes b) rfl op hz
  | string a b =>
    simp only [Same]; rw [← content_same mem (.string a) (.string b) a b rfl rfl]
    exact ret_pair _ (expr_const_compare mem (.string a) (.string b)) fun op => string_cmp mem a b (.string b) rfl op hz
  | bytesSlice a i hi =>
    obtain ⟨b, h1, h2⟩ := contract_slice i hi mem
    simp only [Same]; rw [← content_same mem (.bytes a) (.slice i) a b rfl h2]
    refine ret_pair _ (expr_const_compare mem (.bytes a) (.slice i)) fun op => ?_
    simp only [expr_const_compare, contractOther, h1, Option.map_some, Option.bind_eq_bind, Option.bind_some]
    exact bytes_cmp mem a b (.bytes b) rfl op
  | bytesInit a i hi =>
    obtain ⟨b, h1, h2⟩ := contract_init i hi mem
    simp only [Same]; rw [← content_same mem (.bytes a) (.initializer i) a b rfl h2]
    refine ret_pair _ (expr_const_compare mem (.bytes a) (.initializer i)) fun op => ?_
    simp only [expr_const_compare, contractOther, h1, Option.map_some, Option.bind_eq_bind, Option.bind_some]
    exact bytes_cmp mem a b (.bytes b) rfl op
  | stringSlice a i hi =>
    obtain ⟨b, h1, h2⟩ := contract_slice i hi mem
    simp only [Same]; rw [← content_same mem (.string a) (.slice i) a b rfl h2]
    refine ret_pair _ (expr_const_compare mem (.string a) (.slice i)) fun op => ?_
    simp only [expr_const_compare, contractOther, h1, Option.map_some, Option.bind_eq_bind, Option.bind_some]
    exact string_cmp mem a b (.string b) rfl op hz
  | stringInit a i hi =>
    obtain ⟨b, h1, h2⟩ := contract_init i hi mem
    simp only [Same]; rw [← content_same mem (.string a) (.initializer i) a b rfl h2]
    refine ret_pair _ (expr_const_compare mem (.string a) (.initializer i)) fun op => ?_
    simp only [expr_const_compare, contractOther, h1, Option.map_some, Option.bind_eq_bind, Option.bind_some]
    exact string_cmp mem a b (.string b) rfl op hz
  | sliceBytes i b hi =>
    obtain ⟨a, h1, h2⟩ := contract_slice i hi mem
    simp only [Same]; rw [← content_same mem (.slice i) (.bytes b) a b h2 rfl]
    refine ret_pair _ (expr_const_compare mem (.slice i) (.bytes b)) fun op => ?_
    simp only [expr_const_compare, contractOther, h1, Option.map_some, Option.bind_eq_bind, Option.bind_some]
    exact bytes_cmp mem a b (.bytes b) rfl op
  | initBytes i b hi =>
    obtain ⟨a, h1, h2⟩ := contract_init i hi mem
    simp only [Same]; rw [← content_same mem (.initializer i) (.bytes b) a b h2 rfl]
    refine ret_pair _ (expr_const_compare mem (.initializer i) (.bytes b)) fun op => ?_
    simp only [expr_const_compare, contractOther, h1, Option.map_some, Option.bind_eq_bind, Option.bind_some]
    exact bytes_cmp mem a b (.bytes b) rfl op
  | sliceString i b hi =>
    obtain ⟨a, h1, h2⟩ := contract_slice i hi mem
    simp only [Same]; rw [← content_same mem (.slice i) (.string b) a b h2 rfl]
    refine ret_pair _ (expr_const_compare mem (.slice i) (.string b)) fun op => ?_
    simp only [expr_const_compare, contractOther, h1, Option.map_some, Option.bind_eq_bind, Option.bind_some]
    exact string_cmp mem a b (.string b) rfl op (hz _ h2)
  | initString i b hi =>
    obtain ⟨a, h1, h2⟩ := contract_init i hi mem
    simp only [Same]; rw [← content_same mem (.initializer i) (.string b) a b h2 rfl]
    refine ret_pair _ (expr_const_compare mem (.initializer i) (.string b)) fun op => ?_
    simp only [expr_const_compare, contractOther, h1, Option.map_some, Option.bind_eq_bind, Option.bind_some]
    refine string_cmp mem a b (.string b) rfl op ?_
    simp only [Const.content, Option.some.injEq] at h2
    rw [← h2]
    exact hz

example : Comparable (.string (.at 16#64 3)) (.initializer ⟨3, .array [(1, ⟨⟨0#64, 98#64⟩, .U8⟩)]⟩) :=
  .stringInit _ _ ⟨by decide, by simp⟩

example : (⟨4, .array [(1, ⟨⟨0#64, 98#64⟩, .U8⟩), (3, ⟨⟨BitVec.allOnes 64, BitVec.allOnes 64⟩, .I8⟩)]⟩ : Initializer).content =
    [0#8, 98#8, 0#8, 255#8] := by decide

/-- C27: constants of an ordered type compare by their number with every operator; two enum constants are of
one type. -/
theorem C27_order (mem : Mem) (a b : Const) (x y : Int) (h : Comparable a b) (ha : a.rank = some x) (hb : b.rank = some y) (op : CmpOp) :
    ∃ r, expr_const_compare mem a b op = some r ∧ (r = true ↔ op.holds x y) := by
  cases h <;> simp only [Const.rank, Option.some.injEq, reduceCtorEq] at ha hb
  case float a b =>
    refine ⟨compare_fps a b op, rfl, ?_⟩
    have := fps_spec a b op
    rw [ha, hb] at this
    exact this
  case integer a b =>
    subst ha hb
    exact ⟨int_comp a b op, rfl, C06_compare a b op⟩
  case bool a b =>
    subst ha hb
    refine ⟨compare_bool a b op, rfl, ?_⟩
    cases op <;> cases a <;> cases b <;> simp [compare_bool, CmpOp.holds]
  case enum t a b =>
    subst ha hb
    cases op <;> simp only [expr_const_compare, contractOther, compareSwitch, Option.bind_eq_bind, Option.bind_some, ne_eq,
      not_true_eq_false, if_false, Option.some.injEq, exists_eq_left', decide_eq_true_eq, CmpOp.holds, bne_iff_ne, beq_iff_eq,
      gt_iff_lt, ge_iff_le, BitVec.lt_def, BitVec.le_def, ← BitVec.toNat_inj] <;> omega
  case pointer a b =>
    subst ha hb
    refine ⟨int_comp ⟨⟨0#64, a⟩, .U64⟩ ⟨⟨0#64, b⟩, .U64⟩ op, rfl, ?_⟩
    rw [C06_compare]
    simp [CInt.val, TypeKind.signed, Int128.u]

example : (Const.float 0x4004000000000000#64).rank.map (· / 2 ^ 1073) = some 5 := by decide +kernel
example : (Const.float 0x8000000000000000#64).rank = (Const.float 0#64).rank := by decide +kernel

/-- C27: a NaN is unequal to everything and unordered. -/
theorem C27_nan (mem : Mem) (a b : BitVec 64) (h : scaled a = none ∨ scaled b = none) (op : CmpOp) :
    expr_const_compare mem (.float a) (.float b) op = some (decide (op = .NE)) := by
  show some (compare_fps a b op) = _
  congr 1
  rw [Bool.eq_iff_iff, fps_spec, decide_eq_true_iff]
  rcases h with h | h <;> rw [h]
  cases scaled a <;> rfl

example : scaled 0x7FF8000000000000#64 = none := by decide +kernel

/-- C27, for the ranges of switch cases: a constant is in a range exactly when its number lies between the
bounds. -/
theorem C27_range (mem : Mem) (a lo hi : Const) (x l u : Int) (h1 : Comparable a lo) (h2 : Comparable a hi)
    (ha : a.rank = some x) (hl : lo.rank = some l) (hu : hi.rank = some u) :
    ∃ r, expr_const_in_range mem a lo (some hi) = some r ∧ (r = true ↔ l ≤ x ∧ x ≤ u) := by
  obtain ⟨r1, e1, s1⟩ := C27_order mem a lo x l h1 ha hl .GE
  obtain ⟨r2, e2, s2⟩ := C27_order mem a hi x u h2 ha hu .LE
  simp only [CmpOp.holds] at s1 s2
  simp only [expr_const_in_range, e1, e2, Option.bind_eq_bind, Option.bind_some]
  cases r1 with
  | true =>
    refine ⟨r2, rfl, s2.trans ⟨fun h => ⟨s1.1 rfl, h⟩, fun h => h.2⟩⟩
  | false =>
    refine ⟨false, rfl, ?_⟩
    constructor
    · intro h; cases h
    · intro h; exact s1.2 h.1

example : Comparable (.enum 64#64 3#32) (.enum 64#64 1#32) ∧ (Const.enum 64#64 3#32).rank = some 3 := ⟨.enum _ _ _, rfl⟩

/-- C27 fails for faults: `a != b` folds to the same result as `a == b`, so it is wrong for every pair. -/
theorem C27_fault_inequality (mem : Mem) (a b : Decl) : ∃ r, foldComp mem (.fault a) (.fault b) .EQ = some (some r) ∧
    (r = true ↔ Same mem (.fault a) (.fault b)) ∧ foldComp mem (.fault a) (.fault b) .NE = some (some r) :=
  ⟨decl_flatten b == decl_flatten a, rfl, by
    rw [beq_iff_eq, eq_comm]
    obtain ⟨x, ax⟩ := a
    obtain ⟨y, ay⟩ := b
    cases ax <;> cases ay <;> exact Iff.rfl, rfl⟩

example : Comparable (.fault ⟨32#64, none⟩) (.fault ⟨48#64, some 32#64⟩) := .fault _ _

/-- C27 fails for strings with a zero byte: two strings of one length at different addresses that agree up to
and including their first zero byte are folded as equal, whatever follows. -/
theorem C27_string_nul (mem : Mem) (p q : Addr) (n k : Nat) (hpq : p ≠ q) (hk : k < n)
    (heq : ∀ i, i < k → mem (p + BitVec.ofNat 64 i) = mem (q + BitVec.ofNat 64 i) ∧ mem (p + BitVec.ofNat 64 i) ≠ 0#8)
    (hp : mem (p + BitVec.ofNat 64 k) = 0#8) (hq : mem (q + BitVec.ofNat 64 k) = 0#8) :
    foldComp mem (.string (.at p n)) (.string (.at q n)) .EQ = some (some true) := by
  have hgen : ∀ (d i m : Nat), i + d = k → d < m → strncmpEq mem (.at p n) (.at q n) i m = some true := by
    intro d
    induction d with
    | zero =>
      intro i m hi hm
      obtain ⟨m, rfl⟩ : ∃ m', m = m' + 1 := ⟨m - 1, by omega⟩
      obtain rfl : i = k := by omega
      simp [strncmpEq, Bytes.get, hp, hq]
    | succ d ih =>
      intro i m hi hm
      obtain ⟨m, rfl⟩ : ∃ m', m = m' + 1 := ⟨m - 1, by omega⟩
      have h := heq i (by omega)
      rw [strncmpEq]
      simp only [Bytes.get, Option.bind_eq_bind, Option.bind_some]
      rw [if_neg (by simpa using h.1), if_neg h.2]
      exact ih (i + 1) m (by omega) (by omega)
  have h := hgen k 0 n (by omega) hk
  simp only [foldComp, sema_constant_fold_ops, expr_const_compare, contractOther, compareSwitch, bytesOf, Option.bind_eq_bind,
    Option.bind_some, Bytes.len, Bytes.samePtr, if_true, ne_eq, not_true_eq_false, if_false, decide_eq_true_eq, if_neg hpq, h]
  rfl

/-- `"a\0b" == "a\0c"` in such a memory. -/
example : ∃ mem : Mem, foldComp mem (.string (.at 16#64 3)) (.string (.at 32#64 3)) .EQ = some (some true) ∧
    ¬ Same mem (.string (.at 16#64 3)) (.string (.at 32#64 3)) := by
  refine ⟨fun a => if a = 16#64 ∨ a = 32#64 then 97#8 else if a = 18#64 then 98#8 else if a = 34#64 then 99#8 else 0#8, ?_, ?_⟩
  · decide
  · rintro ⟨c, h1, h2⟩
    rw [← h2] at h1
    revert h1
    decide

end C3.ConstCompare
