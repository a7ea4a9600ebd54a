import Mathlib.Order.Monotone.Basic
import Mathlib.Algebra.Order.Group.Nat
import Verif.Bigint.Props
import Verif.ConstCompare.Spec

/-! # Lemmas about constant comparison -/

set_option autoImplicit false

namespace C3.ConstCompare
open C3.Bigint

/-! ## Floating point order -/

/-- The scaled number of a non-negative bit pattern. -/
def magVal (m : Nat) : Nat := if m / 2 ^ 52 = 0 then m % 2 ^ 52 else (2 ^ 52 + m % 2 ^ 52) * 2 ^ (m / 2 ^ 52 - 1)

theorem magVal_mono : StrictMono magVal := by
  apply strictMono_nat_of_lt_succ
  intro m
  unfold magVal
  by_cases h : m % 2 ^ 52 + 1 < 2 ^ 52
  · have h1 : (m + 1) / 2 ^ 52 = m / 2 ^ 52 := by omega
    have h2 : (m + 1) % 2 ^ 52 = m % 2 ^ 52 + 1 := by omega
    rw [h1, h2]
    split
    · omega
    · exact Nat.mul_lt_mul_of_pos_right (by omega) (Nat.pow_pos (by omega))
  · have h1 : (m + 1) / 2 ^ 52 = m / 2 ^ 52 + 1 := by omega
    have h2 : (m + 1) % 2 ^ 52 = 0 := by omega
    rw [h1, h2, if_neg (show ¬ m / 2 ^ 52 + 1 = 0 by omega)]
    split
    · rename_i h0
      rw [h0, Nat.zero_add, Nat.sub_self, Nat.pow_zero]
      omega
    · have e : m / 2 ^ 52 + 1 - 1 = (m / 2 ^ 52 - 1) + 1 := by omega
      have e2 : 2 ^ (m / 2 ^ 52 - 1 + 1) = 2 ^ (m / 2 ^ 52 - 1) * 2 := Nat.pow_succ _ _
      rw [e, e2]
      generalize hk : 2 ^ (m / 2 ^ 52 - 1) = k
      have hk0 : 0 < k := by rw [← hk]; exact Nat.pow_pos (by omega)
      have : m % 2 ^ 52 = 2 ^ 52 - 1 := by omega
      rw [this]
      clear hk h1 h2 e e2 this
      have : 2 ^ 52 + (2 ^ 52 - 1) = 9007199254740991 := by decide
      rw [this, Nat.add_zero]
      have : (2 ^ 52 : Nat) = 4503599627370496 := by decide
      rw [this]
      omega

set_option exponentiation.threshold 3000 in
theorem scaled_key (x : BitVec 64) :
    scaled x = (fpKey x).map fun k => if 0 ≤ k then (magVal k.toNat : Int) else -(magVal (-k).toNat : Int) := by
  have hx := x.isLt
  generalize hn : x.toNat = n at hx
  have hmag : n / 2 ^ 52 % 2 ^ 11 = n % 2 ^ 63 / 2 ^ 52 := by omega
  have hfr : n % 2 ^ 52 = n % 2 ^ 63 % 2 ^ 52 := by omega
  have hval : ∀ sign : Int, (if n / 2 ^ 52 % 2 ^ 11 = 2047 then if n % 2 ^ 52 = 0 then some (sign * 2 ^ 2098) else none
      else if n / 2 ^ 52 % 2 ^ 11 = 0 then some (sign * ((n % 2 ^ 52 : Nat) : Int))
      else some (sign * ((2 ^ 52 + ((n % 2 ^ 52 : Nat) : Int)) * 2 ^ (n / 2 ^ 52 % 2 ^ 11 - 1)))) =
      if n % 2 ^ 63 > 0x7FF0000000000000 then none else some (sign * (magVal (n % 2 ^ 63) : Int)) := by
    intro sign
    rw [hmag, hfr]
    have hm : n % 2 ^ 63 < 2 ^ 63 := Nat.mod_lt _ (by decide)
    generalize n % 2 ^ 63 = m at hm
    unfold magVal
    by_cases h1 : m / 2 ^ 52 = 2047
    · by_cases h2 : m % 2 ^ 52 = 0
      · rw [if_pos h1, if_pos h2, if_neg (by omega), if_neg (by omega), h1, h2]
        have : ((2 ^ 52 + 0) * 2 ^ (2047 - 1) : Nat) = 2 ^ 2098 := by
          rw [Nat.add_zero, ← Nat.pow_add]
        rw [this]
        rw [Nat.cast_pow]
        rfl
      · rw [if_pos h1, if_neg h2, if_pos (by omega)]
    · rw [if_neg h1, if_neg (show ¬ m > 0x7FF0000000000000 by omega)]
      by_cases h2 : m / 2 ^ 52 = 0
      · rw [if_pos h2, if_pos h2]
      · rw [if_neg h2, if_neg h2, Nat.cast_mul, Nat.cast_add, Nat.cast_pow, Nat.cast_pow]
        rfl
  unfold scaled fpKey
  simp only [hn]
  rw [hval]
  by_cases hb : n % 2 ^ 63 > 0x7FF0000000000000
  · rw [if_pos hb, if_pos hb, Option.map_none]
  · rw [if_neg hb, if_neg hb, Option.map_some]
    congr 1
    have h0 : magVal 0 = 0 := by decide
    by_cases hs : n < 2 ^ 63
    · rw [if_pos (by omega), if_pos hs, if_pos (by omega), Int.toNat_natCast, Int.one_mul]
    · rw [if_neg (show ¬ n / 2 ^ 63 = 0 by omega), if_neg hs]
      by_cases hz : n % 2 ^ 63 = 0
      · rw [hz, h0]
        decide
      · rw [if_neg (by omega), Int.neg_neg, Int.toNat_natCast, Int.neg_one_mul]

theorem key_cmp (k l : Int) :
    (k < l ↔ (if 0 ≤ k then (magVal k.toNat : Int) else -(magVal (-k).toNat : Int)) <
      if 0 ≤ l then (magVal l.toNat : Int) else -(magVal (-l).toNat : Int)) := by
  have hm := fun a b => magVal_mono.lt_iff_lt (a := a) (b := b)
  have h0 : magVal 0 = 0 := by decide
  have pos : ∀ a, 0 < a → 0 < magVal a := fun a h => h0 ▸ magVal_mono h
  by_cases hk : 0 ≤ k <;> by_cases hl : 0 ≤ l
  · rw [if_pos hk, if_pos hl, Int.ofNat_lt, hm]; omega
  · rw [if_pos hk, if_neg hl]; have := pos (-l).toNat (by omega); omega
  · rw [if_neg hk, if_pos hl]; have := pos (-k).toNat (by omega); omega
  · rw [if_neg hk, if_neg hl]
    have := hm (-l).toNat (-k).toNat
    omega

theorem fps_spec (a b : BitVec 64) (op : CmpOp) : compare_fps a b op = true ↔
    match scaled a, scaled b with
    | some x, some y => op.holds x y
    | _, _ => op = .NE := by
  rw [scaled_key, scaled_key]
  unfold compare_fps
  cases ha : fpKey a with
  | none => simp only [Option.map_none]; cases op <;> simp
  | some k =>
    cases hb : fpKey b with
    | none => simp only [Option.map_none, Option.map_some]; cases op <;> simp
    | some l =>
      simp only [Option.map_some]
      have h1 := key_cmp k l
      have h2 := key_cmp l k
      cases op <;> simp only [CmpOp.holds, decide_eq_true_eq] <;> omega

/-! ## Bytes -/

theorem at_len (mem : Mem) (b : Bytes) : (b.content mem).length = b.len := by
  cases b <;> simp [Bytes.content, Bytes.len]

theorem get_at (mem : Mem) (b : Bytes) (i : Nat) (h : i < b.len) : b.get mem i = (b.content mem)[i]? := by
  cases b with
  | «at» p n =>
    simp only [Bytes.len] at h
    simp [Bytes.get, Bytes.content, h]
  | fresh d => rfl

theorem samePtr_content (mem : Mem) (a b : Bytes) (h : a.samePtr b = true) (hl : a.len = b.len) :
    a.content mem = b.content mem := by
  cases a <;> cases b <;> simp [Bytes.samePtr, Bytes.len] at h hl
  subst h hl
  rfl

theorem drop_cons {b : List (BitVec 8)} {i : Nat} {x : BitVec 8} (h : b[i]? = some x) : b.drop i = x :: b.drop (i + 1) := by
  obtain ⟨hi, rfl⟩ := List.getElem?_eq_some_iff.1 h
  exact List.drop_eq_getElem_cons hi

theorem memcmp_spec (mem : Mem) (a b : Bytes) (hl : a.len = b.len) : ∀ (n i : Nat), i + n = a.len →
    memcmpEq mem a b i n = some (decide ((a.content mem).drop i = (b.content mem).drop i)) := by
  intro n
  induction n with
  | zero =>
    intro i hi
    rw [memcmpEq, List.drop_eq_nil_of_le (by rw [at_len]; omega), List.drop_eq_nil_of_le (by rw [at_len]; omega)]
    simp
  | succ n ih =>
    intro i hi
    have ha : i < (a.content mem).length := by rw [at_len]; omega
    have hb : i < (b.content mem).length := by rw [at_len]; omega
    rw [memcmpEq, get_at mem a i (by omega), get_at mem b i (by omega), List.getElem?_eq_getElem ha,
      List.getElem?_eq_getElem hb, drop_cons (List.getElem?_eq_getElem ha), drop_cons (List.getElem?_eq_getElem hb)]
    simp only [Option.bind_eq_bind, Option.bind_some]
    by_cases h : (a.content mem)[i] = (b.content mem)[i]
    · rw [if_neg (by simpa using h), ih (i + 1) (by omega), h]
      congr 1
      rw [decide_eq_decide, List.cons_inj_right]
    · rw [if_pos h, decide_eq_false fun e => h (List.cons.inj e).1]
      rfl

theorem strncmp_spec (mem : Mem) (a b : Bytes) (hl : a.len = b.len) (hz : 0#8 ∉ a.content mem) : ∀ (n i : Nat), i + n = a.len →
    strncmpEq mem a b i n = some (decide ((a.content mem).drop i = (b.content mem).drop i)) := by
  intro n
  induction n with
  | zero =>
    intro i hi
    rw [strncmpEq, List.drop_eq_nil_of_le (by rw [at_len]; omega), List.drop_eq_nil_of_le (by rw [at_len]; omega)]
    simp
  | succ n ih =>
    intro i hi
    have ha : i < (a.content mem).length := by rw [at_len]; omega
    have hb : i < (b.content mem).length := by rw [at_len]; omega
    rw [strncmpEq, get_at mem a i (by omega), get_at mem b i (by omega), List.getElem?_eq_getElem ha,
      List.getElem?_eq_getElem hb, drop_cons (List.getElem?_eq_getElem ha), drop_cons (List.getElem?_eq_getElem hb)]
    simp only [Option.bind_eq_bind, Option.bind_some]
    have hne : (a.content mem)[i] ≠ 0#8 := fun h => hz (h ▸ List.getElem_mem ha)
    by_cases h : (a.content mem)[i] = (b.content mem)[i]
    · rw [if_neg (by simpa using h), if_neg hne, ih (i + 1) (by omega), h]
      congr 1
      rw [decide_eq_decide, List.cons_inj_right]
    · rw [if_pos h, decide_eq_false fun e => h (List.cons.inj e).1]
      rfl

/-! ## Contracted arrays -/

theorem char_val (v : CInt) : v.i.low.setWidth 8 = BitVec.ofInt 8 v.val := by
  apply BitVec.eq_of_toNat_eq
  rw [BitVec.toNat_setWidth, BitVec.toNat_ofInt]
  unfold CInt.val Int128.s
  unfold Int128.u
  have := v.i.low.isLt
  have := v.i.high.isLt
  split
  · split <;> omega
  · omega

theorem storeElements_spec (es : List (Nat × CInt)) : ∀ (arr : List (BitVec 8)), (∀ e ∈ es, e.1 < arr.length) →
    ∃ r, storeElements arr es = some r ∧ r.length = arr.length ∧ ∀ k, k < arr.length → r[k]? =
      match es.reverse.find? (fun e => e.1 == k) with
      | some e => some (BitVec.ofInt 8 e.2.val)
      | none => arr[k]? := by
  induction es with
  | nil => intro arr _; exact ⟨arr, rfl, rfl, fun k _ => rfl⟩
  | cons e es ih =>
    intro arr h
    have he := h e (by simp)
    obtain ⟨r, h1, h2, h3⟩ := ih (arr.set e.1 (e.2.i.low.setWidth 8)) (fun x hx => by
      rw [List.length_set]; exact h x (by simp [hx]))
    refine ⟨r, ?_, by rw [h2, List.length_set], ?_⟩
    · obtain ⟨i, v⟩ := e
      simp only [storeElements, storeChar, if_pos he, Option.bind_eq_bind, Option.bind_some]
      exact h1
    · intro k hk
      rw [h3 k (by rwa [List.length_set]), List.reverse_cons, List.find?_append]
      cases es.reverse.find? (fun e => e.1 == k) with
      | some x => rfl
      | none =>
        rw [Option.none_or]
        by_cases hek : e.1 = k
        · subst hek
          simp [he, char_val]
        · simp [hek]

theorem storeFull_spec (es : List CInt) : ∀ (pre rest : List (BitVec 8)), rest.length = es.length →
    storeFull (pre ++ rest) pre.length es = some (pre ++ es.map fun v => BitVec.ofInt 8 v.val) := by
  induction es with
  | nil =>
    intro pre rest h
    rw [List.length_eq_zero_iff.1 h]
    rfl
  | cons v es ih =>
    intro pre rest h
    cases rest with
    | nil => simp at h
    | cons x rest =>
      have := ih (pre ++ [BitVec.ofInt 8 v.val]) rest (by simpa using h)
      rw [List.length_append, List.length_singleton] at this
      rw [storeFull, storeChar, if_pos (by simp)]
      simp only [Option.bind_eq_bind, Option.bind_some]
      rw [char_val, List.set_append_right _ _ (Nat.le_refl _), Nat.sub_self, List.set_cons_zero]
      simpa using this

theorem contract_spec (i : Initializer) (h : i.Ok) : expr_contract_array.contract i = some (.fresh i.content) := by
  obtain ⟨n, init⟩ := i
  obtain ⟨h0, h⟩ := h
  simp only at h0 h
  rw [expr_contract_array.contract, if_pos h0]
  cases init with
  | zero => rfl
  | array es =>
    obtain ⟨r, h1, h2, h3⟩ := storeElements_spec es (List.replicate n 0#8) (by simpa using h)
    simp only [h1, Option.map_some]
    congr 2
    apply List.ext_getElem?
    intro k
    rw [List.length_replicate] at h2 h3
    by_cases hk : k < n
    · rw [h3 k hk]
      simp only [Initializer.content, List.getElem?_map, List.getElem?_range hk, Option.map_some]
      cases es.reverse.find? (fun e => e.1 == k) with
      | some x => rfl
      | none => simp [hk]
    · rw [List.getElem?_eq_none (by omega), List.getElem?_eq_none (by simp [Initializer.content]; omega)]
  | arrayFull es =>
    have := storeFull_spec es [] (List.replicate n 0#8) (by simpa using h.symm)
    simp only [List.nil_append, List.length_nil] at this
    simp only [this, Option.map_some]
    rfl

theorem contract_slice (i : Option Initializer) (h : ∀ j ∈ i, j.Ok) (mem : Mem) : ∃ b, expr_contract_array (.slice i) = some b ∧
    (Const.slice i).content mem = some (b.content mem) := by
  cases i with
  | none => exact ⟨_, rfl, rfl⟩
  | some i => exact ⟨_, contract_spec i (h i rfl), rfl⟩

theorem contract_init (i : Initializer) (h : i.Ok) (mem : Mem) : ∃ b, expr_contract_array (.initializer i) = some b ∧
    (Const.initializer i).content mem = some (b.content mem) :=
  ⟨_, contract_spec i h, rfl⟩

/-! ## Equality of bytes -/

theorem bytes_cmp (mem : Mem) (a b : Bytes) (r : Const) (hr : bytesOf r = some b) (op : CmpOp) :
    compareSwitch mem (.bytes a) r op = ret (decide (a.content mem = b.content mem)) op := by
  have : compareSwitch mem (.bytes a) r op = (if a.len ≠ b.len then ret false op else if a.samePtr b then ret true op
      else (memcmpEq mem a b 0 a.len).bind fun e => ret e op) := by
    cases r <;> simp only [bytesOf, Option.some.injEq, reduceCtorEq] at hr <;> subst hr <;> rfl
  rw [this]
  by_cases hl : a.len = b.len
  · rw [if_neg (by simpa using hl)]
    by_cases hp : a.samePtr b = true
    · rw [if_pos hp, samePtr_content mem a b hp hl]; simp
    · rw [if_neg hp, memcmp_spec mem a b hl a.len 0 (by omega)]
      rfl
  · rw [if_pos hl]
    congr 1
    exact (decide_eq_false fun h => hl (by rw [← at_len mem a, ← at_len mem b, h])).symm

theorem string_cmp (mem : Mem) (a b : Bytes) (r : Const) (hr : bytesOf r = some b) (op : CmpOp) (hz : 0#8 ∉ a.content mem) :
    compareSwitch mem (.string a) r op = ret (decide (a.content mem = b.content mem)) op := by
  have : compareSwitch mem (.string a) r op = (if a.len ≠ b.len then ret false op else if a.samePtr b then ret true op
      else (strncmpEq mem a b 0 a.len).bind fun e => ret e op) := by
    cases r <;> simp only [bytesOf, Option.some.injEq, reduceCtorEq] at hr <;> subst hr <;> rfl
  rw [this]
  by_cases hl : a.len = b.len
  · rw [if_neg (by simpa using hl)]
    by_cases hp : a.samePtr b = true
    · rw [if_pos hp, samePtr_content mem a b hp hl]; simp
    · rw [if_neg hp, strncmp_spec mem a b hl hz a.len 0 (by omega)]
      rfl
  · rw [if_pos hl]
    congr 1
    exact (decide_eq_false fun h => hl (by rw [← at_len mem a, ← at_len mem b, h])).symm

end C3.ConstCompare
