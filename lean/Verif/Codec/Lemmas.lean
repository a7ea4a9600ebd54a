import Verif.Codec.Spec
import Mathlib.Tactic.Ring
import Mathlib.Tactic.Linarith
import Mathlib.Data.Nat.Bitwise

/-! # Helper lemmas about the RFC 4648 codes -/

set_option autoImplicit false

namespace C3.Codec
open C3.Bigint (positional)

theorem positional_from (b : Nat) (ds : List Nat) (n : Nat) :
    ds.foldl (fun acc d => acc * b + d) n = n * b ^ ds.length + positional b ds := by
  induction ds generalizing n with
  | nil => simp [positional]
  | cons d ds ih =>
    have e : positional b (d :: ds) = (0 * b + d) * b ^ ds.length + positional b ds := by
      rw [positional, List.foldl_cons, ih]
    rw [List.foldl_cons, ih, e, List.length_cons]
    ring

theorem positional_append (b : Nat) (xs ys : List Nat) :
    positional b (xs ++ ys) = positional b xs * b ^ ys.length + positional b ys := by
  rw [positional, List.foldl_append, positional_from]; rfl

theorem positional_cons (b x : Nat) (xs : List Nat) :
    positional b (x :: xs) = x * b ^ xs.length + positional b xs := by
  have := positional_append b [x] xs
  rw [List.singleton_append] at this
  rw [this]
  simp [positional]

@[simp] theorem positional_nil (b : Nat) : positional b [] = 0 := rfl

theorem positional_lt (b : Nat) (ds : List Nat) (h : ∀ d ∈ ds, d < b) : positional b ds < b ^ ds.length := by
  induction ds with
  | nil => simp
  | cons d ds ih =>
    rw [positional_cons, List.length_cons]
    have := ih (fun d hd => h d (List.mem_cons_of_mem _ hd))
    have hd := h d List.mem_cons_self
    calc d * b ^ ds.length + positional b ds < d * b ^ ds.length + b ^ ds.length := by omega
      _ = (d + 1) * b ^ ds.length := by ring
      _ ≤ b * b ^ ds.length := Nat.mul_le_mul_right _ hd
      _ = b ^ (ds.length + 1) := by ring

theorem positional_inj (b : Nat) (xs ys : List Nat) (hl : xs.length = ys.length)
    (hx : ∀ d ∈ xs, d < b) (hy : ∀ d ∈ ys, d < b) (h : positional b xs = positional b ys) : xs = ys := by
  induction xs generalizing ys with
  | nil => cases ys with
    | nil => rfl
    | cons y ys => simp at hl
  | cons x xs ih => cases ys with
    | nil => simp at hl
    | cons y ys =>
      rw [List.length_cons, List.length_cons, Nat.add_right_cancel_iff] at hl
      rw [positional_cons, positional_cons, hl] at h
      have h1 := positional_lt b xs (fun d hd => hx d (List.mem_cons_of_mem _ hd))
      have h2 := positional_lt b ys (fun d hd => hy d (List.mem_cons_of_mem _ hd))
      rw [hl] at h1
      have hp : 0 < b ^ ys.length := Nat.lt_of_le_of_lt (Nat.zero_le _) h1
      have e1 : (x * b ^ ys.length + positional b xs) / b ^ ys.length = x := by
        rw [Nat.add_comm, Nat.add_mul_div_right _ _ hp, Nat.div_eq_of_lt h1, Nat.zero_add]
      have e2 : (y * b ^ ys.length + positional b ys) / b ^ ys.length = y := by
        rw [Nat.add_comm, Nat.add_mul_div_right _ _ hp, Nat.div_eq_of_lt h2, Nat.zero_add]
      have exy : x = y := by rw [← e1, ← e2, h]
      subst exy
      rw [ih ys hl (fun d hd => hx d (List.mem_cons_of_mem _ hd))
        (fun d hd => hy d (List.mem_cons_of_mem _ hd)) (by omega)]

theorem bytesVal_append (xs ys : List Byte) :
    bytesVal (xs ++ ys) = bytesVal xs * 256 ^ ys.length + bytesVal ys := by
  unfold bytesVal
  rw [List.map_append, positional_append, List.length_map]

theorem symsVal_append (k : Nat) (xs ys : List Nat) :
    symsVal k (xs ++ ys) = symsVal k xs * 2 ^ (k * ys.length) + symsVal k ys := by
  unfold symsVal
  rw [positional_append, ← pow_mul]

theorem bytes_lt (bs : List Byte) : ∀ d ∈ bs.map BitVec.toNat, d < 256 := by
  intro d hd
  obtain ⟨b, -, rfl⟩ := List.mem_map.1 hd
  exact b.isLt

theorem bytesVal_inj {xs ys : List Byte} (hl : xs.length = ys.length) (h : bytesVal xs = bytesVal ys) :
    xs = ys := by
  have := positional_inj 256 _ _ (by simpa using hl) (bytes_lt xs) (bytes_lt ys) h
  exact (List.map_inj_right (fun a b h => BitVec.eq_of_toNat_eq h)).1 this

theorem pow256 (n : Nat) : 256 ^ n = 2 ^ (8 * n) := by
  rw [pow_mul]; norm_num

/-- Whole groups encode independently of what follows. -/
theorem Encodes.append {k : Nat} {b1 b2 : List Byte} {s1 s2 : List Nat}
    (h1 : Encodes k b1 s1) (hx : k * s1.length = 8 * b1.length) (h2 : Encodes k b2 s2) :
    Encodes k (b1 ++ b2) (s1 ++ s2) := by
  obtain ⟨a1, a2, a3, a4⟩ := h1
  obtain ⟨c1, c2, c3, c4⟩ := h2
  have e1 : k * (s1 ++ s2).length = k * s1.length + k * s2.length := by
    rw [List.length_append]; ring
  have e2 : 8 * (b1 ++ b2).length = 8 * b1.length + 8 * b2.length := by
    rw [List.length_append]; ring
  refine ⟨by omega, by omega, ?_, ?_⟩
  · intro s hs
    rcases List.mem_append.1 hs with h | h
    · exact a3 s h
    · exact c3 s h
  · rw [symsVal_append, bytesVal_append, e1, e2, a4, c4]
    have : k * s1.length - 8 * b1.length = 0 := by omega
    rw [this, pow_zero, Nat.mul_one]
    have : k * s1.length + k * s2.length - (8 * b1.length + 8 * b2.length) =
      k * s2.length - 8 * b2.length := by omega
    rw [this, pow256, Nat.add_mul, Nat.mul_assoc, ← pow_add]
    have : 8 * b2.length + (k * s2.length - 8 * b2.length) = k * s2.length := by omega
    rw [this]

/-- Whole groups decode independently of what follows. -/
theorem Decodes.append {k : Nat} {b1 b2 : List Byte} {s1 s2 : List Nat}
    (h1 : Decodes k s1 b1) (hx : k * s1.length = 8 * b1.length) (h2 : Decodes k s2 b2) :
    Decodes k (s1 ++ s2) (b1 ++ b2) := by
  obtain ⟨a1, a4⟩ := h1
  obtain ⟨c1, c4⟩ := h2
  have e1 : k * (s1 ++ s2).length = k * s1.length + k * s2.length := by
    rw [List.length_append]; ring
  have e2 : 8 * (b1 ++ b2).length = 8 * b1.length + 8 * b2.length := by
    rw [List.length_append]; ring
  refine ⟨by rw [e1, List.length_append]; omega, ?_⟩
  rw [symsVal_append, bytesVal_append, e1, e2, a4, c4]
  have : k * s1.length - 8 * b1.length = 0 := by omega
  rw [this, pow_zero, Nat.div_one]
  have : k * s1.length + k * s2.length - (8 * b1.length + 8 * b2.length) =
    k * s2.length - 8 * b2.length := by omega
  rw [this, pow256]
  have h8 : 8 * b2.length + (k * s2.length - 8 * b2.length) = k * s2.length := by omega
  have hp : 0 < 2 ^ (k * s2.length - 8 * b2.length) := by positivity
  have e : 2 ^ (k * s2.length) = 2 ^ (8 * b2.length) * 2 ^ (k * s2.length - 8 * b2.length) := by
    rw [← pow_add, h8]
  rw [e, ← Nat.mul_assoc, Nat.add_comm (_ * _ * _), Nat.add_mul_div_right _ _ hp, Nat.add_comm]

/-- The bytes contained in an encoding are the encoded bytes. -/
theorem Encodes.decodes {k : Nat} (hk : k ≤ 8) {bs : List Byte} {ss : List Nat} (h : Encodes k bs ss) :
    Decodes k ss bs := by
  obtain ⟨a1, a2, -, a4⟩ := h
  refine ⟨by omega, ?_⟩
  rw [a4, Nat.mul_div_cancel _ (by positivity)]

theorem Decodes.unique {k : Nat} {ss : List Nat} {b1 b2 : List Byte}
    (h1 : Decodes k ss b1) (h2 : Decodes k ss b2) : b1 = b2 := by
  obtain ⟨a1, a2⟩ := h1
  obtain ⟨c1, c2⟩ := h2
  have hl : b1.length = b2.length := by omega
  apply bytesVal_inj hl
  rw [a2, c2, hl]

theorem Encodes.length_unique {k : Nat} {bs : List Byte} {s1 s2 : List Nat}
    (h1 : Encodes k bs s1) (h2 : Encodes k bs s2) : s1.length = s2.length := by
  obtain ⟨a1, a2, -, -⟩ := h1
  obtain ⟨c1, c2, -, -⟩ := h2
  by_contra hne
  rcases Nat.lt_or_gt_of_ne hne with h | h
  · have : k * (s1.length + 1) ≤ k * s2.length := Nat.mul_le_mul_left k h
    rw [Nat.mul_add] at this; omega
  · have : k * (s2.length + 1) ≤ k * s1.length := Nat.mul_le_mul_left k h
    rw [Nat.mul_add] at this; omega

/-- There is only one encoding. -/
theorem Encodes.unique {k : Nat} {bs : List Byte} {s1 s2 : List Nat}
    (h1 : Encodes k bs s1) (h2 : Encodes k bs s2) : s1 = s2 := by
  have hl := h1.length_unique h2
  refine positional_inj (2 ^ k) s1 s2 hl h1.2.2.1 h2.2.2.1 ?_
  have a := h1.2.2.2
  have b := h2.2.2.2
  rw [hl, ← b] at a
  exact a

/-! ## Words -/

theorem or_add (a b i : Nat) (hb : b < 2 ^ i) : a * 2 ^ i ||| b = a * 2 ^ i + b := by
  have := Nat.shiftLeft_add_eq_or_of_lt hb a
  rw [Nat.shiftLeft_eq] at this
  exact this.symm

theorem and_mask (x n : Nat) : x &&& (2 ^ n - 1) = x % 2 ^ n := Nat.and_two_pow_sub_one_eq_mod x n

end C3.Codec
