import Verif.Inet.LemmasText
import Verif.Fmt.Props
/-
Helper lemmas: printing addresses, and the numbers of addresses.
-/
set_option autoImplicit false

namespace C3.Inet
open C3.Fmt (Byte ch)
open C3.Fmt (numeral_eq low_step low_small tableChar)
open C3.Fmt.Std (numeral Item Dir zeros val)
open Std

theorem numeral_one (base : Nat) (hb : 1 < base) (n : Nat) (h : n < base) : numeral base false n = [tableChar false n] := by
  rw [numeral_eq, low_small base hb false n h]; rfl

theorem numeral_more (base : Nat) (hb : 1 < base) (n : Nat) (h : base ≤ n) :
    numeral base false n = numeral base false (n / base) ++ [tableChar false (n % base)] := by
  rw [numeral_eq, numeral_eq, low_step base hb false n h, List.reverse_cons]

theorem numeral_value (digit : Byte → Option Nat) (base : Nat) (hb : 1 < base)
    (hd : ∀ d, d < base → digit (tableChar false d) = some d) (n : Nat) :
    numeral base false n ≠ [] ∧ AllDigits digit (numeral base false n) ∧ value digit base (numeral base false n) = n := by
  induction n using Nat.strongRecOn with
  | _ n ih =>
    by_cases h : n < base
    · rw [numeral_one base hb n h]
      have := hd n h
      refine ⟨by simp, ?_, ?_⟩
      · intro c hc
        rw [List.mem_singleton] at hc
        rw [hc, this]; simp
      · simp [value, this]
    · have hm : n % base < base := Nat.mod_lt _ (by omega)
      obtain ⟨h1, h2, h3⟩ := ih (n / base) (Nat.div_lt_self (by omega) hb)
      have := hd _ hm
      rw [numeral_more base hb n (by omega)]
      refine ⟨by simp, ?_, ?_⟩
      · intro c hc
        rcases List.mem_append.1 hc with hc | hc
        · exact h2 c hc
        · rw [List.mem_singleton] at hc
          rw [hc, this]; simp
      · rw [value_snoc, h3, this]
        exact Nat.div_add_mod' n base

theorem numeral_length (base : Nat) (hb : 1 < base) : ∀ (k n : Nat), n < base ^ (k + 1) → (numeral base false n).length ≤ k + 1 := by
  intro k
  induction k with
  | zero =>
    intro n h
    rw [numeral_one base hb n (by simpa using h)]; simp
  | succ k ih =>
    intro n h
    by_cases hn : n < base
    · rw [numeral_one base hb n hn]; simp
    · rw [numeral_more base hb n (by omega)]
      have : n / base < base ^ (k + 1) := by
        rw [Nat.div_lt_iff_lt_mul (by omega)]
        rw [Nat.pow_succ] at h; exact h
      have := ih _ this
      simp; omega

theorem dec_table : ∀ d, d < 10 → decDigit (tableChar false d) = some d := by decide +kernel
theorem hex_table : ∀ d, d < 16 → hexDigit (tableChar false d) = some d := by decide +kernel

theorem octet_numeral (x : Byte) : Octet (numeral 10 false x.toNat) x ∧ (numeral 10 false x.toNat).length ≤ 9 := by
  obtain ⟨h1, h2, h3⟩ := numeral_value decDigit 10 (by decide) dec_table x.toNat
  refine ⟨⟨h1, h2, h3⟩, ?_⟩
  have := numeral_length 10 (by decide) 2 x.toNat (by have := x.isLt; omega)
  omega

/-- Four hexadecimal digits. -/
def four (v : BitVec 16) : List Byte := zeros (4 - (numeral 16 false v.toNat).length) ++ numeral 16 false v.toNat

theorem value_zeros (k : Nat) (s : List Byte) : value hexDigit 16 (zeros k ++ s) = value hexDigit 16 s := by
  induction k with
  | zero => rfl
  | succ k ih =>
    rw [zeros, List.replicate_succ]
    show value hexDigit 16 (zeros k ++ s) = _
    exact ih

theorem four_group (v : BitVec 16) : Group 4 (four v) v := by
  obtain ⟨h1, h2, h3⟩ := numeral_value hexDigit 16 (by decide) hex_table v.toNat
  have hl := numeral_length 16 (by decide) 3 v.toNat (by have := v.isLt; omega)
  refine ⟨by simp [four, h1], by simp [four, zeros]; omega, ?_, by rw [four, value_zeros, h3]⟩
  intro c hc
  rcases List.mem_append.1 hc with hc | hc
  · rw [zeros, List.mem_replicate] at hc
    rw [hc.2]; decide
  · exact h2 c hc

theorem Std.Group.mono {n m : Nat} (h : n ≤ m) {s : List Byte} {v : BitVec 16} (hg : Group n s v) : Group m s v :=
  ⟨hg.1, Nat.le_trans hg.2.1 h, hg.2.2⟩

theorem Std.Groups.mono {n m : Nat} (h : n ≤ m) {s : List Byte} {vs : List (BitVec 16)} (hg : Groups n s vs) :
    Groups m s vs := by
  induction hg with
  | one s v hg => exact .one s v (hg.mono h)
  | more s t v vs hg _ ih => exact .more s t v vs (hg.mono h) ih

theorem Std.Groups0.mono {n m : Nat} (h : n ≤ m) {s : List Byte} {vs : List (BitVec 16)} (hg : Groups0 n s vs) :
    Groups0 m s vs := by
  rcases hg with hg | hg
  · exact Or.inl hg
  · exact Or.inr (hg.mono h)

theorem Std.Text6.mono {n m k : Nat} (h : n ≤ m) {s : List Byte} {vs : List (BitVec 16)} (hg : Text6 n k s vs) :
    Text6 m k s vs := by
  cases hg with
  | full _ _ hg h8 => exact .full _ _ (hg.mono h) h8
  | short p q vs ws z hp hq hz h8 => exact .short p q vs ws z (hp.mono h) (hq.mono h) hz h8

/-! ### Printing -/

def plainDir : Dir := ⟨[], 0, none⟩
def fourDir : Dir := ⟨[.zero], 4, none⟩

theorem plain_out (x : Byte) : (Item.int plainDir .d false 8 x).out = numeral 10 false x.toNat := by
  have h : ¬ ((x.toNat : Int) < 0) := by omega
  simp [Item.out, plainDir, Dir.int, Dir.digits, Dir.sign, Dir.pre, Dir.field, val, zeros,
    C3.Fmt.Std.spaces, C3.Fmt.Std.Conv.base, C3.Fmt.Std.Conv.upper, h]

theorem four_out (v : BitVec 16) : (Item.int fourDir .x false 16 v).out = four v := by
  have h : ¬ ((v.toNat : Int) < 0) := by omega
  simp [Item.out, fourDir, Dir.int, Dir.digits, Dir.sign, Dir.pre, val, zeros,
    C3.Fmt.Std.Conv.base, C3.Fmt.Std.Conv.upper, h, four]

theorem plain_good (x : Byte) : (Item.int plainDir .d false 8 x).Good :=
  ⟨⟨by decide, by intro p hp; cases hp⟩, by decide,
    ⟨by decide, (by intro h; exact absurd h (by decide)), (by intro p h; exact absurd h (by decide)),
      (by intro h; exact absurd h (by decide)), (by intro _ h; cases h)⟩⟩

theorem four_good (v : BitVec 16) : (Item.int fourDir .x false 16 v).Good :=
  ⟨⟨by decide, by intro p hp; cases hp⟩, by decide,
    ⟨by decide, (by intro _; decide), (by intro p h; exact absurd h (by decide)),
      (by intro h; exact absurd h (by decide)), (by intro _ h; cases h)⟩⟩

theorem plain_text (x : Byte) : (Item.int plainDir .d false 8 x).text = [ch '%', ch 'd'] := rfl

theorem four_text (v : BitVec 16) : (Item.int fourDir .x false 16 v).text = [ch '%', ch '0', ch '4', ch 'x'] := by
  have : numeral 10 false 4 = [ch '4'] := C3.Fmt.numeral_small 4 (by decide)
  simp [Item.text, Dir.text, fourDir, this, C3.Fmt.Std.Flag.char, C3.Fmt.Std.Conv.char]

theorem print4 (a b c d : Byte) :
    to_format ⟨false, List.replicate 12 0 ++ [a, b, c, d]⟩ = .ok (
      numeral 10 false a.toNat ++ ch '.' :: (numeral 10 false b.toNat ++ ch '.' :: (numeral 10 false c.toNat ++
        ch '.' :: numeral 10 false d.toNat)),
      (numeral 10 false a.toNat ++ ch '.' :: (numeral 10 false b.toNat ++ ch '.' :: (numeral 10 false c.toNat ++
        ch '.' :: numeral 10 false d.toNat))).length) := by
  have := C3.Fmt.C118_count_partial [.int plainDir .d false 8 a, .lit (ch '.'), .int plainDir .d false 8 b, .lit (ch '.'),
    .int plainDir .d false 8 c, .lit (ch '.'), .int plainDir .d false 8 d]
    (by
      intro i hi
      simp only [List.mem_cons, List.not_mem_nil, or_false] at hi
      rcases hi with rfl | rfl | rfl | rfl | rfl | rfl | rfl
      · exact plain_good a
      · show ch '.' ≠ ch '%'; decide
      · exact plain_good b
      · show ch '.' ≠ ch '%'; decide
      · exact plain_good c
      · show ch '.' ≠ ch '%'; decide
      · exact plain_good d)
    (by
      intro i hi
      simp only [List.mem_cons, List.not_mem_nil, or_false] at hi
      rcases hi with rfl | rfl | rfl | rfl | rfl | rfl | rfl
      all_goals first | rfl | trivial)
  simp only [List.flatMap_cons, List.flatMap_nil, plain_out, plain_text, List.append_nil] at this
  simp only [to_format]
  exact this

theorem word_enc (vs : List (BitVec 16)) (i : Nat) : word (enc vs) i = vs.getD i 0 := by
  have split : ∀ v : BitVec 16, v.extractLsb' 8 8 ++ v.extractLsb' 0 8 = v := by
    intro v
    have := BitVec.extractLsb'_append_extractLsb'_eq_extractLsb' (x := v) (start₁ := 0) (len₁ := 8) (start₂ := 8) (len₂ := 8) (by rfl)
    rw [this]
    exact BitVec.extractLsb'_eq_self
  induction vs generalizing i with
  | nil => simp [word, enc]
  | cons v r ih =>
    cases i with
    | zero =>
      have e : enc (v :: r) = v.extractLsb' 8 8 :: v.extractLsb' 0 8 :: enc r := by simp [enc]
      simp only [word, e, List.getD_cons_zero, Nat.mul_zero, Nat.zero_add, List.getD_cons_succ]
      exact split v
    | succ i =>
      have e : enc (v :: r) = v.extractLsb' 8 8 :: v.extractLsb' 0 8 :: enc r := by simp [enc]
      rw [List.getD_cons_succ, ← ih]
      unfold word
      rw [e, show 2 * (i + 1) = 2 * i + 1 + 1 by omega, show 2 * i + 1 + 1 + 1 = (2 * i + 1) + 1 + 1 by omega]
      simp only [List.getD_cons_succ]

theorem print6 (v0 v1 v2 v3 v4 v5 v6 v7 : BitVec 16) :
    ∃ n, to_format ⟨true, enc [v0, v1, v2, v3, v4, v5, v6, v7]⟩ = .ok (four v0 ++ ch ':' :: (four v1 ++ ch ':' :: (four v2 ++
      ch ':' :: (four v3 ++ ch ':' :: (four v4 ++ ch ':' :: (four v5 ++ ch ':' :: (four v6 ++ ch ':' :: four v7)))))), n) := by
  have := C3.Fmt.C122_pieces [.int fourDir .x false 16 v0, .lit (ch ':'), .int fourDir .x false 16 v1, .lit (ch ':'),
    .int fourDir .x false 16 v2, .lit (ch ':'), .int fourDir .x false 16 v3, .lit (ch ':'),
    .int fourDir .x false 16 v4, .lit (ch ':'), .int fourDir .x false 16 v5, .lit (ch ':'),
    .int fourDir .x false 16 v6, .lit (ch ':'), .int fourDir .x false 16 v7]
    (by
      intro i hi
      simp only [List.mem_cons, List.not_mem_nil, or_false] at hi
      rcases hi with rfl | rfl | rfl | rfl | rfl | rfl | rfl | rfl | rfl | rfl | rfl | rfl | rfl | rfl | rfl
      all_goals first | exact four_good _ | (show ch ':' ≠ ch '%'; decide)) []
  obtain ⟨n, hn⟩ := this
  refine ⟨n, ?_⟩
  simp only [List.flatMap_cons, List.flatMap_nil, four_out, four_text, List.append_nil] at hn
  simp only [to_format, word_enc, if_true]
  exact hn

/-! ### Numbers of addresses -/

theorem beNat_foldl (b : List Byte) : ∀ n, b.foldl (fun n x => n * 256 + x.toNat) n = n * 256 ^ b.length + beNat b := by
  induction b with
  | nil => intro n; simp [beNat]
  | cons x r ih =>
    intro n
    have h0 : beNat (x :: r) = x.toNat * 256 ^ r.length + beNat r := by
      have := ih (0 * 256 + x.toNat)
      rw [Nat.zero_mul, Nat.zero_add] at this
      unfold beNat
      rw [List.foldl_cons, Nat.zero_mul, Nat.zero_add]
      exact this
    rw [List.foldl_cons, ih, h0, List.length_cons, Nat.pow_succ, Nat.add_mul, Nat.mul_assoc, Nat.mul_comm 256]
    omega

theorem beNat_cons (x : Byte) (r : List Byte) : beNat (x :: r) = x.toNat * 256 ^ r.length + beNat r := by
  have := beNat_foldl r x.toNat
  unfold beNat
  rw [List.foldl_cons, Nat.zero_mul, Nat.zero_add]
  exact this

theorem beNat_lt (b : List Byte) : beNat b < 256 ^ b.length := by
  induction b with
  | nil => simp [beNat]
  | cons x r ih =>
    rw [beNat_cons, List.length_cons, Nat.pow_succ]
    have := x.isLt
    have h2 : x.toNat * 256 ^ r.length ≤ 255 * 256 ^ r.length := Nat.mul_le_mul_right _ (by omega)
    omega

/-- The last four bytes of an address. -/
theorem last4 (a : InetAddress) (h : a.bytes.length = 16) :
    ip4 a = (oct a 0).toNat * 16777216 + (oct a 1).toNat * 65536 + (oct a 2).toNat * 256 + (oct a 3).toNat := by
  obtain ⟨f, b⟩ := a
  match b, h with
  | [_, _, _, _, _, _, _, _, _, _, _, _, x, y, z, w], _ =>
    simp [ip4, oct, beNat]
    omega

theorem first2 (a : InetAddress) (h : a.bytes.length = 16) :
    ip6 a / 2 ^ 112 = (word a.bytes 0).toNat := by
  obtain ⟨f, b⟩ := a
  match b, h with
  | x :: y :: r, h =>
    have hr : r.length = 14 := by simpa using h
    have hb := beNat_lt r
    rw [hr] at hb
    have e : ip6 ⟨f, x :: y :: r⟩ = x.toNat * 256 ^ 15 + (y.toNat * 256 ^ 14 + beNat r) := by
      rw [ip6, beNat_cons, beNat_cons, List.length_cons, hr]
    have hw : (word (x :: y :: r) 0).toNat = x.toNat * 256 + y.toNat := by
      have hy := y.isLt
      simp only [word, Nat.mul_zero, List.getD_cons_zero, Nat.zero_add, List.getD_cons_succ, BitVec.toNat_append]
      rw [Nat.shiftLeft_eq, Nat.mul_comm x.toNat, ← Nat.two_pow_add_eq_or_of_lt hy]
    show ip6 ⟨f, x :: y :: r⟩ / 2 ^ 112 = (word (x :: y :: r) 0).toNat
    rw [e, hw]
    omega

theorem and_high (x : BitVec 32) : ((x &&& 0xf0000000#32) == 0xe0000000#32) = decide (x.toNat / 2 ^ 28 = 14) := by
  have hm : ∀ k : Fin 32, (0xf0000000#32).getLsbD k.1 = decide (28 ≤ k.1) := by decide +kernel
  have e : x &&& 0xf0000000#32 = (x >>> 28) <<< 28 := by
    apply BitVec.eq_of_getLsbD_eq
    intro k hk
    rw [BitVec.getLsbD_and, hm ⟨k, hk⟩, BitVec.getLsbD_shiftLeft, BitVec.getLsbD_ushiftRight]
    by_cases h : 28 ≤ k
    · have : ¬ k < 28 := by omega
      simp [h, hk, this]
    · have : k < 28 := by omega
      simp [h, this]
  rw [e]
  have hx := x.isLt
  have ht : ((x >>> 28) <<< 28).toNat = x.toNat / 2 ^ 28 * 2 ^ 28 := by
    rw [BitVec.toNat_shiftLeft, BitVec.toNat_ushiftRight, Nat.shiftLeft_eq, Nat.shiftRight_eq_div_pow]
    omega
  by_cases h : x.toNat / 2 ^ 28 = 14
  · have : (x >>> 28) <<< 28 = 0xe0000000#32 := by
      apply BitVec.eq_of_toNat_eq; rw [ht, h]; rfl
    rw [this, decide_eq_true h]; rfl
  · have : (x >>> 28) <<< 28 ≠ 0xe0000000#32 := by
      intro hh
      have := congrArg BitVec.toNat hh
      rw [ht] at this
      have e2 : (0xe0000000#32).toNat = 14 * 2 ^ 28 := rfl
      rw [e2] at this
      omega
    rw [decide_eq_false h]
    simpa using this

end C3.Inet
