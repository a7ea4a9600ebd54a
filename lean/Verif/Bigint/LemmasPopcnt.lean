import Verif.Bigint.LemmasBits

/-! Helper lemmas: `popcnt64`. -/

namespace C3.Bigint

theorem testBit_byte (b N i : Nat) (hb : b < 256) :
    (b + 256 * N).testBit i = if i < 8 then b.testBit i else N.testBit (i - 8) := by
  have := Nat.testBit_two_pow_mul_add N (show b < 2 ^ 8 from hb) i
  rw [Nat.add_comm]; exact this

/-- A masked shift acts byte by byte if the mask drops the bits that cross a byte border. -/
theorem byte_step (b N m M s : Nat) (hb : b < 256) (hs : s ≤ 8) (hm : m < 2 ^ (8 - s)) :
    (b + 256 * N) / 2 ^ s &&& (m + 256 * M) =
      (b / 2 ^ s &&& m) + 256 * (N / 2 ^ s &&& M) := by
  have hm256 : m < 256 := lt_of_lt_of_le hm (by
    have : 2 ^ (8 - s) ≤ 2 ^ 8 := Nat.pow_le_pow_right (by omega) (by omega)
    omega)
  have hbm : (b / 2 ^ s &&& m) < 256 := lt_of_le_of_lt Nat.and_le_right hm256
  apply Nat.eq_of_testBit_eq
  intro i
  rw [Nat.testBit_and, testBit_byte _ _ _ hm256, testBit_byte _ _ _ hbm, Nat.testBit_div_two_pow,
    testBit_byte _ _ _ hb]
  by_cases h1 : i < 8
  · by_cases h2 : i + s < 8
    · rw [if_pos h2, if_pos h1, if_pos h1, Nat.testBit_and, Nat.testBit_div_two_pow]
    · have : m.testBit i = false := by
        apply Nat.testBit_lt_two_pow
        exact lt_of_lt_of_le hm (Nat.pow_le_pow_right (by omega) (by omega))
      rw [if_pos h1, if_pos h1, Nat.testBit_and, this]; simp
  · rw [if_neg h1, if_neg h1, if_neg (by omega), Nat.testBit_and, Nat.testBit_div_two_pow]
    congr 2; omega

theorem bitCount_byte (b N w : Nat) (hb : b < 256) :
    bitCount (8 + w) (b + 256 * N) = bitCount 8 b + bitCount w N := by
  unfold bitCount
  rw [List.range_add, List.countP_append, List.countP_map]
  congr 1
  · apply List.countP_congr
    intro i hi
    rw [List.mem_range] at hi
    rw [testBit_byte _ _ _ hb, if_pos hi]
  · apply List.countP_congr
    intro i _
    simp only [Function.comp]
    rw [testBit_byte _ _ _ hb, if_neg (by omega)]
    congr! 2; omega

/-- First and second step of the byte-wise computation. -/
def pc1 (b : Nat) : Nat := b / 2 &&& 0x55
def pc2 (b : Nat) : Nat := ((b - pc1 b) &&& 0x33) + ((b - pc1 b) / 4 &&& 0x33)

theorem pc_table : ∀ b < 256, pc1 b ≤ b ∧ pc2 b / 16 ≤ 4 ∧ pc2 b % 16 ≤ 4 ∧
    pc2 b / 16 + pc2 b % 16 = bitCount 8 b ∧ pc2 b < 256 ∧
    ((b - pc1 b) &&& 0x33) + ((b - pc1 b) / 4 &&& 0x33) = pc2 b := by
  decide +kernel

/-- Little endian bytes. -/
def ofBytes : List Nat → Nat
  | [] => 0
  | b :: l => b + 256 * ofBytes l

theorem ofBytes_lt (l : List Nat) (h : ∀ b ∈ l, b < 256) : ofBytes l < 256 ^ l.length := by
  induction l with
  | nil => simp [ofBytes]
  | cons b l ih =>
    have h1 := h b (by simp)
    have h2 := ih (fun x hx => h x (by simp [hx]))
    simp only [ofBytes, List.length_cons, Nat.pow_succ]
    omega

theorem toBytes (k n : Nat) (h : n < 256 ^ k) :
    ∃ l : List Nat, l.length = k ∧ (∀ b ∈ l, b < 256) ∧ n = ofBytes l := by
  induction k generalizing n with
  | zero => exact ⟨[], rfl, by simp, by simp [ofBytes] at *; omega⟩
  | succ k ih =>
    obtain ⟨l, h1, h2, h3⟩ := ih (n / 256) (by rw [Nat.pow_succ] at h; omega)
    refine ⟨n % 256 :: l, by simp [h1], ?_, ?_⟩
    · intro b hb
      rcases List.mem_cons.1 hb with rfl | hb
      · exact Nat.mod_lt _ (by omega)
      · exact h2 b hb
    · simp only [ofBytes, ← h3]; omega

theorem bytes_mask (l : List Nat) (h : ∀ b ∈ l, b < 256) (m s : Nat) (hs : s ≤ 8)
    (hm : m < 2 ^ (8 - s)) :
    ofBytes l / 2 ^ s &&& ofBytes (List.replicate l.length m) =
      ofBytes (l.map fun b => b / 2 ^ s &&& m) := by
  induction l with
  | nil => simp [ofBytes]
  | cons b l ih =>
    simp only [ofBytes, List.length_cons, List.replicate_succ, List.map_cons]
    rw [byte_step _ _ _ _ s (h b (by simp)) hs hm, ih (fun x hx => h x (by simp [hx]))]

theorem bytes_add (l : List Nat) (f g : Nat → Nat) :
    ofBytes (l.map f) + ofBytes (l.map g) = ofBytes (l.map fun b => f b + g b) := by
  induction l with
  | nil => simp [ofBytes]
  | cons b l ih => simp only [ofBytes, List.map_cons]; omega

theorem bytes_sub (l : List Nat) (f : Nat → Nat) (h : ∀ b ∈ l, f b ≤ b) :
    ofBytes (l.map f) ≤ ofBytes l ∧
    ofBytes l - ofBytes (l.map f) = ofBytes (l.map fun b => b - f b) := by
  induction l with
  | nil => simp [ofBytes]
  | cons b l ih =>
    have := h b (by simp)
    have := ih (fun x hx => h x (by simp [hx]))
    simp only [ofBytes, List.map_cons]; omega

theorem bytes_fold (l : List Nat) (h : ∀ d ∈ l, d < 256 ∧ d / 16 ≤ 4 ∧ d % 16 ≤ 4) :
    (ofBytes l + ofBytes l / 16) &&& ofBytes (List.replicate l.length 15) =
      ofBytes (l.map fun d => d / 16 + d % 16) := by
  induction l with
  | nil => simp [ofBytes]
  | cons d l ih =>
    have hd := h d (by simp)
    have ih := ih (fun x hx => h x (by simp [hx]))
    have hN : ofBytes l % 16 ≤ 4 := by
      cases l with
      | nil => simp [ofBytes]
      | cons e l =>
        have := h e (by simp)
        simp only [ofBytes]; omega
    simp only [ofBytes, List.length_cons, List.replicate_succ, List.map_cons]
    have e : d + 256 * ofBytes l + (d + 256 * ofBytes l) / 16 =
      (d + d / 16 + 16 * (ofBytes l % 16)) + 256 * (ofBytes l + ofBytes l / 16) := by omega
    have := byte_step (d + d / 16 + 16 * (ofBytes l % 16)) (ofBytes l + ofBytes l / 16) 15
      (ofBytes (List.replicate l.length 15)) 0 (by omega) (by omega) (by omega)
    simp only [Nat.pow_zero, Nat.div_one] at this
    rw [e, this, ih]
    have m15 : ∀ x, x &&& 15 = x % 16 := fun x => Nat.and_two_pow_sub_one_eq_mod x 4
    rw [m15]; omega

theorem bytes_count (l : List Nat) (h : ∀ b ∈ l, b < 256) :
    bitCount (8 * l.length) (ofBytes l) = (l.map (bitCount 8)).sum := by
  induction l with
  | nil => rfl
  | cons b l ih =>
    rw [List.length_cons, show 8 * (l.length + 1) = 8 + 8 * l.length by omega]
    simp only [ofBytes, List.map_cons, List.sum_cons]
    rw [bitCount_byte _ _ _ (h b (by simp)), ih (fun x hx => h x (by simp [hx]))]

theorem bytes_mulsum (l : List Nat) (hl : l.length = 8) (h : ∀ b ∈ l, b ≤ 8) :
    ofBytes l * 0x0101010101010101 % 2 ^ 64 / 2 ^ 56 = l.sum := by
  match l, hl with
  | [a, b, c, d, e, f, g, i], _ =>
    simp only [List.mem_cons, List.not_mem_nil, or_false, forall_eq_or_imp, forall_eq] at h
    simp only [ofBytes, List.sum_cons, List.sum_nil]
    have hP : (a + 256 * (b + 256 * (c + 256 * (d + 256 * (e + 256 * (f + 256 * (g + 256 *
        (i + 256 * 0)))))))) * 0x0101010101010101 =
        ((a) * 1 + (a + b) * 256 + (a + b + c) * 65536 + (a + b + c + d) * 16777216 + (a + b + c + d + e) * 4294967296 + (a + b + c + d + e + f) * 1099511627776 + (a + b + c + d + e + f + g) * 281474976710656) +
        2 ^ 56 * (a + b + c + d + e + f + g + i) +
        2 ^ 64 * (b * 1 + c * 257 + d * 65793 + e * 16843009 + f * 4311810305 + g * 1103823438081 + i * 282578800148737) := by ring
    have hL : ((a) * 1 + (a + b) * 256 + (a + b + c) * 65536 + (a + b + c + d) * 16777216 + (a + b + c + d + e) * 4294967296 + (a + b + c + d + e + f) * 1099511627776 + (a + b + c + d + e + f + g) * 281474976710656) < 2 ^ 56 := by
      omega
    rw [hP]
    generalize ((a) * 1 + (a + b) * 256 + (a + b + c) * 65536 + (a + b + c + d) * 16777216 + (a + b + c + d + e) * 4294967296 + (a + b + c + d + e + f) * 1099511627776 + (a + b + c + d + e + f + g) * 281474976710656) = X at *
    generalize (b * 1 + c * 257 + d * 65793 + e * 16843009 + f * 4311810305 + g * 1103823438081 + i * 282578800148737) = H at *
    clear hP
    omega

theorem map_congr' {l : List Nat} {f g : Nat → Nat} (h : ∀ b ∈ l, f b = g b) : l.map f = l.map g :=
  List.map_congr_left h

theorem popcnt64_spec (n : BitVec 64) : (popcnt64 n).toNat = bitCount 64 n.toNat := by
  obtain ⟨l, hl, hb, hn⟩ := toBytes 8 n.toNat (by have := n.isLt; omega)
  have hcount := bytes_count l hb
  rw [hl, ← hn] at hcount
  rw [hcount]
  unfold popcnt64
  simp only
  have hrep : ∀ m, ofBytes (List.replicate l.length m) = ofBytes (List.replicate 8 m) := by
    intro m; rw [hl]
  -- step 1
  have e1 : ((n >>> 1) &&& 0x5555555555555555#64).toNat = ofBytes (l.map pc1) := by
    rw [BitVec.toNat_and, BitVec.toNat_ushiftRight, Nat.shiftRight_eq_div_pow, hn]
    have := bytes_mask l hb 0x55 1 (by decide) (by decide)
    rw [hrep] at this
    exact this
  have s1 := bytes_sub l pc1 (fun b hm => (pc_table b (hb b hm)).1)
  obtain ⟨n1, hn1⟩ : ∃ n1, n1 = n - ((n >>> 1) &&& 0x5555555555555555#64) := ⟨_, rfl⟩
  have v1 : n1.toNat = ofBytes (l.map fun b => b - pc1 b) := by
    rw [hn1, BitVec.toNat_sub, e1, ← s1.2]
    have := n.isLt
    omega
  rw [← hn1]
  clear hn1 e1
  -- step 2
  have hb1 : ∀ b ∈ l.map (fun b => b - pc1 b), b < 256 := by
    intro b hm
    obtain ⟨a, ha, rfl⟩ := List.mem_map.1 hm
    have := hb a ha
    omega
  have e2 : (n1 &&& 0x3333333333333333#64).toNat =
      ofBytes (l.map fun b => (b - pc1 b) &&& 0x33) := by
    rw [BitVec.toNat_and, v1]
    have := bytes_mask _ hb1 0x33 0 (by decide) (by decide)
    rw [List.length_map, hrep, List.map_map] at this
    simp only [Nat.pow_zero, Nat.div_one] at this
    exact this
  have e3 : ((n1 >>> 2) &&& 0x3333333333333333#64).toNat =
      ofBytes (l.map fun b => (b - pc1 b) / 4 &&& 0x33) := by
    rw [BitVec.toNat_and, BitVec.toNat_ushiftRight, Nat.shiftRight_eq_div_pow, v1]
    have := bytes_mask _ hb1 0x33 2 (by decide) (by decide)
    rw [List.length_map, hrep, List.map_map] at this
    exact this
  have hb2 : ∀ d ∈ l.map pc2, d < 256 ∧ d / 16 ≤ 4 ∧ d % 16 ≤ 4 := by
    intro b hm
    obtain ⟨a, ha, rfl⟩ := List.mem_map.1 hm
    obtain ⟨_, h1, h2, _, h3, _⟩ := pc_table a (hb a ha)
    exact ⟨h3, h1, h2⟩
  obtain ⟨n2, hn2⟩ : ∃ n2, n2 = (n1 &&& 0x3333333333333333#64) +
    ((n1 >>> 2) &&& 0x3333333333333333#64) := ⟨_, rfl⟩
  have lt2 : ofBytes (l.map pc2) < 2 ^ 64 := by
    have := ofBytes_lt (l.map pc2) (fun d hd => (hb2 d hd).1)
    rw [List.length_map, hl] at this
    exact this
  have v2 : n2.toNat = ofBytes (l.map pc2) := by
    rw [hn2, BitVec.toNat_add, e2, e3, bytes_add]
    exact Nat.mod_eq_of_lt lt2
  rw [← hn2]
  clear hn2 e2 e3 v1
  -- step 3
  have hN : ofBytes (l.map pc2) + ofBytes (l.map pc2) / 16 < 2 ^ 64 := by
    have : ∀ k : List Nat, k.length = 8 → (∀ d ∈ k, d < 256 ∧ d / 16 ≤ 4 ∧ d % 16 ≤ 4) →
        ofBytes k + ofBytes k / 16 < 2 ^ 64 := by
      intro k hk h
      match k, hk with
      | [a, b, c, d, e, f, g, i], _ =>
        have h1 := h i (by simp)
        have h2 := ofBytes_lt [a, b, c, d, e, f, g] (fun x hx => (h x (by
          simp at hx ⊢; tauto)).1)
        simp only [ofBytes, List.length_cons, List.length_nil] at h2 ⊢
        omega
    exact this _ (by simp [hl]) hb2
  have e4 : ((n2 + (n2 >>> 4)) &&& 0x0F0F0F0F0F0F0F0F#64).toNat =
      ofBytes (l.map (bitCount 8)) := by
    have hf := bytes_fold _ hb2
    rw [List.length_map, hrep, List.map_map] at hf
    have hc : l.map ((fun d => d / 16 + d % 16) ∘ pc2) = l.map (bitCount 8) :=
      map_congr' fun b hm => (pc_table b (hb b hm)).2.2.2.1
    rw [hc] at hf
    rw [BitVec.toNat_and, BitVec.toNat_add, BitVec.toNat_ushiftRight, Nat.shiftRight_eq_div_pow, v2,
      Nat.mod_eq_of_lt hN]
    exact hf
  rw [BitVec.toNat_setWidth, BitVec.toNat_ushiftRight, Nat.shiftRight_eq_div_pow,
    BitVec.toNat_mul, e4]
  have hk : (0x0101010101010101#64).toNat = 0x0101010101010101 := rfl
  have h8 : ∀ b ∈ l.map (bitCount 8), b ≤ 8 := by
    intro b hm
    obtain ⟨a, ha, rfl⟩ := List.mem_map.1 hm
    unfold bitCount; exact (List.countP_le_length).trans (by simp)
  have hs := bytes_mulsum (l.map (bitCount 8)) (by simp [hl]) h8
  rw [hk, hs]
  apply Nat.mod_eq_of_lt
  have : ofBytes (l.map (bitCount 8)) * 0x0101010101010101 % 2 ^ 64 < 2 ^ 64 :=
    Nat.mod_lt _ (by decide)
  rw [← hs]
  omega

theorem popcnt_spec (a : Int128) : (i128_popcnt a).toNat = bitCount 128 a.u := by
  unfold i128_popcnt
  have hb : ∀ n, bitCount 64 n ≤ 64 := fun n => by
    unfold bitCount; exact (List.countP_le_length).trans (by simp)
  rw [BitVec.toNat_add, popcnt64_spec, popcnt64_spec]
  have h1 := hb a.high.toNat
  have h2 := hb a.low.toNat
  have : bitCount 128 a.u = bitCount 64 a.low.toNat + bitCount 64 a.high.toNat := by
    have hx : a.u = 2 ^ 64 * a.high.toNat + a.low.toNat := by unfold Int128.u; omega
    rw [hx]
    unfold bitCount
    rw [show 128 = 64 + 64 by rfl, List.range_add, List.countP_append, List.countP_map]
    congr 1
    · apply List.countP_congr
      intro i hi
      rw [List.mem_range] at hi
      rw [Nat.testBit_two_pow_mul_add _ a.low.isLt, if_pos hi]
    · apply List.countP_congr
      intro i _
      simp only [Function.comp]
      rw [Nat.testBit_two_pow_mul_add _ a.low.isLt, if_neg (by omega)]
      congr! 2; omega
  omega

end C3.Bigint
