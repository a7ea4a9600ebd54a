import Verif.Bits.Model
import Verif.Bits.Spec

/-! # The bits kept in a word -/

set_option autoImplicit false

namespace C3.Bits

theorem msb_length (n v : Nat) : (msb n v).length = n := by simp [msb]

theorem msb_get (n v i : Nat) (h : i < (msb n v).length) : (msb n v)[i] = v.testBit (n - 1 - i) := by
  simp [msb]

theorem msb_congr (n v v' : Nat) (h : ∀ i, i < n → v.testBit i = v'.testBit i) :
    msb n v = msb n v' := by
  apply List.ext_getElem
  · simp [msb]
  · intro i h1 h2
    have : i < n := by simpa [msb] using h1
    rw [msb_get, msb_get, h _ (by omega)]

theorem msb_succ (n v : Nat) : msb (n + 1) v = msb n (v / 2) ++ [v.testBit 0] := by
  apply List.ext_getElem
  · simp [msb]
  · intro i h1 h2
    have hi : i < n + 1 := by simpa [msb] using h1
    rw [msb_get]
    by_cases h : i < n
    · rw [List.getElem_append_left (by simpa [msb] using h), msb_get, Nat.testBit_div_two]
      congr 1
      omega
    · rw [List.getElem_append_right (by simp [msb]; omega)]
      have : i = n := by omega
      subst this
      simp [msb]

/-- High bits, then low bits. -/
theorem msb_split (p q v : Nat) : msb (p + q) v = msb p (v >>> q) ++ msb q v := by
  apply List.ext_getElem
  · simp [msb]
  · intro i h1 h2
    have hi : i < p + q := by simpa [msb] using h1
    rw [msb_get]
    by_cases h : i < p
    · rw [List.getElem_append_left (by simpa [msb] using h), msb_get, Nat.testBit_shiftRight]
      congr 1
      omega
    · rw [List.getElem_append_right (by simp [msb]; omega), msb_get]
      congr 1
      simp only [msb_length]
      omega

theorem num_snoc (l : List Bool) (b : Bool) : num (l ++ [b]) = 2 * num l + (if b then 1 else 0) := by
  simp [num]

theorem num_msb (n v : Nat) : num (msb n v) = v % 2 ^ n := by
  induction n generalizing v with
  | zero => simp [msb, num, Nat.mod_one]
  | succ n ih =>
    rw [msb_succ, num_snoc, ih, Nat.testBit_zero, Nat.pow_succ, Nat.mul_comm (2 ^ n) 2,
      Nat.mod_mul]
    have : v % 2 = 0 ∨ v % 2 = 1 := by omega
    rcases this with h | h <;> simp [h] <;> omega

/-! ## Words -/

theorem mask_some (n : Nat) (h : n < 32) : ∃ m : BitVec 32, mask n = some m ∧
    (∀ i, m.getLsbD i = decide (i < n)) ∧ m.toNat = 2 ^ n - 1 := by
  have key : ∀ i, ((1 : BitVec 32) <<< n - 1).getLsbD i = decide (i < n) ∧
      ((1 : BitVec 32) <<< n - 1).toNat = 2 ^ n - 1 := by
    intro i
    have hp : 2 ^ n < 2 ^ 32 := Nat.pow_lt_pow_right (by decide) h
    have hpos : 0 < 2 ^ n := Nat.two_pow_pos n
    have e : ((1 : BitVec 32) <<< n - 1).toNat = 2 ^ n - 1 := by
      rw [BitVec.toNat_sub, BitVec.toNat_shiftLeft]
      have e1 : (1 : BitVec 32).toNat = 1 := rfl
      rw [e1, Nat.shiftLeft_eq, Nat.one_mul, Nat.mod_eq_of_lt hp]
      omega
    have : ((1 : BitVec 32) <<< n - 1).getLsbD i = (2 ^ n - 1).testBit i := by
      rw [← BitVec.testBit_toNat, e]
    rw [this, Nat.testBit_two_pow_sub_one]
    exact ⟨rfl, e⟩
  refine ⟨(1 : BitVec 32) <<< n - 1, ?_, fun i => (key i).1, (key 0).2⟩
  simp only [mask, shl, if_pos h, Option.bind_eq_bind, Option.bind_some]

/-- The bits of a word that count. -/
theorem word_get {w : Nat} (x : BitVec w) (i : Nat) : x.toNat.testBit i = x.getLsbD i := by
  rw [BitVec.testBit_toNat]

theorem push_bits (b v m : BitVec 32) (len p q : Nat) (hp : len + p ≤ 32)
    (hm : ∀ i, m.getLsbD i = decide (i < p)) :
    msb (len + p) ((b <<< p) ||| ((v >>> q) &&& m)).toNat =
      msb len b.toNat ++ msb p (v.toNat >>> q) := by
  rw [msb_split]
  congr 1
  · apply msb_congr
    intro i hi
    rw [Nat.testBit_shiftRight, word_get, word_get, BitVec.getLsbD_or, BitVec.getLsbD_and, hm,
      BitVec.getLsbD_shiftLeft]
    have h1 : p + i < 32 := by omega
    have h2 : ¬ (p + i < p) := by omega
    have h3 : p + i - p = i := by omega
    simp [h1, h2, h3]
  · apply msb_congr
    intro i hi
    rw [Nat.testBit_shiftRight, word_get, word_get, BitVec.getLsbD_or, BitVec.getLsbD_and, hm,
      BitVec.getLsbD_shiftLeft, BitVec.getLsbD_ushiftRight]
    simp [hi]

theorem bytesBE_bits (x : BitVec 32) : bitsOf (bytesBE x) = msb 32 x.toNat := by
  have hb : ∀ (k : Nat), msb 8 ((x >>> k).truncate 8 : BitVec 8).toNat = msb 8 (x.toNat >>> k) := by
    intro k
    apply msb_congr
    intro i hi
    rw [word_get, Nat.testBit_shiftRight, word_get, BitVec.getLsbD_setWidth,
      BitVec.getLsbD_ushiftRight]
    simp [hi]
  have h0 : msb 8 (x.truncate 8 : BitVec 8).toNat = msb 8 x.toNat := by
    apply msb_congr
    intro i hi
    rw [word_get, word_get, BitVec.getLsbD_setWidth]
    simp [hi]
  rw [msb_split 8 24, msb_split 8 16, msb_split 8 8]
  simp only [bitsOf, bytesBE, List.flatMap_cons, List.flatMap_nil, hb, h0, List.append_nil]

theorem bitsOf_take (l : List Byte) (n : Nat) : bitsOf (l.take n) = (bitsOf l).take (8 * n) := by
  induction l generalizing n with
  | nil => simp [bitsOf]
  | cons b l ih =>
    cases n with
    | zero => simp [bitsOf]
    | succ n =>
      have := ih n
      simp only [bitsOf, List.take_succ_cons, List.flatMap_cons] at this ⊢
      rw [this, List.take_append, msb_length, List.take_of_length_le (l := msb 8 _) (by simp [msb]; omega)]
      congr 2

theorem bitsOf_append (a b : List Byte) : bitsOf (a ++ b) = bitsOf a ++ bitsOf b := by
  simp [bitsOf]

theorem bitsOf_length (a : List Byte) : (bitsOf a).length = 8 * a.length := by
  induction a with
  | nil => rfl
  | cons b a ih =>
    have : bitsOf (b :: a) = msb 8 b.toNat ++ bitsOf a := by simp [bitsOf]
    rw [this, List.length_append, msb_length, ih, List.length_cons]; omega

/-- What `flush` writes: the bits that count and zeros to the end of the byte. -/
theorem flush_bits (b : BitVec 32) (len : Nat) (h0 : 0 < len) (h : len ≤ 32) :
    bitsOf ((bytesBE (b <<< (32 - len))).take ((len + 7) / 8)) =
      msb len b.toNat ++ List.replicate (8 * ((len + 7) / 8) - len) false := by
  rw [bitsOf_take, bytesBE_bits]
  apply List.ext_getElem
  · simp [msb]; omega
  · intro i h1 h2
    have hi : i < 8 * ((len + 7) / 8) := by simp [msb] at h1; omega
    have hi2 : i < 32 := by omega
    rw [List.getElem_take, msb_get, word_get, BitVec.getLsbD_shiftLeft]
    by_cases hl : i < len
    · rw [List.getElem_append_left (by simpa [msb] using hl), msb_get, word_get]
      have e1 : 31 - i < 32 := by omega
      have e2 : ¬ (31 - i < 32 - len) := by omega
      have e3 : 31 - i - (32 - len) = len - 1 - i := by omega
      simp [e1, e2, e3]
    · rw [List.getElem_append_right (by simpa [msb] using hl), List.getElem_replicate]
      have e2 : 31 - i < 32 - len := by omega
      simp [e2]

/-! ## The writer -/

/-- Everything written, in bytes or kept. -/
def Writer.all (w : Writer) : List Bool := bitsOf w.out ++ msb w.len w.bits.toNat

theorem flush_spec (w : Writer) (h : w.len ≤ 24) : ∃ w', w.flush = some w' ∧ w'.len = 0 ∧
    bitsOf w'.out = w.all ++ List.replicate (8 * ((w.len + 7) / 8) - w.len) false := by
  by_cases h0 : w.len = 0
  · refine ⟨w, by simp [Writer.flush, h0], h0, ?_⟩
    simp [Writer.all, h0, msb]
  · refine ⟨{ w with out := w.out ++ (bytesBE (w.bits <<< (32 - w.len))).take ((w.len + 7) / 8), len := 0 },
      ?_, rfl, ?_⟩
    · have h1 : ¬ (w.len > 32) := by omega
      have h2 : 32 - w.len < 32 := by omega
      simp only [Writer.flush, if_neg h0, if_neg h1, shl, if_pos h2, Option.bind_eq_bind,
        Option.bind_some]
    · dsimp only
      rw [bitsOf_append, flush_bits w.bits w.len (by omega) (by omega), Writer.all, List.append_assoc]

theorem push_spec (w : Writer) (v : BitVec 32) (n : Nat) (h : w.len ≤ 24) (hn : n ≤ 32)
    (hb : ¬ (w.len = 24 ∧ n = 32)) :
    ∃ w', w.push v n = some w' ∧ w'.len = 0 ∧
      bitsOf w'.out = w.all ++ msb (24 - w.len) (v.toNat >>> (n - (24 - w.len))) := by
  obtain ⟨m, hm, hm2, _⟩ := mask_some (24 - w.len) (by omega)
  have e := push_bits w.bits v m w.len (24 - w.len) (n - (24 - w.len)) (by omega) hm2
  obtain ⟨w', h1, h2, h3⟩ := flush_spec
    { w with bits := (w.bits <<< (24 - w.len)) ||| ((v >>> (n - (24 - w.len))) &&& m),
             len := w.len + (24 - w.len) } (by dsimp only; omega)
  refine ⟨w', ?_, h2, ?_⟩
  · have a1 : n - (24 - w.len) < 32 := by omega
    have a2 : 24 - w.len < 32 := by omega
    simp only [Writer.push, shr, shl, if_pos a1, if_pos a2, hm, Option.bind_eq_bind,
      Option.bind_some, h1]
  · rw [h3]
    have a3 : 8 * ((w.len + (24 - w.len) + 7) / 8) - (w.len + (24 - w.len)) = 0 := by omega
    simp only [Writer.all, a3, e, List.replicate_zero, List.append_nil, List.append_assoc]

theorem push_fail (w : Writer) (v : BitVec 32) (h : w.len = 24) : w.push v 32 = none := by
  simp [Writer.push, h, shr]

theorem loop_spec (v : BitVec 32) : ∀ (fuel : Nat) (w : Writer) (n : Nat), w.len ≤ 24 → n ≤ 32 →
    ¬ (w.len = 24 ∧ n = 32) → w.len + n ≤ 24 * (fuel + 1) →
    ∃ r, Writer.loop v (fuel + 1) w n = some r ∧ r.1.len + r.2 ≤ 24 ∧
      r.1.all ++ msb r.2 v.toNat = w.all ++ msb n v.toNat := by
  intro fuel
  induction fuel with
  | zero =>
    intro w n _ _ _ hf
    refine ⟨(w, n), ?_, by dsimp only; omega, rfl⟩
    rw [Writer.loop, if_neg (by omega)]
  | succ fuel ih =>
    intro w n h1 h2 h3 h4
    by_cases hl : 24 < w.len + n
    · obtain ⟨w', e1, e2, e3⟩ := push_spec w v n h1 h2 h3
      obtain ⟨r, r1, r2, r3⟩ := ih w' (n - (24 - w.len)) (by omega) (by omega) (by omega) (by omega)
      refine ⟨r, ?_, r2, ?_⟩
      · rw [Writer.loop, if_pos hl, e1]
        exact r1
      · rw [r3, Writer.all, e3, e2]
        have hs := msb_split (24 - w.len) (n - (24 - w.len)) v.toNat
        have : 24 - w.len + (n - (24 - w.len)) = n := by omega
        rw [this] at hs
        rw [hs]
        simp [msb]
    · refine ⟨(w, n), ?_, by dsimp only; omega, rfl⟩
      rw [Writer.loop, if_neg hl]

theorem write_spec (w : Writer) (v : BitVec 32) (n : Nat) (h : w.len ≤ 24) (hn : n ≤ 32)
    (hb : ¬ (w.len = 24 ∧ n = 32)) :
    ∃ w', w.write v n = some w' ∧ w'.len ≤ 24 ∧ w'.all = w.all ++ msb n v.toNat := by
  by_cases h0 : n = 0
  · refine ⟨w, by simp [Writer.write, h0], h, by simp [h0, msb]⟩
  · obtain ⟨r, r1, r2, r3⟩ := loop_spec v 2 w n h hn hb (by omega)
    have hw : w.write v n = r.1.rest v r.2 := by
      rw [Writer.write, if_neg (by omega), if_neg h0, r1]
      rfl
    by_cases z : r.2 = 0
    · refine ⟨r.1, ?_, by omega, ?_⟩
      · rw [hw, Writer.rest, if_pos z]
      · rw [← r3, z]; simp [msb]
    · obtain ⟨m, hm, hm2, _⟩ := mask_some r.2 (by omega)
      have e := push_bits r.1.bits v m r.1.len r.2 0 (by omega) hm2
      refine ⟨{ r.1 with bits := (r.1.bits <<< r.2) ||| (v &&& m), len := r.1.len + r.2 }, ?_,
        by dsimp only; omega, ?_⟩
      · have a1 : r.2 < 32 := by omega
        rw [hw, Writer.rest, if_neg z]
        simp only [shl, if_pos a1, hm, Option.bind_eq_bind, Option.bind_some]
      · rw [← r3]
        simp only [Writer.all]
        rw [BitVec.ushiftRight_zero, Nat.shiftRight_zero] at e
        rw [e, List.append_assoc]

theorem write_fail (w : Writer) (v : BitVec 32) (h : w.len = 24) : w.write v 32 = none := by
  rw [Writer.write, if_neg (by omega), if_neg (by omega), Writer.loop, if_pos (by omega),
    push_fail w v h]
  rfl

/-! ## The reader -/

/-- The bits not yet read. -/
def Reader.all (r : Reader) : List Bool := msb r.len r.bits.toNat ++ bitsOf r.input

theorem take_spec (r : Reader) (n : Nat) (hn : n ≤ 8) (hl : n ≤ r.len) (h32 : r.len - n < 32) :
    ∃ b : Byte, r.take n = some ({ r with len := r.len - n }, some b) ∧
      b.toNat = num (r.all.take n) ∧ Reader.all { r with len := r.len - n } = r.all.drop n := by
  obtain ⟨m, hm, _, hm3⟩ := mask_some n (by omega)
  have hs := msb_split n (r.len - n) r.bits.toNat
  have e : n + (r.len - n) = r.len := by omega
  rw [e] at hs
  refine ⟨((r.bits >>> (r.len - n)) &&& m).truncate 8, ?_, ?_, ?_⟩
  · simp only [Reader.take, hm, shr, if_pos h32, Option.bind_eq_bind, Option.bind_some]
  · have ht : r.all.take n = msb n (r.bits.toNat >>> (r.len - n)) := by
      rw [Reader.all, hs, List.append_assoc]
      exact List.take_left' (msb_length _ _)
    rw [ht, num_msb, BitVec.toNat_setWidth, BitVec.toNat_and, hm3, Nat.and_two_pow_sub_one_eq_mod,
      BitVec.toNat_ushiftRight]
    apply Nat.mod_eq_of_lt
    refine Nat.lt_of_lt_of_le (Nat.mod_lt _ (Nat.two_pow_pos n)) ?_
    exact Nat.pow_le_pow_right (by decide) hn
  · have hd : r.all.drop n = msb (r.len - n) r.bits.toNat ++ bitsOf r.input := by
      rw [Reader.all, hs, List.append_assoc]
      exact List.drop_left' (msb_length _ _)
    rw [hd]
    rfl

theorem next_bits (b : BitVec 32) (c : Byte) (len : Nat) (h : len + 8 ≤ 32) :
    msb (len + 8) ((b <<< 8) ||| c.zeroExtend 32).toNat = msb len b.toNat ++ msb 8 c.toNat := by
  rw [msb_split]
  congr 1
  · apply msb_congr
    intro i hi
    rw [Nat.testBit_shiftRight, word_get, word_get, BitVec.getLsbD_or, BitVec.getLsbD_shiftLeft,
      BitVec.getLsbD_setWidth]
    have h1 : 8 + i < 32 := by omega
    have h3 : 8 + i - 8 = i := by omega
    simp [h1, h3]
  · apply msb_congr
    intro i hi
    rw [word_get, word_get, BitVec.getLsbD_or, BitVec.getLsbD_shiftLeft, BitVec.getLsbD_setWidth]
    have h1 : i < 32 := by omega
    simp [hi, h1]

theorem read_spec (r : Reader) (n : Nat) (hr : r.len ≤ 7) (hn : n ≤ 8) :
    (n ≤ r.all.length → ∃ r' b, r.read n = some (r', some b) ∧ r'.len ≤ 7 ∧
      b.toNat = num (r.all.take n) ∧ r'.all = r.all.drop n ∧ r'.input <:+ r.input) ∧
    (r.all.length < n → r.read n = some (r, none)) := by
  have h0 : ¬ (8 < n ∨ 32 < r.len + n) := by omega
  have hlen : r.all.length = r.len + 8 * r.input.length := by
    rw [Reader.all, List.length_append, msb_length, bitsOf_length]
  by_cases hl : r.len < n
  · cases hi : r.input with
    | nil =>
      rw [hi] at hlen
      simp only [List.length_nil] at hlen
      refine ⟨fun h => by omega, fun _ => ?_⟩
      rw [Reader.read, if_neg h0, if_pos hl, hi]
    | cons c l =>
      rw [hi] at hlen
      simp only [List.length_cons] at hlen
      refine ⟨fun _ => ?_, fun h => by omega⟩
      have hall : r.all = Reader.all
          { input := l, bits := (r.bits <<< 8) ||| c.zeroExtend 32, len := r.len + 8 } := by
        simp only [Reader.all]
        rw [next_bits _ _ _ (by omega), hi, List.append_assoc]
        rfl
      obtain ⟨b, e1, e2, e3⟩ := take_spec
        { input := l, bits := (r.bits <<< 8) ||| c.zeroExtend 32, len := r.len + 8 } n hn
        (by dsimp only; omega) (by dsimp only; omega)
      refine ⟨{ input := l, bits := (r.bits <<< 8) ||| c.zeroExtend 32, len := r.len + 8 - n }, b,
        ?_, ?_, ?_, ?_, ?_⟩
      · rw [Reader.read, if_neg h0, if_pos hl, hi]
        exact e1
      · dsimp only; omega
      · rw [hall]; exact e2
      · rw [hall]; exact e3
      · exact ⟨[c], rfl⟩
  · refine ⟨fun _ => ?_, fun h => by omega⟩
    obtain ⟨b, e1, e2, e3⟩ := take_spec r n hn (by omega) (by omega)
    refine ⟨{ r with len := r.len - n }, b, ?_, ?_, e2, e3, ⟨[], rfl⟩⟩
    · rw [Reader.read, if_neg h0, if_neg hl, e1]
    · dsimp only; omega

end C3.Bits
