import Verif.Checksum.Model

/-! # Adler-32 and FNV-1a -/

set_option autoImplicit false

namespace C3.Checksum

/-- The sum of the bytes. -/
def byteSum (data : List Byte) : Nat := (data.map BitVec.toNat).sum

/-- The sum of the bytes, each as often as there are bytes from it to the end. -/
def byteMoment : List Byte → Nat
  | [] => 0
  | x :: l => (l.length + 1) * x.toNat + byteMoment l

theorem stepAdler_toNat (s : BitVec 32 × BitVec 32) (x : Byte) (h1 : s.1.toNat < 65521)
    (h2 : s.2.toNat < 65521) :
    (stepAdler s x).1.toNat = (s.1.toNat + x.toNat) % 65521 ∧
    (stepAdler s x).2.toNat = (s.2.toNat + (s.1.toNat + x.toNat) % 65521) % 65521 := by
  have hx := x.isLt
  have h : ((s.1 + x.zeroExtend 32) % 65521).toNat = (s.1.toNat + x.toNat) % 65521 := by
    rw [BitVec.toNat_umod, BitVec.toNat_add, BitVec.toNat_setWidth,
      Nat.mod_eq_of_lt (a := x.toNat) (by omega),
      Nat.mod_eq_of_lt (a := s.1.toNat + x.toNat) (by omega)]
    rfl
  refine ⟨h, ?_⟩
  have hm := Nat.mod_lt (s.1.toNat + x.toNat) (y := 65521) (by decide)
  show ((s.2 + (s.1 + x.zeroExtend 32) % 65521) % 65521).toNat = _
  rw [BitVec.toNat_umod, BitVec.toNat_add, h,
    Nat.mod_eq_of_lt (a := s.2.toNat + (s.1.toNat + x.toNat) % 65521) (b := 2 ^ 32) (by omega)]
  rfl

theorem adler_fold (data : List Byte) : ∀ (s : BitVec 32 × BitVec 32), s.1.toNat < 65521 →
    s.2.toNat < 65521 →
    (data.foldl stepAdler s).1.toNat = (s.1.toNat + byteSum data) % 65521 ∧
    (data.foldl stepAdler s).2.toNat =
      (s.2.toNat + data.length * s.1.toNat + byteMoment data) % 65521 := by
  induction data with
  | nil =>
    intro s h1 h2
    simp [byteSum, byteMoment, Nat.mod_eq_of_lt h1, Nat.mod_eq_of_lt h2]
  | cons x l ih =>
    intro s h1 h2
    obtain ⟨e1, e2⟩ := stepAdler_toNat s x h1 h2
    have l1 : (stepAdler s x).1.toNat < 65521 := by rw [e1]; exact Nat.mod_lt _ (by decide)
    have l2 : (stepAdler s x).2.toNat < 65521 := by rw [e2]; exact Nat.mod_lt _ (by decide)
    obtain ⟨i1, i2⟩ := ih (stepAdler s x) l1 l2
    rw [List.foldl_cons, i1, i2, e1, e2]
    constructor
    · simp only [byteSum, List.map_cons, List.sum_cons]
      omega
    · simp only [byteMoment, List.length_cons]
      have key : ∀ a b n m : Nat, ((b + a % 65521) % 65521 + n * (a % 65521) + m) % 65521 =
          (b + a + n * a + m) % 65521 := by
        intro a b n m
        have h3 : (n * (a % 65521)) % 65521 = (n * a) % 65521 := by
          rw [Nat.mul_mod, Nat.mod_mod, ← Nat.mul_mod]
        omega
      rw [key]
      congr 1
      simp only [Nat.mul_add, Nat.add_mul, Nat.one_mul]
      omega

theorem adler_word (a b : BitVec 32) (h1 : a.toNat < 65521) (h2 : b.toNat < 65521) :
    ((b <<< 16) ||| a).toNat = b.toNat * 65536 + a.toNat := by
  rw [BitVec.toNat_or, BitVec.toNat_shiftLeft, Nat.shiftLeft_eq]
  rw [Nat.mod_eq_of_lt (by omega)]
  have := Nat.two_pow_add_eq_or_of_lt (i := 16) (b := a.toNat) (by omega) b.toNat
  rw [Nat.mul_comm] at this
  exact this.symm

theorem byteSum_append (a b : List Byte) : byteSum (a ++ b) = byteSum a + byteSum b := by
  simp [byteSum]

/-! ## FNV-1a -/

theorem mul_inj32 (a b : BitVec 32) (h : a * 0x01000193 = b * 0x01000193) : a = b := by
  have h2 := congrArg (· * (0x359c449b : BitVec 32)) h
  simp only [BitVec.mul_assoc] at h2
  have e : (0x01000193 : BitVec 32) * 0x359c449b = 1 := by decide
  rw [e] at h2
  simpa using h2

theorem mul_inj64 (a b : BitVec 64) (h : a * 0x00000100000001b3 = b * 0x00000100000001b3) : a = b := by
  have h2 := congrArg (· * (0xce965057aff6957b : BitVec 64)) h
  simp only [BitVec.mul_assoc] at h2
  have e : (0x00000100000001b3 : BitVec 64) * 0xce965057aff6957b = 1 := by decide
  rw [e] at h2
  simpa using h2

theorem xor_inj {w : Nat} (a b c : BitVec w) (h : a ^^^ c = b ^^^ c) : a = b := by
  have := congrArg (· ^^^ c) h
  simpa [BitVec.xor_assoc] using this

theorem xor_inj' {w : Nat} (a b c : BitVec w) (h : c ^^^ a = c ^^^ b) : a = b := by
  rw [BitVec.xor_comm c a, BitVec.xor_comm c b] at h
  exact xor_inj a b c h

theorem ext_inj {w : Nat} (hw : 8 ≤ w) (x y : Byte) (h : x.zeroExtend w = y.zeroExtend w) : x = y := by
  have := congrArg BitVec.toNat h
  have hx := x.isLt
  have hy := y.isLt
  have hp : 2 ^ 8 ≤ 2 ^ w := Nat.pow_le_pow_right (by decide) hw
  rw [BitVec.toNat_setWidth,
    BitVec.toNat_setWidth, Nat.mod_eq_of_lt (by omega), Nat.mod_eq_of_lt (by omega)] at this
  exact BitVec.eq_of_toNat_eq this

theorem stepFnv32_state (g h : BitVec 32) (x : Byte) (e : stepFnv32 g x = stepFnv32 h x) : g = h :=
  xor_inj _ _ _ (mul_inj32 _ _ e)

theorem stepFnv32_byte (h : BitVec 32) (x y : Byte) (e : stepFnv32 h x = stepFnv32 h y) : x = y :=
  ext_inj (by decide) _ _ (xor_inj' _ _ _ (mul_inj32 _ _ e))

theorem stepFnv64_state (g h : BitVec 64) (x : Byte) (e : stepFnv64 g x = stepFnv64 h x) : g = h :=
  xor_inj _ _ _ (mul_inj64 _ _ e)

theorem stepFnv64_byte (h : BitVec 64) (x y : Byte) (e : stepFnv64 h x = stepFnv64 h y) : x = y :=
  ext_inj (by decide) _ _ (xor_inj' _ _ _ (mul_inj64 _ _ e))

theorem fold_inj {σ : Type} (f : σ → Byte → σ) (hf : ∀ g h x, f g x = f h x → g = h)
    (l : List Byte) : ∀ (g h : σ), l.foldl f g = l.foldl f h → g = h := by
  induction l with
  | nil => intro g h e; exact e
  | cons x l ih => intro g h e; exact hf _ _ _ (ih _ _ e)

end C3.Checksum
