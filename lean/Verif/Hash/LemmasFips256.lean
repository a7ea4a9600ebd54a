import Verif.Hash.SpecSha256
import Verif.Hash.LemmasBits
import Verif.Hash.LemmasSha256

set_option autoImplicit false

namespace C3.Hash.Sha256

theorem bigSigma0_eq (x : Word) : bigSigma0 x = Fips.Sigma0 x := by
  simp only [bigSigma0, Fips.Sigma0, rotr]
  rw [rotr_eq x 2 (by omega), rotr_eq x 13 (by omega), rotr_eq x 22 (by omega)]
theorem bigSigma1_eq (x : Word) : bigSigma1 x = Fips.Sigma1 x := by
  simp only [bigSigma1, Fips.Sigma1, rotr]
  rw [rotr_eq x 6 (by omega), rotr_eq x 11 (by omega), rotr_eq x 25 (by omega)]
theorem sigma0_eq (x : Word) : sigma0 x = Fips.sigma0 x := by
  simp only [sigma0, Fips.sigma0, rotr]
  rw [rotr_eq x 7 (by omega), rotr_eq x 18 (by omega)]
theorem sigma1_eq (x : Word) : sigma1 x = Fips.sigma1 x := by
  simp only [sigma1, Fips.sigma1, rotr]
  rw [rotr_eq x 17 (by omega), rotr_eq x 19 (by omega)]

theorem load_eq (b : List Byte) (n : Nat) (hn : n ≤ 16) :
    load b n = (List.range n).map (Fips.W b) := by
  induction n with
  | zero => rfl
  | succ n ih =>
    rw [load, ih (by omega), List.range_succ, List.map_append, List.map_singleton]
    congr 2
    rw [Fips.W, if_pos (by omega), Fips.word]
    simp only [byteAt, Nat.mul_comm n 4]
    exact word_eq _ _ _ _

theorem at_range (g : Nat → Word) (n i : Nat) (h : i < n) : at' ((List.range n).map g) i = g i := by
  simp [at', h]

theorem expand_eq (b : List Byte) (k : Nat) :
    expand (load b 16) k = (List.range (16 + k)).map (Fips.W b) := by
  induction k with
  | zero => rw [expand, load_eq b 16 (Nat.le_refl _)]
  | succ k ih =>
    rw [expand, ih]
    rw [at_range _ _ _ (by omega), at_range _ _ _ (by omega), at_range _ _ _ (by omega),
      at_range _ _ _ (by omega), ← Nat.add_assoc, List.range_succ, List.map_append, List.map_singleton]
    congr 2
    rw [Fips.W.eq_def b (16 + k), if_neg (by omega), sigma0_eq, sigma1_eq]

/-- The state as the standard has it. -/
def Vars.toHash (v : Vars) : Fips.Hash := ⟨v.a, v.b, v.c, v.d, v.e, v.f, v.g, v.h⟩

theorem rounds_eq (b : List Byte) (v : Vars) (n : Nat) (hn : n ≤ 64) :
    (rounds (expand (load b 16) 48) v n).toHash =
      (List.range n).foldl (Fips.round (fun t => K.getD t 0) b) v.toHash := by
  induction n with
  | zero => rfl
  | succ n ih =>
    rw [List.range_succ, List.foldl_append, ← ih (by omega), rounds]
    simp only [List.foldl_cons, List.foldl_nil]
    generalize rounds (expand (load b 16) 48) v n = w
    rw [step, Fips.round, expand_eq, at_range _ _ _ (by omega), bigSigma0_eq, bigSigma1_eq]
    rfl

theorem transform_eq (s : Vars) (b : List Byte) :
    (transform s b).toHash = Fips.compress (fun t => K.getD t 0) s.toHash b := by
  have h := rounds_eq b s 64 (Nat.le_refl _)
  rw [transform, Fips.compress, ← h]
  rfl

theorem digest_eq (s : Vars) : digest s = Fips.digest s.toHash := by
  have h : ∀ w, wordBytes w = Fips.bytes w := by
    intro w
    rw [wordBytes, Fips.bytes, ← byte_eq, ← byte_eq, ← byte_eq, ← byte_eq]
    simp
  simp only [digest, Fips.digest, h, Vars.toHash, List.flatMap_cons, List.flatMap_nil,
    List.append_assoc, List.append_nil]

/-- Two compression functions that agree, with states that correspond. -/
theorem run_map {σ τ : Type} (f : σ → List Byte → σ) (g : τ → List Byte → τ) (t : σ → τ)
    (h : ∀ s b, t (f s b) = g (t s) b) (n : Nat) : ∀ (s : σ) (m : List Byte), m.length ≤ n →
    t (run f s m) = run g (t s) m := by
  induction n with
  | zero => intro s m hm; rw [run_short f s m (by omega), run_short g _ m (by omega)]
  | succ n ih =>
    intro s m hm
    by_cases hl : m.length < 64
    · rw [run_short f s m hl, run_short g _ m hl]
    · rw [run.eq_def f, dif_neg hl, run.eq_def g, dif_neg hl, ih _ _ (by simp; omega), h]

/-- The words of `K` are the roots of the primes: the integer part of the cube root of `p < 343`
is found by search. -/
def cbrtBits (p : Nat) (w : Word) : Bool :=
  (List.range 7).any fun k =>
    let n := k * 2 ^ 32 + w.toNat
    n ^ 3 ≤ p * 2 ^ 96 && p * 2 ^ 96 < (n + 1) ^ 3

def sqrtBits (p : Nat) (w : Word) : Bool :=
  (List.range 7).any fun k =>
    let n := k * 2 ^ 32 + w.toNat
    n ^ 2 ≤ p * 2 ^ 64 && p * 2 ^ 64 < (n + 1) ^ 2

theorem ofNat_word (k : Nat) (w : Word) : w = BitVec.ofNat 32 (k * 2 ^ 32 + w.toNat) := by
  apply BitVec.eq_of_toNat_eq
  have := w.isLt
  simp; omega

theorem cbrtBits_spec (p : Nat) (w : Word) (h : cbrtBits p w = true) : Fips.IsRootBits 3 p w := by
  rw [cbrtBits, List.any_eq_true] at h
  obtain ⟨k, _, hk⟩ := h
  simp only [Bool.and_eq_true, decide_eq_true_eq] at hk
  exact ⟨k * 2 ^ 32 + w.toNat, hk.1, hk.2, ofNat_word k w⟩

theorem sqrtBits_spec (p : Nat) (w : Word) (h : sqrtBits p w = true) : Fips.IsRootBits 2 p w := by
  rw [sqrtBits, List.any_eq_true] at h
  obtain ⟨k, _, hk⟩ := h
  simp only [Bool.and_eq_true, decide_eq_true_eq] at hk
  exact ⟨k * 2 ^ 32 + w.toNat, hk.1, hk.2, ofNat_word k w⟩

theorem primes_length : Fips.primes.length = 64 := by decide +kernel

theorem K_check : (List.range 64).all
    (fun t => cbrtBits (Fips.primes.getD t 0) (K.getD t 0)) = true := by decide +kernel

theorem iv_check : ([iv.a, iv.b, iv.c, iv.d, iv.e, iv.f, iv.g, iv.h].zip Fips.primes).all
    (fun x => sqrtBits x.2 x.1) = true := by decide +kernel

end C3.Hash.Sha256
