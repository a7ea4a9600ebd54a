import Verif.Hash.LemmasFips256

/-! # C96, C97: SHA-256 -/

set_option autoImplicit false

namespace C3.Hash.Sha256

/-! ## C96: `sha256::hash` is SHA-256 -/

/-- The constants are those of the standard: roots of the first primes. -/
theorem C96_constants : Fips.primes.length = 64 ∧
    (∀ t < 64, Fips.IsRootBits 3 (Fips.primes.getD t 0) (K.getD t 0)) ∧
    (∀ x ∈ [iv.a, iv.b, iv.c, iv.d, iv.e, iv.f, iv.g, iv.h].zip Fips.primes,
      Fips.IsRootBits 2 x.2 x.1) := by
  refine ⟨primes_length, ?_, ?_⟩
  · intro t ht
    exact cbrtBits_spec _ _ (List.all_eq_true.1 K_check t (by simpa using ht))
  · intro x hx
    exact sqrtBits_spec _ _ (List.all_eq_true.1 iv_check x hx)

example : K.getD 63 0 = 0xc67178f2 ∧ Fips.primes.getD 63 0 = 311 := by decide +kernel

/-- `sha256_transform` is the compression function of the standard, for every state and block. -/
theorem C96_compress (s : Vars) (b : List Byte) :
    (transform s b).toHash = Fips.compress (fun t => K.getD t 0) s.toHash b := transform_eq s b

/-- The hash of data is what the standard says. -/
def C96_full : Prop := ∀ data : List Byte, data.length ≤ 0xFFFFFFFF →
  hash data = some (Fips.sha256 (fun t => K.getD t 0) iv.toHash data)

/-- So it is for data of less than 2 ^ 29 bytes.  (Missing: longer data, see `C97_fails`; it is not
shown that their hash differs, only that the blocks do.) -/
theorem C96_hash_partial (data : List Byte) (h : data.length < 2 ^ 29) :
    hash data = some (Fips.sha256 (fun t => K.getD t 0) iv.toHash data) := by
  have hl : ∀ d ∈ [data], d.length ≤ 0xFFFFFFFF := by simp; omega
  have hc : counted [data] 0 = 8 * data.length := by
    have := counted_eq [data] 0 (by simpa using h) (by simp; omega)
    simpa using this
  rw [hash, hashPieces_eq transform iv [data] hl, hc, Option.map_some, digest_eq,
    run_map transform _ Vars.toHash transform_eq _ iv _ (Nat.le_refl _)]
  simp only [List.flatten_cons, List.flatten_nil, List.append_nil]
  rfl

-- "abc" of the standard
example : hash [0x61, 0x62, 0x63] = some [
    0xba, 0x78, 0x16, 0xbf, 0x8f, 0x01, 0xcf, 0xea, 0x41, 0x41, 0x40, 0xde, 0x5d, 0xae, 0x22, 0x23,
    0xb0, 0x03, 0x61, 0xa3, 0x96, 0x17, 0x7a, 0x9c, 0xb4, 0x10, 0xff, 0x61, 0xf2, 0x00, 0x15, 0xad] := by
  decide +kernel

/-! ## C97: pieces -/

/-- However the data are cut into pieces, the blocks given to the compression function are the data,
a one, zeros and the count of bits: which is made of the length of each piece in bits, modulo 2 ^ 32.
No index is out of bounds. -/
theorem C97_as_built {σ : Type} (f : σ → List Byte → σ) (iv : σ) (ds : List (List Byte))
    (hd : ∀ d ∈ ds, d.length ≤ 0xFFFFFFFF) :
    hashPieces f iv ds = some (run f iv (ds.flatten ++ padding ds.flatten.length (be 8
      (ds.foldl (fun n d => (n + d.length * 8 % 2 ^ 32) % 2 ^ 64) 0)))) :=
  hashPieces_eq f iv ds hd

/-- The blocks are those of the standard, for any compression function. -/
def C97_full : Prop := ∀ (σ : Type) (f : σ → List Byte → σ) (iv : σ) (ds : List (List Byte)),
  (∀ d ∈ ds, d.length ≤ 0xFFFFFFFF) → 8 * ds.flatten.length < 2 ^ 64 →
  hashPieces f iv ds = some (hashed f iv (be 8) ds.flatten)

/-- So they are if each piece has less than 2 ^ 29 bytes.  (Missing: longer pieces.) -/
theorem C97_pieces_partial {σ : Type} (f : σ → List Byte → σ) (iv : σ) (ds : List (List Byte))
    (hd : ∀ d ∈ ds, d.length < 2 ^ 29) (hl : 8 * ds.flatten.length < 2 ^ 64) :
    hashPieces f iv ds = some (hashed f iv (be 8) ds.flatten) := by
  rw [hashPieces_eq f iv ds (fun d h => by have := hd d h; omega),
    counted_eq ds 0 hd (by omega), hashed, Nat.zero_add]

example : hashPieces transform iv [[0x61], [], [0x62, 0x63]] = hashPieces transform iv [[0x61, 0x62, 0x63]] := by
  rw [C97_pieces_partial _ _ _ (by decide) (by decide), C97_pieces_partial _ _ _ (by decide) (by decide)]
  rfl

/-- The compression function that keeps all blocks. -/
def keep (s b : List Byte) : List Byte := s ++ b

theorem run_keep (n : Nat) : ∀ (s m : List Byte), m.length = 64 * n → run keep s m = s ++ m := by
  induction n with
  | zero =>
    intro s m h
    have : m = [] := List.length_eq_zero_iff.1 (by omega)
    subst this
    rw [run_short _ _ _ (by simp)]; simp
  | succ n ih =>
    intro s m h
    rw [run, dif_neg (by omega), ih _ _ (by simp; omega), keep]
    simp

theorem padded_length (m : List Byte) (c : List Byte) (hc : c.length = 8) :
    ∃ k, (m ++ padding m.length c).length = 64 * k := by
  refine ⟨(m.length + 1 + (119 - m.length % 64) % 64 + 8) / 64, ?_⟩
  simp only [padding, List.length_append, List.length_cons, List.length_replicate, hc]
  omega

/-- Data of 2 ^ 29 bytes in one piece get the count of no data: the blocks are not those of the same
data in two pieces, which get the right count. -/
theorem C97_long_piece (a b : List Byte) (ha : a.length = 2 ^ 28) (hb : b.length = 2 ^ 28) :
    hashPieces keep [] [a ++ b] = some (a ++ b ++ padding (2 ^ 29) (be 8 0)) ∧
    hashPieces keep [] [a, b] = some (a ++ b ++ padding (2 ^ 29) (be 8 (2 ^ 32))) ∧
    be 8 0 ≠ be 8 (2 ^ 32) := by
  have hl : (a ++ b).length = 2 ^ 29 := by rw [List.length_append, ha, hb]
  have hf : [a ++ b].flatten = a ++ b := by simp
  have hf2 : [a, b].flatten = a ++ b := by simp
  refine ⟨?_, ?_, by decide +kernel⟩
  · rw [C97_as_built keep [] [a ++ b] (by simp; omega)]
    have hc : [a ++ b].foldl (fun n d => (n + d.length * 8 % 2 ^ 32) % 2 ^ 64) 0 = 0 := by
      simp only [List.foldl_cons, List.foldl_nil, hl]
    rw [hc, hf]
    obtain ⟨k, hk⟩ := padded_length (a ++ b) (be 8 0) (by simp [be])
    rw [run_keep k _ _ hk, hl]; simp
  · rw [C97_pieces_partial keep [] [a, b] (by simp; omega) (by rw [hf2, hl]; omega), hashed, hf2]
    obtain ⟨k, hk⟩ := padded_length (a ++ b) (be 8 (8 * (a ++ b).length)) (by simp [be])
    rw [run_keep k _ _ hk, hl]; simp

theorem C97_fails : ¬ C97_full := by
  intro h
  obtain ⟨a, ha⟩ : ∃ a : List Byte, a.length = 2 ^ 28 := ⟨List.replicate _ 0, List.length_replicate⟩
  obtain ⟨h1, h2, h3⟩ := C97_long_piece a a ha ha
  have hl : (a ++ a).length = 2 ^ 29 := by rw [List.length_append, ha]
  have hf : [a ++ a].flatten = a ++ a := by simp
  have hf2 : [a, a].flatten = a ++ a := by simp
  have e1 := h _ keep [] [a ++ a] (by simp only [List.mem_singleton, forall_eq, hl]; omega)
    (by rw [hf, hl]; omega)
  have ham : ∀ d ∈ [a, a], d.length ≤ 0xFFFFFFFF := by
    intro d hd
    simp only [List.mem_cons, List.not_mem_nil, or_false, or_self] at hd
    rw [hd, ha]; omega
  have e2 := h _ keep [] [a, a] ham (by rw [hf2, hl]; omega)
  rw [h1, hf] at e1
  rw [h2, hf2, ← e1] at e2
  simp only [Option.some.injEq] at e2
  have e3 := List.append_cancel_left e2
  simp only [padding, List.cons.injEq, true_and] at e3
  exact h3 (List.append_cancel_left e3).symm

end C3.Hash.Sha256
