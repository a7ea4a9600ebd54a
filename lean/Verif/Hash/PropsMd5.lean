import Verif.Hash.LemmasSine
import Verif.Hash.LemmasRfcMd5

/-! # C100, C101: MD5 -/

set_option autoImplicit false

namespace C3.Hash.Md5

/-! ## C100: `md5::hash` is MD5 -/

theorem sine_check : (List.range 64).all (fun i => Sine.ok (i + 1) (T i).toNat) = true := by
  decide +kernel

/-- The constants of the steps are those of the standard: the integer parts of the sines of 1 to 64,
times 2 ^ 32. -/
theorem C100_constants (i : Nat) (h : i < 64) :
    (T i).toNat = ⌊(2 : ℝ) ^ 32 * |Real.sin ((i : ℝ) + 1)|⌋₊ := by
  have := Sine.floor_eq (i + 1) (T i).toNat (by omega) (List.all_eq_true.1 sine_check i (List.mem_range.2 h))
  rw [← this]; push_cast; rfl

example : (T 63).toNat = 0xeb86d391 := by decide +kernel

/-- Two compression functions that agree, with states that correspond. -/
theorem run_map {σ τ : Type} (f : σ → List Byte → σ) (g : τ → List Byte → τ) (t : σ → τ)
    (h : ∀ s b, t (f s b) = g (t s) b) (n : Nat) : ∀ (s : σ) (m : List Byte), m.length ≤ n →
    t (run f s m) = run g (t s) m := by
  induction n with
  | zero => intro s m hm; rw [run_short f s m (by omega), run_short g _ m (by omega)]
  | succ n ih =>
    intro s m hm
    by_cases hl : m.length < 64
    · rw [run_short f s m hl, run_short g _ m hl]
    · rw [run.eq_def f, dif_neg hl, run.eq_def g, dif_neg hl, ih _ _ (by simp; omega), h]

/-- The work of `body` on a block is that of the standard, for every state and block. -/
theorem C100_compress (s : Vars) (b : List Byte) :
    (transform s b).toRegs = Rfc.compress T s.toRegs b := transform_eq s b

example : (transform iv (List.replicate 64 0)).toRegs = Rfc.compress T Rfc.init (List.replicate 64 0) :=
  C100_compress iv _

/-- The hash of any data is what the standard says. -/
theorem C100_hash (data : List Byte) (h : data.length < 2 ^ 64) :
    hash data = some (Rfc.md5 T data) := by
  have e := run_map transform (Rfc.compress T) Vars.toRegs transform_eq _ iv
    (data ++ padding data.length (le 8 (8 * data.length))) (Nat.le_refl _)
  have e0 : iv.toRegs = Rfc.init := rfl
  have hp := hashPieces_eq transform iv (List.replicate 64 0) (by simp) [data] (by simpa using h)
  simp only [List.flatten_cons, List.flatten_nil, List.append_nil] at hp
  rw [hash, hp, Option.map_some, digest_eq, Rfc.md5, hashed, hashed, ← e0, ← e]
  rfl

-- "abc" of the standard, which is one block
example : digest (transform iv ([0x61, 0x62, 0x63, 0x80] ++ List.replicate 52 0 ++ [24] ++
    List.replicate 7 0)) = [0x90, 0x01, 0x50, 0x98, 0x3c, 0xd2, 0x4f, 0xb0, 0xd6, 0x96, 0x3f, 0x7d,
      0x28, 0xe1, 0x7f, 0x72] := by
  decide +kernel

example : hash [0x61, 0x62, 0x63] = some (Rfc.md5 T [0x61, 0x62, 0x63]) := C100_hash _ (by decide)

/-! ## C101: pieces -/

/-- However the data are cut into pieces, of any length, and whatever was in the buffer before, the
blocks are those of the standard, for any compression function.  No index is out of bounds. -/
theorem C101_pieces {σ : Type} (f : σ → List Byte → σ) (iv : σ) (buffer : List Byte)
    (hb : buffer.length = 64) (ds : List (List Byte)) (hd : ∀ d ∈ ds, d.length < 2 ^ 64) :
    hashPieces f iv buffer ds = some (hashed f iv (le 8) ds.flatten) :=
  hashPieces_eq f iv buffer hb ds hd

example : hashPieces transform iv (List.replicate 64 7) [[0x61], [], [0x62, 0x63]] =
    hashPieces transform iv (List.replicate 64 0) [[0x61, 0x62, 0x63]] := by
  rw [C101_pieces _ _ _ (by simp) _ (by decide), C101_pieces _ _ _ (by simp) _ (by decide)]
  rfl

end C3.Hash.Md5
