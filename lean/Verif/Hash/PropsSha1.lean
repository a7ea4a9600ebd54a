import Verif.Hash.LemmasFips1

/-! # C98, C99: SHA-1 -/

set_option autoImplicit false

namespace C3.Hash.Sha1

/-! ## C98: `sha1::hash` is SHA-1 -/

/-- Two compression functions that agree, with states that correspond. -/
theorem run_map {σ τ : Type} (f : σ → List Byte → σ) (g : τ → List Byte → τ) (t : σ → τ)
    (h : ∀ s b, t (f s b) = g (t s) b) (n : Nat) : ∀ (s : σ) (m : List Byte), m.length ≤ n →
    t (run f s m) = run g (t s) m := by
  induction n with
  | zero => intro s m hm; rw [run_short f s m (by omega), run_short g _ m (by omega)]
  | succ n ih =>
    intro s m hm
    by_cases hl : m.length < 64
    · rw [run_short f s m hl, run_short g _ m hl]
    · rw [run.eq_def f, dif_neg hl, run.eq_def g, dif_neg hl, ih _ _ (by simp; omega), h]

/-- `sha1_transform`, with its rotating variables and its circular block, is the compression function
of the standard, for every state and block. -/
theorem C98_compress (s : Vars) (b : List Byte) :
    (transform s b).toHash = Fips.compress s.toHash b := transform_eq s b

example : (transform iv (List.replicate 64 0)).toHash =
    Fips.compress ⟨0x67452301, 0xefcdab89, 0x98badcfe, 0x10325476, 0xc3d2e1f0⟩ (List.replicate 64 0) :=
  C98_compress iv _

/-- The hash of any data that the contract allows is what the standard says. -/
theorem C98_hash (data : List Byte) (h : data.length ≤ 0xFFFFFFFF) :
    hash data = some (Fips.sha1 data) := by
  have e := run_map transform Fips.compress Vars.toHash transform_eq _ iv
    (data ++ padding data.length (be 8 (8 * data.length))) (Nat.le_refl _)
  have e0 : iv.toHash = Fips.H0 := rfl
  rw [hash, hashOne_eq transform iv data h, Option.map_some, digest_eq, Fips.sha1, hashed, hashed, ← e0, ← e]
  rfl

-- "abc" of the standard, which is one block
example : digest (transform iv ([0x61, 0x62, 0x63, 0x80] ++ List.replicate 59 0 ++ [24])) = [0xa9, 0x99, 0x3e, 0x36, 0x47, 0x06, 0x81, 0x6a, 0xba, 0x3e,
    0x25, 0x71, 0x78, 0x50, 0xc2, 0x6c, 0x9c, 0xd0, 0xd8, 0x9d] := by
  decide +kernel

example : hash [0x61, 0x62, 0x63] = some (Fips.sha1 [0x61, 0x62, 0x63]) := C98_hash _ (by decide)

/-! ## C99: pieces -/

/-- The blocks are those of the standard however the data are cut into pieces, for any compression
function. -/
def C99_full : Prop := ∀ (σ : Type) (f : σ → List Byte → σ) (iv : σ) (ds : List (List Byte)),
  (∀ d ∈ ds, d.length ≤ 0xFFFFFFFF) → 8 * ds.flatten.length < 2 ^ 64 →
  hashPieces f iv ds = some (hashed f iv (be 8) ds.flatten)

/-- So they are if each piece has at most 2 ^ 32 - 64 bytes.  (Missing: longer pieces, for which see
`C99_long_piece`.) -/
theorem C99_pieces_partial {σ : Type} (f : σ → List Byte → σ) (iv : σ) (ds : List (List Byte))
    (hd : ∀ d ∈ ds, d.length ≤ 2 ^ 32 - 64) (hl : 8 * ds.flatten.length < 2 ^ 64) :
    hashPieces f iv ds = some (hashed f iv (be 8) ds.flatten) := hashPieces_eq f iv ds hd hl

example : hashPieces transform iv [[0x61], [], [0x62, 0x63]] = hashPieces transform iv [[0x61, 0x62, 0x63]] := by
  rw [C99_pieces_partial _ _ _ (by decide) (by decide), C99_pieces_partial _ _ _ (by decide) (by decide)]
  rfl

/-- After any pieces, one which has no room in 32 bits with what is in the buffer is written out of
the bounds of the buffer. -/
theorem C99_long_piece {σ : Type} (f : σ → List Byte → σ) (iv : σ) (ds : List (List Byte)) (d : List Byte)
    (hd : ∀ d ∈ ds, d.length ≤ 2 ^ 32 - 64) (h : 2 ^ 32 ≤ ds.flatten.length % 64 + d.length) :
    hashPieces f iv (ds ++ [d]) = none := by
  obtain ⟨c, h1, h2⟩ := updates_eq f iv ds (init iv) [] (rep_init f iv) hd
  rw [List.nil_append] at h2
  have key : ∀ (ds : List (List Byte)) (c c' : Ctx σ), updates f c ds = some c' → update f c' d = none →
      updates f c (ds ++ [d]) = none := by
    intro ds
    induction ds with
    | nil =>
      intro c c' e1 e2
      rw [updates, Option.some.injEq] at e1
      subst e1
      rw [List.nil_append, updates, e2]; rfl
    | cons x ds ih =>
      intro c c' e1 e2
      rw [updates] at e1
      cases hx : update f c x with
      | none => rw [hx] at e1; simp at e1
      | some c1 =>
        rw [hx] at e1
        rw [List.cons_append, updates, hx]
        exact ih c1 c' e1 e2
  rw [hashPieces, key ds _ _ h1 (update_none h2 d h)]
  rfl

example (d : List Byte) (h : d.length = 0xFFFFFFFF) :
    hashPieces transform iv ([[0x61]] ++ [d]) = none :=
  C99_long_piece transform iv [[0x61]] d (by decide) (by rw [h]; decide)

theorem C99_fails : ¬ C99_full := by
  intro h
  obtain ⟨d, hd⟩ : ∃ d : List Byte, d.length = 0xFFFFFFFF := ⟨List.replicate _ 0, List.length_replicate⟩
  have hf : [[(0x61 : Byte)], d].flatten.length = 2 ^ 32 := by simp [hd]
  have e1 := h Unit (fun s _ => s) () [[0x61], d] (by
    intro x hx
    simp only [List.mem_cons, List.not_mem_nil, or_false] at hx
    rcases hx with rfl | rfl
    · simp
    · omega) (by rw [hf]; omega)
  have e2 := C99_long_piece (fun (s : Unit) _ => s) () [[0x61]] d (by simp) (by rw [hd]; simp)
  rw [show [[(0x61 : Byte)]] ++ [d] = [[0x61], d] from rfl] at e2
  rw [e2] at e1
  cases e1

end C3.Hash.Sha1
