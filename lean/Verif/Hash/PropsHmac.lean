import Verif.Hash.LemmasAlg

/-! # C102, C103: HMAC and PBKDF2

`h` is what was in the memory of the context before. -/

set_option autoImplicit false

namespace C3.Hash.Hmac

/-! ## C102: HMAC -/

/-- `md5::hmac` is HMAC with MD5, for all keys and messages. -/
theorem C102_md5 (h : Hmac md5) (ha : h.a.buffer.length = 64) (hb : h.b.buffer.length = 64)
    (key message : List Byte) (hk : key.length < 2 ^ 61) (hm : message.length < 2 ^ 61 - 64) :
    hash md5 h key message = some (Rfc.hmac (Md5.Rfc.md5 Md5.T) 64 key message) :=
  hash_eq md5Lawful h ha hb key (by omega) (by omega) message (by omega) (by omega)

/-- `sha1::hmac` is HMAC with SHA-1. -/
theorem C102_sha1 (h : Hmac sha1) (key message : List Byte) (hk : key.length ≤ 2 ^ 32 - 64)
    (hm : message.length ≤ 2 ^ 32 - 64) :
    hash sha1 h key message = some (Rfc.hmac Sha1.Fips.sha1 64 key message) :=
  hash_eq sha1Lawful h trivial trivial key hk (by omega) message hm (by omega)

/-- `sha256::hmac` is HMAC with SHA-256. -/
theorem C102_sha256 (h : Hmac sha256) (key message : List Byte) (hk : key.length < 2 ^ 29)
    (hm : message.length < 2 ^ 29) :
    hash sha256 h key message = some (Rfc.hmac fips256 64 key message) :=
  hash_eq sha256Lawful h trivial trivial key (by omega) (by omega) message (by omega) (by omega)

/-- The message may come in pieces. -/
theorem C102_pieces (h : Hmac sha256) (key : List Byte) (hk : key.length < 2 ^ 29) (ds : List (List Byte))
    (hd : ∀ d ∈ ds, d.length < 2 ^ 29) (hm : 8 * (64 + ds.flatten.length) < 2 ^ 64) :
    hashPieces sha256 h key ds = some (Rfc.hmac fips256 64 key ds.flatten) :=
  hashPieces_eq sha256Lawful h trivial trivial key (by omega) (by omega) ds
    (fun d hx => by have := hd d hx; omega) hm

/-- The same with SHA-1. -/
theorem C102_pieces_sha1 (h : Hmac sha1) (key : List Byte) (hk : key.length ≤ 2 ^ 32 - 64)
    (ds : List (List Byte)) (hd : ∀ d ∈ ds, d.length ≤ 2 ^ 32 - 64)
    (hm : 8 * (64 + ds.flatten.length) < 2 ^ 64) :
    hashPieces sha1 h key ds = some (Rfc.hmac Sha1.Fips.sha1 64 key ds.flatten) :=
  hashPieces_eq sha1Lawful h trivial trivial key hk (by omega) ds hd hm

-- a key longer than a block is hashed first
example (h : Hmac sha1) : hash sha1 h (List.replicate 65 1) [2] =
    some (Rfc.hmac Sha1.Fips.sha1 64 (Sha1.Fips.sha1 (List.replicate 65 1)) [2]) := by
  rw [C102_sha1 h _ _ (by simp) (by simp), Rfc.hmac, Rfc.hmac]
  have hk : Rfc.key0 Sha1.Fips.sha1 64 (Sha1.Fips.sha1 (List.replicate 65 1)) =
      Rfc.key0 Sha1.Fips.sha1 64 (List.replicate 65 1) := by
    have hl := sha1Lawful.length (List.replicate 65 1)
    change _ = 20 at hl
    simp only [Rfc.key0]
    rw [if_neg (by omega), if_pos (by simp)]
  rw [hk]

/-! ## C103: PBKDF2 -/

/-- `sha256::pbkdf2` is PBKDF2 for every count of iterations and length that the contract allows. -/
def C103_full : Prop := ∀ (h : Hmac sha256) (pw salt : List Byte) (iterations len : Nat),
  pw.length < 2 ^ 29 → salt.length < 2 ^ 29 → 1 ≤ iterations → iterations < 2 ^ 32 → 0 < len →
  len < 0x7FFFFFFF / 32 →
  pbkdf2 sha256 h pw salt iterations len =
    some (Rfc.pbkdf2 (Rfc.hmac fips256 64) 32 pw salt iterations len)

/-- So it is for less than 2 ^ 31 iterations.  (Missing: more of them, see `C103_endless`.) -/
theorem C103_sha256_partial (h : Hmac sha256) (pw salt : List Byte) (iterations len : Nat)
    (hp : pw.length < 2 ^ 29) (hs : salt.length < 2 ^ 29) (h1 : 1 ≤ iterations)
    (h2 : iterations < 2 ^ 31) (hl : 0 < len) (hl' : len < 0x7FFFFFFF / 32) :
    pbkdf2 sha256 h pw salt iterations len =
      some (Rfc.pbkdf2 (Rfc.hmac fips256 64) 32 pw salt iterations len) :=
  pbkdf2_eq sha256Lawful h trivial trivial pw salt (by omega) (by omega) (by omega) (by omega) _ _ h2 h1 hl hl'

/-- The same for `sha1::pbkdf2`. -/
theorem C103_sha1_partial (h : Hmac sha1) (pw salt : List Byte) (iterations len : Nat)
    (hp : pw.length ≤ 2 ^ 32 - 64) (hs : salt.length ≤ 2 ^ 32 - 64) (h1 : 1 ≤ iterations)
    (h2 : iterations < 2 ^ 31) (hl : 0 < len) (hl' : len < 0x7FFFFFFF / 20) :
    pbkdf2 sha1 h pw salt iterations len =
      some (Rfc.pbkdf2 (Rfc.hmac Sha1.Fips.sha1 64) 20 pw salt iterations len) :=
  pbkdf2_eq sha1Lawful h trivial trivial pw salt hp (by omega) hs (by omega) _ _ h2 h1 hl hl'

/-- The same for `md5::pbkdf2`. -/
theorem C103_md5_partial (h : Hmac md5) (ha : h.a.buffer.length = 64) (hb : h.b.buffer.length = 64)
    (pw salt : List Byte) (iterations len : Nat)
    (hp : pw.length < 2 ^ 60) (hs : salt.length < 2 ^ 60) (h1 : 1 ≤ iterations)
    (h2 : iterations < 2 ^ 31) (hl : 0 < len) (hl' : len < 0x7FFFFFFF / 16) :
    pbkdf2 md5 h pw salt iterations len =
      some (Rfc.pbkdf2 (Rfc.hmac (Md5.Rfc.md5 Md5.T) 64) 16 pw salt iterations len) :=
  pbkdf2_eq md5Lawful h ha hb pw salt (by omega) (by omega) (by omega) (by omega) _ _ h2 h1 hl hl'

/-- The output has the length that was asked for. -/
theorem C103_length (h : Hmac sha256) (pw salt : List Byte) (iterations len : Nat)
    (hp : pw.length < 2 ^ 29) (hs : salt.length < 2 ^ 29) (h1 : 1 ≤ iterations)
    (h2 : iterations < 2 ^ 31) (hl : 0 < len) (hl' : len < 0x7FFFFFFF / 32) :
    ∃ out, pbkdf2 sha256 h pw salt iterations len = some out ∧ out.length = len := by
  refine ⟨_, C103_sha256_partial h pw salt iterations len hp hs h1 h2 hl hl', ?_⟩
  have hF : ∀ i, (Rfc.F (Rfc.hmac fips256 64) pw salt iterations (i + 1)).length = 32 :=
    fun i => F_length sha256Lawful pw salt iterations (i + 1)
  rw [Rfc.pbkdf2, List.length_take, flat_length _ 32 hF]
  omega

example (h : Hmac sha256) : ∃ out, pbkdf2 sha256 h [1] [2] 1000 70 = some out ∧ out.length = 70 :=
  C103_length h [1] [2] 1000 70 (by decide) (by decide) (by decide) (by decide) (by decide) (by decide)

/-- From 2 ^ 31 iterations on it never ends, with any algorithm: `it` of line 97 is an `int`, which is
never as large. -/
theorem C103_endless (A : Alg) (h : Hmac A) (pw salt : List Byte) (iterations len : Nat)
    (hc : 2 ^ 31 ≤ iterations) : pbkdf2 A h pw salt iterations len = none :=
  pbkdf2_none A h pw salt iterations len hc

theorem C103_fails : ¬ C103_full := by
  intro hf
  have h : Hmac sha256 := ⟨Sha256.init Sha256.iv, Sha256.init Sha256.iv⟩
  have e := hf h [] [] (2 ^ 31) 1 (by decide) (by decide) (by decide) (by decide) (by decide) (by decide)
  rw [C103_endless sha256 h [] [] _ 1 (Nat.le_refl _)] at e
  cases e

end C3.Hash.Hmac
