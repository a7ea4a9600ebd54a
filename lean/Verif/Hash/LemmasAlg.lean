import Verif.Hash.PropsSha256
import Verif.Hash.PropsSha1
import Verif.Hash.LemmasRfcMd5
import Verif.Hash.LemmasHmac

/-! # The three algorithms that the module is used with -/

set_option autoImplicit false

namespace C3.Hash

open Hmac (Alg Lawful)

/-- `Hmac{Md5, 16, 64}`; lines 16–18 of `md5.c3`. -/
def md5 : Alg where
  Ctx := Md5.Ctx Md5.Vars
  hashBytes := 16
  blockBytes := 64
  init c := Md5.init Md5.iv c.buffer
  update := Md5.update Md5.transform
  final c := (Md5.final Md5.transform c).map fun s =>
    (Md5.digest s, ⟨⟨0, 0, 0, 0⟩, 0, 0, List.replicate 64 0⟩)

/-- `Hmac{Sha1, 20, 64}`; lines 21–23 of `sha1.c3`. -/
def sha1 : Alg where
  Ctx := Sha1.Ctx Sha1.Vars
  hashBytes := 20
  blockBytes := 64
  init _ := Sha1.init Sha1.iv
  update := Sha1.update Sha1.transform
  final c := (Sha1.final Sha1.transform c).map fun s =>
    (Sha1.digest s, ⟨⟨0, 0, 0, 0, 0⟩, 0, 0, List.replicate 64 0⟩)

/-- `Hmac{Sha256, 32, 64}`; lines 37–39 of `sha256.c3`.  The context that `final` leaves is not what it
is here, but `init` does not look at it. -/
def sha256 : Alg where
  Ctx := Sha256.Ctx Sha256.Vars
  hashBytes := 32
  blockBytes := 64
  init _ := Sha256.init Sha256.iv
  update := Sha256.update Sha256.transform
  final c := (Sha256.final Sha256.transform c).map fun s => (Sha256.digest s, c)

theorem md5_hashed (m : List Byte) :
    Md5.digest (hashed Md5.transform Md5.iv (le 8) m) = Md5.Rfc.md5 Md5.T m := by
  have e := Sha1.run_map Md5.transform (Md5.Rfc.compress Md5.T) Md5.Vars.toRegs Md5.transform_eq _ Md5.iv
    (m ++ padding m.length (le 8 (8 * m.length))) (Nat.le_refl _)
  have e0 : Md5.iv.toRegs = Md5.Rfc.init := rfl
  rw [Md5.digest_eq, Md5.Rfc.md5, hashed, hashed, ← e0, ← e]
  rfl

theorem sha1_hashed (m : List Byte) :
    Sha1.digest (hashed Sha1.transform Sha1.iv (be 8) m) = Sha1.Fips.sha1 m := by
  have e := Sha1.run_map Sha1.transform Sha1.Fips.compress Sha1.Vars.toHash Sha1.transform_eq _ Sha1.iv
    (m ++ padding m.length (be 8 (8 * m.length))) (Nat.le_refl _)
  have e0 : Sha1.iv.toHash = Sha1.Fips.H0 := rfl
  rw [Sha1.digest_eq, Sha1.Fips.sha1, hashed, hashed, ← e0, ← e]
  rfl

/-- SHA-256 of the standard with the constants of the code, which are those of the standard
(`C96_constants`). -/
def fips256 (m : List Byte) : List Byte :=
  Sha256.Fips.sha256 (fun t => Sha256.K.getD t 0) Sha256.iv.toHash m

theorem sha256_hashed (m : List Byte) :
    Sha256.digest (hashed Sha256.transform Sha256.iv (be 8) m) = fips256 m := by
  rw [Sha256.digest_eq, hashed,
    Sha256.run_map Sha256.transform _ Sha256.Vars.toHash Sha256.transform_eq _ Sha256.iv _ (Nat.le_refl _)]
  rfl

def md5Lawful : Lawful md5 (Md5.Rfc.md5 Md5.T) (2 ^ 64 - 1) where
  valid c := c.buffer.length = 64
  rep c m := Md5.Rep Md5.transform Md5.iv c m
  init c h := Md5.rep_init _ _ _ h
  update c m d h hd := Md5.update_eq h d (by omega)
  final c m h _ := by
    refine ⟨⟨⟨0, 0, 0, 0⟩, 0, 0, List.replicate 64 0⟩, ?_, ?_⟩
    · show (Md5.final Md5.transform c).map _ = _
      rw [Md5.final_eq h, Option.map_some, md5_hashed]; rfl
    · simp
  length m := by simp [Md5.Rfc.md5, Md5.Rfc.bytes, md5]
  small := by decide
  pos := by decide
  block := rfl
  piece := by decide

def sha1Lawful : Lawful sha1 Sha1.Fips.sha1 (2 ^ 32 - 64) where
  valid _ := True
  rep c m := Sha1.Rep Sha1.transform Sha1.iv c m
  init c _ := Sha1.rep_init _ _
  update c m d h hd := Sha1.update_eq h d (by omega)
  final c m h hm := by
    refine ⟨⟨⟨0, 0, 0, 0, 0⟩, 0, 0, List.replicate 64 0⟩, ?_, trivial⟩
    show (Sha1.final Sha1.transform c).map _ = _
    rw [Sha1.final_eq h hm, Option.map_some, sha1_hashed]; rfl
  length m := by simp [Sha1.Fips.sha1, Sha1.Fips.bytes, sha1]
  small := by decide
  pos := by decide
  block := rfl
  piece := by decide

def sha256Lawful : Lawful sha256 fips256 (2 ^ 29 - 1) where
  valid _ := True
  rep c m := Sha256.Rep Sha256.transform Sha256.iv c m ∧ c.bitcount = 8 * m.length % 2 ^ 64
  init c _ := ⟨Sha256.rep_init _ _, rfl⟩
  update c m d h hd := by
    obtain ⟨c', e1, e2, e3⟩ := Sha256.update_eq h.1 d (by omega)
    refine ⟨c', e1, e2, ?_⟩
    rw [e3, h.2, List.length_append]; omega
  final c m h hm := by
    refine ⟨c, ?_, trivial⟩
    show (Sha256.final Sha256.transform c).map _ = _
    rw [Sha256.final_eq h.1, h.2, Nat.mod_eq_of_lt hm, Option.map_some]
    show some (Sha256.digest (hashed Sha256.transform Sha256.iv (be 8) m), c) = _
    rw [sha256_hashed]
  length m := by simp [fips256, Sha256.Fips.sha256, Sha256.Fips.digest, Sha256.Fips.bytes, sha256]
  small := by decide
  pos := by decide
  block := rfl
  piece := by decide

end C3.Hash
