import Verif.Rc4.Lemmas

/-! # The cipher of the standard library is RC4 -/

set_option autoImplicit false

namespace C3.Rc4

/-- C108: for every key the contract allows, `rc4::crypt` writes the data with the keystream of RC4
added, byte for byte. No index is out of bounds (no `none`). -/
theorem C108_rc4 (key data : List Byte) (hkey : key ≠ []) :
    crypt key data =
      some (data.mapIdx fun n c => c ^^^ BitVec.ofNat 8 (Std.stream (key.map BitVec.toNat) n)) := by
  obtain ⟨r, h1, h2⟩ := init_rep hkey
  obtain ⟨x, h3, _, h5⟩ := cryptAll_rep data h2
  simp only [crypt, h1, h3, Option.bind_eq_bind, Option.bind_some, h5]
  rfl

/-- C108: encrypting twice with the same key gives the data back. -/
theorem C108_involution (key data : List Byte) (hkey : key ≠ []) :
    ∃ e, crypt key data = some e ∧ e.length = data.length ∧ crypt key e = some data := by
  refine ⟨_, C108_rc4 key data hkey, by simp, ?_⟩
  rw [C108_rc4 key _ hkey]
  congr 1
  apply List.ext_getElem
  · simp
  · intro i h1 h2
    simp [BitVec.xor_assoc]

/-- C108: data in pieces, each given to `Rc4.crypt`, are encrypted as in one. -/
theorem C108_pieces (r : Rc4) (a b : List Byte) :
    cryptAll r (a ++ b) = (do
      let x ← cryptAll r a
      let y ← cryptAll x.1 b
      some (y.1, x.2 ++ y.2)) := cryptAll_append a b r

/-- C108: whatever has been encrypted, the state holds every byte exactly once and the indices are
below 256. -/
theorem C108_permutation (key data : List Byte) (hkey : key ≠ []) :
    ∃ r x, init key = some r ∧ cryptAll r data = some x ∧ x.1.i.toNat < 256 ∧ x.1.j.toNat < 256 ∧
      x.1.state.length = 256 ∧ x.1.state.Nodup := by
  obtain ⟨r, h1, h2⟩ := init_rep hkey
  obtain ⟨x, h3, h4, _⟩ := cryptAll_rep data h2
  refine ⟨r, x, h1, h3, h4.2.2.2.1, h4.2.2.2.2, h4.1.1, ?_⟩
  have hp := perm_rounds { S := (Std.ksa (key.map BitVec.toNat) 256).1, i := 0, j := 0 }
    (perm_ksa _ 256 (by decide)) data.length
  rw [List.Nodup, List.pairwise_iff_getElem]
  intro a b ha hb hab e
  have ha' : a < 256 := by rw [h4.1.1] at ha; exact ha
  have hb' : b < 256 := by rw [h4.1.1] at hb; exact hb
  have e1 := h4.1.2 a ha'
  have e2 := h4.1.2 b hb'
  rw [List.getD_eq_getElem?_getD, List.getElem?_eq_getElem ha] at e1
  rw [List.getD_eq_getElem?_getD, List.getElem?_eq_getElem hb] at e2
  have := hp.2 _ _ ha' hb' (by rw [e1, e2]; exact congrArg BitVec.toNat e)
  omega

/-- The vector "Key" / "Plaintext". -/
example : crypt [0x4B, 0x65, 0x79] [0x50, 0x6C, 0x61, 0x69, 0x6E, 0x74, 0x65, 0x78, 0x74] =
    some [0xBB, 0xF3, 0x16, 0xE8, 0xD9, 0x40, 0xAF, 0x0A, 0xD3] := by decide +kernel

/-- Without a key there is nothing to divide by. -/
example : crypt [] [1] = none := by decide +kernel

end C3.Rc4
