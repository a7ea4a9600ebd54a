import Verif.Bitstruct.LemmasArrayInit

/-!
# C60: members of a bitstruct in an array

The arrays are those of bytes; for others see `C60_elements`.  The platform has the least significant byte first, or the bitstruct has no
attribute; otherwise see `C60_big_platform`.  `Swappable`: see `C60_width`.
-/

set_option autoImplicit false

namespace C3.Bitstruct

/-- The order is as declared. -/
theorem order_array {platform : Bool} {o : Order} (h : platform = false ∨ o = none) : bitstruct_requires_bitswap platform o = o.ofArray := by
  rcases o with _ | o
  · rfl
  · rcases h with h | h
    · subst h; cases o <;> rfl
    · cases h

/-- A member that is read is the bits of it, extended with the sign or with zeros. -/
theorem C60_read_partial {platform : Bool} {o : Order} (hp : platform = false ∨ o = none) (mem : Mem) (m : Member) (ok : m.Ok mem.length)
    (hs : Swappable o.ofArray m) :
    ∃ v, readArray (bitstruct_requires_bitswap platform o) 1 mem m = some v ∧ Reads m (placeArray o.ofArray m) mem v := by
  rw [order_array hp]
  exact readArray_some m ok hs

/-- An assignment to a member stores its bits, and nothing else, if the member ends with a byte, or is inside of the first one.
Missing: all others, see `C60_assign_loses` and `C60_assign_clears`. -/
theorem C60_assign_partial {platform : Bool} {o : Order} (hp : platform = false ∨ o = none) (mem : Mem) (m : Member) (ok : m.Ok mem.length)
    (hs : Swappable o.ofArray m) (hw : Whole m) (v : m.Value) (hv : m.Valid v) :
    ∃ mem', llvm_emit_update_bitstruct_array (bitstruct_requires_bitswap platform o) 1 mem m v = some mem' ∧
      Stores m (placeArray o.ofArray m) mem mem' v := by
  rw [order_array hp]
  exact assignArray_whole m ok hs hw v hv

/-- What was assigned is read, as far as the member has bits for it. -/
theorem C60_read_after_assign_partial {platform : Bool} {o : Order} (hp : platform = false ∨ o = none) (mem mem' : Mem) (m : Member)
    (ok : m.Ok mem.length) (hs : Swappable o.ofArray m) (hw : Whole m) (v : m.Value) (hv : m.Valid v)
    (ha : llvm_emit_update_bitstruct_array (bitstruct_requires_bitswap platform o) 1 mem m v = some mem') :
    readArray (bitstruct_requires_bitswap platform o) 1 mem' m = some (m.wrap v) := by
  obtain ⟨mem1, h1, hst⟩ := C60_assign_partial hp mem m ok hs hw v hv
  rw [ha] at h1
  cases h1
  obtain ⟨w, hw, hr⟩ := C60_read_partial hp mem' m (by rw [hst.1]; exact ok) hs
  rw [hw, hst.same hr]

/-- A member that has no bits in common with it is read as before. -/
theorem C60_others_partial {platform : Bool} {o : Order} (hp : platform = false ∨ o = none) (mem mem' : Mem) (m m' : Member)
    (ok : m.Ok mem.length) (ok' : m'.Ok mem.length) (hs : Swappable o.ofArray m) (hs' : Swappable o.ofArray m') (hd : m.Disjoint m') (hw : Whole m)
    (v : m.Value) (hv : m.Valid v)
    (ha : llvm_emit_update_bitstruct_array (bitstruct_requires_bitswap platform o) 1 mem m v = some mem') :
    readArray (bitstruct_requires_bitswap platform o) 1 mem' m' = readArray (bitstruct_requires_bitswap platform o) 1 mem m' := by
  obtain ⟨mem1, h1, hst⟩ := C60_assign_partial hp mem m ok hs hw v hv
  rw [ha] at h1
  cases h1
  obtain ⟨w, hw, hr⟩ := C60_read_partial hp mem m' ok' hs'
  obtain ⟨w', hw', hr'⟩ := C60_read_partial hp mem' m' (by rw [hst.1]; exact ok') hs'
  rw [hw, hw', hr'.unique (hst.other (fun k k' hk hk' => placeArray_disjoint hs hs' ok.le ok'.le hd hk hk') hr)]

/-- In a constant each member has its value, if no two members have bits in common, and the bits that no member has are zero. -/
theorem C60_const_partial {platform : Bool} {o : Order} (hp : platform = false ∨ o = none) (len : Nat) (es : List Entry)
    (h : ∀ e ∈ es, e.1.Ok len ∧ Swappable o.ofArray e.1 ∧ e.1.Valid e.2) (ha : Apart es) :
    ∃ mem, constArray (bitstruct_requires_bitswap platform o) len es = some mem ∧ mem.length = len ∧
      (∀ e ∈ es, readArray (bitstruct_requires_bitswap platform o) 1 mem e.1 = some (e.1.wrap e.2)) ∧
      ∀ j, (∀ e ∈ es, ∀ k, k < e.1.width → placeArray o.ofArray e.1 k ≠ j) → bitAt mem j = false := by
  rw [order_array hp]
  obtain ⟨mem, hm, hl, hb⟩ := constArrayAll_some (swap := o.ofArray) es (List.replicate len 0) (by simpa using h)
  have hl' : mem.length = len := by simpa using hl
  refine ⟨mem, hm, hl', ?_, ?_⟩
  · intro e he
    obtain ⟨h1, h2, h3⟩ := h e he
    obtain ⟨w, hw, hr⟩ := readArray_some (swap := o.ofArray) (mem := mem) e.1 (by rw [hl']; exact h1) h2
    have hle := h1.le
    have hst : Stores e.1 (placeArray o.ofArray e.1) mem mem e.2 := by
      refine ⟨rfl, fun k hk => ?_, fun _ _ => rfl⟩
      have hr := rev_lt h2 hk
      have hc : covers e (placeArray o.ofArray e.1 k) := by
        rw [placeArray_eq]
        generalize rev o.ofArray e.1.width k = a at *
        simp only [Member.width] at hr
        simp only [covers]
        omega
      have hbit : bitIn o.ofArray e (placeArray o.ofArray e.1 k) = e.2.getLsbD k := by
        rw [bitIn, placeArray_eq, Nat.add_sub_cancel_left, rev_rev h2 hk]
      rw [hb, bitAt_zero, Bool.or_false, Bool.eq_iff_iff, List.any_eq_true]
      constructor
      · rintro ⟨e', he', hx⟩
        simp only [Bool.and_eq_true, decide_eq_true_eq] at hx
        have : e' = e := Classical.byContradiction fun hne => by
          rcases ha.eq_or he' he with h | h
          · exact hne h
          · exact covers_unique h hx.1 hc
        subst this
        rw [← hbit]; exact hx.2
      · intro hx
        refine ⟨e, he, ?_⟩
        simp [hc, hbit, hx]
    rw [hw, hst.same hr]
  · intro j hj
    rw [hb, bitAt_zero, Bool.or_false, List.any_eq_false]
    intro e he hx
    simp only [Bool.and_eq_true, decide_eq_true_eq] at hx
    obtain ⟨h1, h2, h3⟩ := h e he
    have hk : j - e.1.start < e.1.width := by have := hx.1.1; have := hx.1.2; simp only [Member.width]; omega
    refine hj e he (rev o.ofArray e.1.width (j - e.1.start)) (rev_lt h2 hk) ?_
    rw [placeArray_eq, rev_rev h2 hk]
    have := hx.1.1
    omega

/-- The code for an initializer stores the bytes of the constant, if each member ends with a byte or is inside of the first one. -/
theorem C60_init_partial {platform : Bool} {o : Order} (hp : platform = false ∨ o = none) (len : Nat) (es : List Entry)
    (h : ∀ e ∈ es, e.1.Ok len ∧ Swappable o.ofArray e.1 ∧ e.1.Valid e.2 ∧ Whole e.1) (ha : Apart es) :
    initArray (bitstruct_requires_bitswap platform o) 1 len es = constArray (bitstruct_requires_bitswap platform o) len es := by
  rw [order_array hp]
  unfold initArray constArray
  rw [Nat.one_mul]
  refine init_const_eq es _ (fun e he => ?_) ha
  obtain ⟨h1, h2, h3, h4⟩ := h e he
  exact ⟨by simpa using h1, h2, h3, h4, fun q _ => bitAt_zero _ _⟩

/-! ## Examples -/

/-- `bitstruct : char[4] @bigendian { ushort a : 8..23; char b : 2..5; bool c : 27; }` -/
abbrev exD : Member := ⟨8, 23, 2, false, false⟩
abbrev exE : Member := ⟨2, 5, 1, false, false⟩
abbrev exF : Member := ⟨27, 27, 1, false, true⟩

theorem exD_ok : exD.Ok 4 := ⟨by decide, by decide, by decide, by decide, by decide⟩
theorem exE_ok : exE.Ok 4 := ⟨by decide, by decide, by decide, by decide, by decide⟩
theorem exF_ok : exF.Ok 4 := ⟨by decide, by decide, by decide, by decide, by decide⟩

example : Swappable true exD ∧ Swappable true exE ∧ Swappable true exF ∧ Whole exD ∧ Whole exE ∧ Whole exF ∧ exD.Disjoint exE :=
  ⟨fun _ => Or.inr (by decide), fun _ => Or.inl (by decide), fun _ => Or.inl (by decide), Or.inr (Or.inl (by decide)),
    Or.inr (Or.inr (by decide)), Or.inl rfl, Or.inr (by decide)⟩

example : initArray (bitstruct_requires_bitswap false (some true)) 1 4 [⟨exD, 0x1234#16⟩, ⟨exE, 0xF#8⟩, ⟨exF, 1#8⟩] =
    some [0b111100#8, 0x12#8, 0x34#8, 0b1000#8] := by decide +kernel

/-! ## Where it fails -/

/-- If a member does not end with a byte, and does not begin inside of its last byte, then an assignment makes its bits in the last byte zero,
whatever the value is. -/
theorem C60_assign_loses {platform : Bool} {o : Order} (hp : platform = false ∨ o = none) (mem : Mem) (m : Member) (ok : m.Ok mem.length)
    (hs : Swappable o.ofArray m) (hb : m.bool = false) (h7 : m.stop % 8 ≠ 7) (hf : m.start ≤ 8 * (m.stop / 8)) (v : m.Value) :
    ∃ mem', llvm_emit_update_bitstruct_array (bitstruct_requires_bitswap platform o) 1 mem m v = some mem' ∧
      ∀ q, 8 * (m.stop / 8) ≤ q → q ≤ m.stop → bitAt mem' q = false := by
  rw [order_array hp]
  obtain ⟨mem', hm, hl, hbt⟩ := assignArray_some m ok hs v (by simp [Member.Valid, hb])
  refine ⟨mem', hm, fun q h1 h2 => ?_⟩
  rw [hbt, if_pos ⟨by omega, h2⟩, if_pos ⟨hb, h7, by omega, by omega⟩]

/-- `bitstruct : char[2] { ushort a : 0..9; }`: after `x.a = 512`, `x.a` is 0. -/
theorem C60_assign_wrong :
    ∃ (m : Member) (v w : m.Value) (mem : Mem), m.Ok 2 ∧ llvm_emit_update_bitstruct_array false 1 [0#8, 0#8] m v = some mem ∧
      readArray false 1 mem m = some w ∧ w ≠ m.wrap v :=
  ⟨⟨0, 9, 2, false, false⟩, 512#16, 0#16, [0#8, 0#8], ⟨by decide, by decide, by decide, by decide, by decide⟩, by decide +kernel,
    by decide +kernel, by decide +kernel⟩

/-- If a member is inside of a byte that is not the first one, then an assignment makes the bits above it in the byte zero. -/
theorem C60_assign_clears {platform : Bool} {o : Order} (hp : platform = false ∨ o = none) (mem : Mem) (m : Member) (ok : m.Ok mem.length)
    (hs : Swappable o.ofArray m) (hb : m.bool = false) (h1 : m.start / 8 = m.stop / 8) (h8 : 8 ≤ m.start) (h0 : m.start % 8 ≠ 0) (v : m.Value) :
    ∃ mem', llvm_emit_update_bitstruct_array (bitstruct_requires_bitswap platform o) 1 mem m v = some mem' ∧
      ∀ q, m.stop < q → q / 8 = m.stop / 8 → bitAt mem' q = false := by
  rw [order_array hp]
  obtain ⟨mem', hm, hl, hbt⟩ := assignArray_some m ok hs v (by simp [Member.Valid, hb])
  refine ⟨mem', hm, fun q h2 h3 => ?_⟩
  have := ok.le
  rw [hbt, if_neg (by omega), if_pos ⟨hb, h2, h3, h1, h0, by omega⟩]

/-- `bitstruct : char[2] { char a : 9..10; bool b : 12; }`: after `x.a = 0`, `x.b` is false. -/
theorem C60_others_wrong :
    ∃ (m m' : Member) (mem mem' : Mem) (v : m.Value), m.Ok 2 ∧ m'.Ok 2 ∧ m.Disjoint m' ∧
      llvm_emit_update_bitstruct_array false 1 mem m v = some mem' ∧ readArray false 1 mem' m' ≠ readArray false 1 mem m' :=
  ⟨⟨9, 10, 1, false, false⟩, ⟨12, 12, 1, false, true⟩, [0#8, 16#8], [0#8, 0#8], 0#8, ⟨by decide, by decide, by decide, by decide, by decide⟩,
    ⟨by decide, by decide, by decide, by decide, by decide⟩, Or.inl (by decide), by decide +kernel, by decide +kernel⟩

/-- So code and constant differ for the same initializer. -/
theorem C60_init_differs :
    ∃ (es : List Entry) (a b : Mem), (∀ e ∈ es, e.1.Ok 2) ∧ Apart es ∧ constArray false 2 es = some a ∧ initArray false 1 2 es = some b ∧ a ≠ b := by
  refine ⟨[⟨⟨0, 9, 2, false, false⟩, 512#16⟩], [0#8, 2#8], [0#8, 0#8], ?_, ?_, by decide +kernel, by decide +kernel, by decide⟩
  · simp only [List.mem_cons, List.not_mem_nil, or_false, forall_eq]
    exact ⟨by decide, by decide, by decide, by decide, by decide⟩
  · simp [Apart]

/-- If the elements have more than one byte, a member behind the first `len` bytes is read and written outside of the object. -/
theorem C60_elements (swap : Bool) (size len : Nat) (mem : Mem) (hl : mem.length = size * len) (m : Member) (ok : m.Ok (size * len))
    (hm : len ≤ m.start / 8) (v : m.Value) :
    readArray swap size mem m = none ∧ llvm_emit_update_bitstruct_array swap size mem m v = none := by
  have hle := ok.le
  have hnone : loadByte size mem (m.start / 8) = none := by
    apply List.getElem?_eq_none
    rw [hl, Nat.mul_comm]
    exact Nat.mul_le_mul_right _ hm
  have hk : m.stop / 8 + 1 - m.start / 8 = (m.stop / 8 - m.start / 8) + 1 := by omega
  constructor
  · unfold readArray
    split
    · simp [hnone]
    · simp only [hk, extractLoop, hnone, Option.bind_eq_bind, Option.bind_none]
  · unfold llvm_emit_update_bitstruct_array
    split
    · split
      · rfl
      · simp [hnone]
    · cases swapMember swap v (m.stop - m.start + 1) with
      | none => rfl
      | some y =>
        simp only [Option.bind_eq_bind, Option.bind_some]
        split
        · rfl
        · rw [hk]
          simp only [arrayLoop, hnone, Option.bind_eq_bind, Option.bind_none]

/-- On a platform with the most significant byte first, members are stored in the order that was not asked for. -/
theorem C60_big_platform (mem : Mem) (m : Member) (ok : m.Ok mem.length) (b : Bool) (hs : Swappable (!b) m) :
    ∃ v, readArray (bitstruct_requires_bitswap true (some b)) 1 mem m = some v ∧ Reads m (placeArray (!b) m) mem v := by
  have : bitstruct_requires_bitswap true (some b) = !b := by cases b <;> rfl
  rw [this]
  exact readArray_some m ok hs

/-- `ushort a : 0..15` in `char[2] @bigendian` there: the bytes 1, 2 are 513, not 258. -/
theorem C60_big_platform_wrong : readArray (bitstruct_requires_bitswap true (some true)) 1 [1#8, 2#8] ⟨0, 15, 2, false, false⟩ = some 513#16 ∧
    readArray (bitstruct_requires_bitswap false (some true)) 1 [1#8, 2#8] ⟨0, 15, 2, false, false⟩ = some 258#16 := by decide +kernel

/-- The compiler fails if the bytes of a member are to be swapped, and its width is more than a byte and not a power of two. -/
theorem C60_width (mem : Mem) (m : Member) (ok : m.Ok mem.length) (hb : m.bool = false) (hw : 8 < m.width) (hp : is_power_of_two m.width = false)
    (v : m.Value) : readArray true 1 mem m = none ∧ llvm_emit_update_bitstruct_array true 1 mem m v = none := by
  have h1 := ok.le
  have hnone : ∀ x : m.Value, swapMember true x (m.stop - m.start + 1) = none := by
    intro x
    simp only [Member.width] at hw hp
    unfold swapMember llvm_bswap_non_integral
    simp [hp]
    omega
  constructor
  · unfold readArray
    rw [if_neg (by simp [hb])]
    cases extractLoop 1 mem m (m.stop / 8 + 1 - m.start / 8) (m.start / 8) 0#(8 * m.bytes) with
    | none => rfl
    | some r => simp [hnone]
  · unfold llvm_emit_update_bitstruct_array
    rw [if_neg (by simp [hb])]
    simp [hnone]

end C3.Bitstruct
