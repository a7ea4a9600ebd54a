import Verif.Bitstruct.LemmasInit

/-!
# C59: members of a bitstruct in an integer

`platform` is whether the platform has the most significant byte first, `o` the attribute of the bitstruct.  The condition `hn`: the
bytes of a `char` cannot be swapped, see `C59_char_with_order`.
-/

set_option autoImplicit false

namespace C3.Bitstruct

/-- A member that is read is the bits of it, extended with the sign or with zeros. -/
theorem C59_read_partial {platform : Bool} {o : Order} {n : Nat} (m : Member) (ok : m.Ok n) (mem : Mem) (hl : mem.length = n)
    (hn : bitstruct_requires_bitswap platform o = true → 2 ≤ n) :
    ∃ v, readInt platform (bitstruct_requires_bitswap platform o) n mem m = some v ∧ Reads m (placeInt (o.ofInt platform) n m) mem v := by
  rw [← order_xor o platform]
  exact readInt_some m ok hl hn

/-- An assignment to a member stores its bits, and nothing else. -/
theorem C59_assign_partial {platform : Bool} {o : Order} {n : Nat} (m : Member) (ok : m.Ok n) (mem : Mem) (hl : mem.length = n)
    (hn : bitstruct_requires_bitswap platform o = true → 2 ≤ n) (v : m.Value) :
    ∃ mem', assignInt platform (bitstruct_requires_bitswap platform o) n mem m v = some mem' ∧
      Stores m (placeInt (o.ofInt platform) n m) mem mem' v := by
  rw [← order_xor o platform]
  exact assignInt_some m ok hl hn v

/-- What was assigned is read, as far as the member has bits for it. -/
theorem C59_read_after_assign_partial {platform : Bool} {o : Order} {n : Nat} (m : Member) (ok : m.Ok n) (mem mem' : Mem)
    (hl : mem.length = n) (hn : bitstruct_requires_bitswap platform o = true → 2 ≤ n) (v : m.Value)
    (ha : assignInt platform (bitstruct_requires_bitswap platform o) n mem m v = some mem') :
    readInt platform (bitstruct_requires_bitswap platform o) n mem' m = some (m.wrap v) := by
  obtain ⟨mem1, h1, hs⟩ := assignInt_some (p := platform) m ok hl hn v
  rw [ha] at h1
  cases h1
  obtain ⟨w, hw, hr⟩ := readInt_some (p := platform) m ok (hs.1.trans hl) hn
  rw [hw, hs.same hr]

/-- A member that has no bits in common with it is read as before. -/
theorem C59_others_partial {platform : Bool} {o : Order} {n : Nat} (m m' : Member) (ok : m.Ok n) (ok' : m'.Ok n) (hd : m.Disjoint m')
    (mem mem' : Mem) (hl : mem.length = n) (hn : bitstruct_requires_bitswap platform o = true → 2 ≤ n) (v : m.Value)
    (ha : assignInt platform (bitstruct_requires_bitswap platform o) n mem m v = some mem') :
    readInt platform (bitstruct_requires_bitswap platform o) n mem' m' = readInt platform (bitstruct_requires_bitswap platform o) n mem m' := by
  obtain ⟨mem1, h1, hs⟩ := assignInt_some (p := platform) m ok hl hn v
  rw [ha] at h1
  cases h1
  obtain ⟨w, hw, hr⟩ := readInt_some (p := platform) m' ok' hl hn
  obtain ⟨w', hw', hr'⟩ := readInt_some (p := platform) m' ok' (hs.1.trans hl) hn
  rw [hw, hw', hr'.unique (hs.other (fun k k' hk hk' => placeInt_disjoint ok ok' hd hk hk') hr)]

/-- An initializer gives a member the last value for it, unless a later member has bits in common with it. -/
theorem C59_init_partial {platform : Bool} {o : Order} {n : Nat} (before after : List Entry) (e : Entry)
    (hok : ∀ e' ∈ before ++ e :: after, e'.1.Ok n) (hd : ∀ e' ∈ after, e.1.Disjoint e'.1)
    (hn : bitstruct_requires_bitswap platform o = true → 2 ≤ n) :
    ∃ mem, initInt platform (bitstruct_requires_bitswap platform o) n (before ++ e :: after) = some mem ∧
      readInt platform (bitstruct_requires_bitswap platform o) n mem e.1 = some (e.1.wrap e.2) := by
  obtain ⟨mem, hm, hl, hb⟩ := initInt_some (p := platform) hok hn
  have ok := hok e (by simp)
  obtain ⟨w, hw, hr⟩ := readInt_some (p := platform) e.1 ok hl hn
  have hs : Stores e.1 (placeInt (platform ^^ bitstruct_requires_bitswap platform o) n e.1) mem mem e.2 := by
    refine ⟨rfl, fun k hk => ?_, fun _ _ => rfl⟩
    have := ok.lt
    have := ok.le
    simp only [Member.width] at hk
    have hc : covers e (e.1.start + k) := by simp only [covers]; omega
    rw [placeInt_eq, hb _ (by omega), lastBit_append, lastBit, if_pos hc, lastBit_none]
    · simp [bitOf]
    · intro e' he' hc'
      exact covers_unique (hd e' he') hc hc'
  exact ⟨mem, hm, by rw [hw, hs.same hr]⟩

/-- The bits that no member has are zero. -/
theorem C59_init_rest_partial {platform : Bool} {o : Order} {n : Nat} (es : List Entry) (hok : ∀ e ∈ es, e.1.Ok n)
    (hn : bitstruct_requires_bitswap platform o = true → 2 ≤ n) (j : Nat)
    (hj : ∀ e ∈ es, ∀ k, k < e.1.width → placeInt (o.ofInt platform) n e.1 k ≠ j) :
    ∃ mem, initInt platform (bitstruct_requires_bitswap platform o) n es = some mem ∧ mem.length = n ∧ bitAt mem j = false := by
  obtain ⟨mem, hm, hl, hb⟩ := initInt_some (p := platform) hok hn
  refine ⟨mem, hm, hl, ?_⟩
  rw [order_xor] at hb
  by_cases hj8 : j < 8 * n
  · have := hb _ (pos_lt (big := o.ofInt platform) hj8)
    rw [pos_pos hj8] at this
    rw [this]
    apply lastBit_none
    intro e he hc
    simp only [covers] at hc
    refine hj e he (pos (o.ofInt platform) n j - e.1.start) (by simp only [Member.width]; omega) ?_
    rw [placeInt_eq, Nat.add_sub_cancel' hc.1, pos_pos hj8]
  · exact bitAt_ge (by omega)

/-- A constant has the bytes that the code for the same initializer would store, if no two members have bits in common.
Missing: those that do, see `C59_const_overlap`. -/
theorem C59_const_partial {platform : Bool} {o : Order} {n : Nat} (es : List Entry) (hok : ∀ e ∈ es, e.1.Ok n) (ha : Apart es) :
    constInt platform (bitstruct_requires_bitswap platform o) n es = initInt platform (bitstruct_requires_bitswap platform o) n es :=
  constInt_eq hok ha

/-! ## Examples -/

/-- `bitstruct : ushort @bigendian { int a : 3..8; bool b : 9; short c : 10..15; }` -/
abbrev exA : Member := ⟨3, 8, 4, true, false⟩
abbrev exB : Member := ⟨9, 9, 1, false, true⟩
abbrev exC : Member := ⟨10, 15, 2, true, false⟩

theorem exA_ok : exA.Ok 2 := ⟨by decide, by decide, by decide, by decide, by decide⟩
theorem exB_ok : exB.Ok 2 := ⟨by decide, by decide, by decide, by decide, by decide⟩
theorem exC_ok : exC.Ok 2 := ⟨by decide, by decide, by decide, by decide, by decide⟩

example : bitstruct_requires_bitswap false (some true) = true ∧ exA.Disjoint exB ∧ exA.Disjoint exC ∧ exB.Disjoint exC :=
  ⟨rfl, Or.inl (by decide), Or.inl (by decide), Or.inl (by decide)⟩

/-- 0b101101 is negative in six bits; its low five are the top of the second byte. -/
example : assignInt false true 2 [0x00#8, 0x00#8] exA 0b101101#32 = some [0b00000001#8, 0b01101000#8] ∧
    readInt false true 2 [0b00000001#8, 0b01101000#8] exA = some (-19 : BitVec 32) ∧ exA.wrap 0b101101#32 = (-19 : BitVec 32) := by
  decide +kernel

example : Apart [⟨exA, 5#32⟩, ⟨exB, 1#8⟩, ⟨exC, 7#16⟩] ∧ ∀ e ∈ [(⟨exA, 5#32⟩ : Entry), ⟨exB, 1#8⟩, ⟨exC, 7#16⟩], e.1.Ok 2 := by
  refine ⟨?_, ?_⟩
  · simp only [Apart, List.pairwise_cons, List.mem_cons, List.not_mem_nil, or_false, forall_eq_or_imp, forall_eq]
    exact ⟨⟨Or.inl (by decide), Or.inl (by decide)⟩, Or.inl (by decide), by simp⟩
  · simp only [List.mem_cons, List.not_mem_nil, or_false, forall_eq_or_imp, forall_eq]
    exact ⟨exA_ok, exB_ok, exC_ok⟩

/-! ## Where it fails -/

/-- With `@overlap` the values of two members are mixed in a constant; at run time the later one is stored. -/
theorem C59_const_overlap :
    ∃ (es : List Entry) (a b : Mem), (∀ e ∈ es, e.1.Ok 1) ∧ constInt false false 1 es = some a ∧ initInt false false 1 es = some b ∧ a ≠ b := by
  refine ⟨[⟨⟨0, 3, 1, false, false⟩, 5#8⟩, ⟨⟨0, 7, 1, false, false⟩, 2#8⟩], [7#8], [2#8], ?_, by decide +kernel, by decide +kernel, by decide⟩
  simp only [List.mem_cons, List.not_mem_nil, or_false, forall_eq_or_imp, forall_eq]
  exact ⟨⟨by decide, by decide, by decide, by decide, by decide⟩, ⟨by decide, by decide, by decide, by decide, by decide⟩⟩

/-- The value of `++x.a` may be one that `x.a` cannot have. -/
theorem C59_increment_value :
    ∃ (m : Member) (mem mem' : Mem) (v w : m.Value), m.Ok 1 ∧ incInt false false 1 mem m 1 true = some (v, mem') ∧
      readInt false false 1 mem' m = some w ∧ v ≠ w :=
  ⟨⟨0, 1, 1, false, false⟩, [3#8], [0#8], 4#8, 0#8, ⟨by decide, by decide, by decide, by decide, by decide⟩, by decide +kernel,
    by decide +kernel, by decide⟩

/-- A designator that leads into the bitstruct stores in the order of the platform, whatever the attribute. -/
theorem C59_nested_order {platform : Bool} {n : Nat} (m : Member) (ok : m.Ok n) (mem : Mem) (hl : mem.length = n) (v : m.Value) :
    ∃ mem', initNested platform n mem m v = some mem' ∧ Stores m (placeInt platform n m) mem mem' v := by
  obtain ⟨mem', h, hs⟩ := assignInt_some (p := platform) (swap := false) m ok hl (by simp) v
  rw [Bool.xor_false] at hs
  exact ⟨mem', h, hs⟩

/-- So it is read as another value if the bitstruct has the other order. -/
theorem C59_nested_wrong :
    ∃ (m : Member) (v w : m.Value) (mem : Mem), m.Ok 2 ∧ initNested false 2 [0#8, 0#8] m v = some mem ∧
      readInt false (bitstruct_requires_bitswap false (some true)) 2 mem m = some w ∧ w ≠ m.wrap v :=
  ⟨⟨0, 7, 1, false, false⟩, 1#8, 0#8, [1#8, 0#8], ⟨by decide, by decide, by decide, by decide, by decide⟩, by decide +kernel,
    by decide +kernel, by decide +kernel⟩

/-- The compiler fails for any use of a bitstruct of a `char` with the order that the platform does not have. -/
theorem C59_char_with_order (platform : Bool) (m : Member) (mem : Mem) (v : m.Value) :
    readInt platform (bitstruct_requires_bitswap platform (some !platform)) 1 mem m = none ∧
    assignInt platform (bitstruct_requires_bitswap platform (some !platform)) 1 mem m v = none := by
  have : bitstruct_requires_bitswap platform (some !platform) = true := by cases platform <;> rfl
  rw [this]
  unfold readInt assignInt extractInt swapIf llvm_emit_bswap
  cases load platform 1 mem <;> simp

end C3.Bitstruct
