import Verif.Bitstruct.LemmasOps

/-!
# C61: `~`, `&`, `|`, `^` on constant bitstructs

They are compared with the code that is emitted for them, which works on all bytes of the object.
-/

set_option autoImplicit false

namespace C3.Bitstruct

/-- `&`, `|`, `^` on constants are what the code computes, for bitstructs that are integers and have no two members with bits in common.
Missing: those that do, see `C61_binary_overlap`. -/
theorem C61_binary_int_partial {platform swap : Bool} {n : Nat} (hn : swap = true → 2 ≤ n) (op : BitOp) (ms : List Member) (hok : ∀ m ∈ ms, m.Ok n)
    (ha : ApartMembers ms) (l r : Const) (hl : l.Typed ms) (hr : r.Typed ms) :
    ∃ c x y, sema_merge_bitstruct_const_initializers op ms l r = some c ∧ l.bytesInt platform swap n ms = some x ∧
      r.bytesInt platform swap n ms = some y ∧ c.bytesInt platform swap n ms = llvm_emit_bitstruct_binary_op platform n op x y := by
  obtain ⟨c, h1, h2, h3⟩ := merge_some op (fun m j => j - m.start) hl hr ha
  obtain ⟨x, hx, hxl, hxb⟩ := bytesInt_some (p := platform) hn hok hl
  obtain ⟨y, hy, hyl, hyb⟩ := bytesInt_some (p := platform) hn hok hr
  obtain ⟨z, hz, hzl, hzb⟩ := bytesInt_some (p := platform) hn hok h2
  obtain ⟨w, hw, hwl, hwb⟩ := binary_some (p := platform) op hxl hyl
  refine ⟨c, x, y, h1, hx, hy, ?_⟩
  rw [hz, hw]
  congr 1
  apply mem_ext (by omega)
  intro j
  by_cases hj : j < 8 * n
  · have hp := pos_lt (big := platform ^^ swap) hj
    have hzj := hzb _ hp
    have hxj := hxb _ hp
    have hyj := hyb _ hp
    rw [pos_pos hj] at hzj hxj hyj
    rw [hwb j hj, hxj, hyj, hzj, h3]
  · rw [bitAt_ge (by omega), bitAt_ge (by omega)]

/-- The same for those that are arrays of bytes. -/
theorem C61_binary_array_partial {platform swap : Bool} {n : Nat} (op : BitOp) (ms : List Member) (hok : ∀ m ∈ ms, m.Ok n ∧ Swappable swap m)
    (ha : ApartMembers ms) (l r : Const) (hl : l.Typed ms) (hr : r.Typed ms) :
    ∃ c x y, sema_merge_bitstruct_const_initializers op ms l r = some c ∧ l.bytesArray swap n ms = some x ∧
      r.bytesArray swap n ms = some y ∧ c.bytesArray swap n ms = llvm_emit_bitstruct_binary_op platform n op x y := by
  obtain ⟨c, h1, h2, h3⟩ := merge_some op (fun m j => rev swap m.width (j - m.start)) hl hr ha
  obtain ⟨x, hx, hxl, hxb⟩ := bytesArray_some hok hl
  obtain ⟨y, hy, hyl, hyb⟩ := bytesArray_some hok hr
  obtain ⟨z, hz, hzl, hzb⟩ := bytesArray_some hok h2
  obtain ⟨w, hw, hwl, hwb⟩ := binary_some (p := platform) op hxl hyl
  refine ⟨c, x, y, h1, hx, hy, ?_⟩
  rw [hz, hw]
  congr 1
  apply mem_ext (by omega)
  intro j
  by_cases hj : j < 8 * n
  · rw [hwb j hj, hxb, hyb, hzb, h3]
  · rw [bitAt_ge (by omega), bitAt_ge (by omega)]

/-- `~` on a constant inverts the members that are `bool` and, of those that are integers, all bits but the top one, which is zero.  For
bitstructs that are integers. -/
theorem C61_not_int_partial {platform : Bool} {o : Order} {n : Nat} (hn : bitstruct_requires_bitswap platform o = true → 2 ≤ n) (ms : List Member)
    (hok : ∀ m ∈ ms, m.Ok n ∧ Kinded m) (ha : ApartMembers ms) (c : Const) (hc : c.Typed ms) :
    ∃ c' x y, sema_invert_bitstruct_const_initializer ms c = some c' ∧ c.bytesInt platform (bitstruct_requires_bitswap platform o) n ms = some x ∧
      c'.bytesInt platform (bitstruct_requires_bitswap platform o) n ms = some y ∧
      ∀ m ∈ ms, ∀ k, k < m.width → bitAt y (placeInt (o.ofInt platform) n m k) =
        if m.bool ∨ k + 1 < m.width then !bitAt x (placeInt (o.ofInt platform) n m k) else false := by
  obtain ⟨c', h1, h2, h3⟩ := invert_some (fun m j => j - m.start) hc hok ha
  obtain ⟨x, hx, hxl, hxb⟩ := bytesInt_some (p := platform) hn (fun m hm => (hok m hm).1) hc
  obtain ⟨y, hy, hyl, hyb⟩ := bytesInt_some (p := platform) hn (fun m hm => (hok m hm).1) h2
  refine ⟨c', x, y, h1, hx, hy, fun m hm k hk => ?_⟩
  obtain ⟨ok, _⟩ := hok m hm
  have hle := ok.le
  have hlt := ok.lt
  have hwd : m.width = m.stop - m.start + 1 := rfl
  have hp : placeInt (o.ofInt platform) n m k = pos (platform ^^ bitstruct_requires_bitswap platform o) n (m.start + k) := by
    rw [order_xor]; rfl
  have h4 := h3 m hm (m.start + k) (by omega) (by omega) (by omega)
  rw [hp, hyb _ (by omega), hxb _ (by omega), h4, Nat.add_sub_cancel_left]
  by_cases h5 : m.bool = true ∨ k + 1 < m.width
  · rw [if_pos h5]
    rcases h5 with h5 | h5 <;> simp [h5]
  · rw [if_neg h5]
    simp only [not_or, Bool.not_eq_true] at h5
    simp [h5]

/-- The same for those that are arrays of bytes. -/
theorem C61_not_array_partial {swap : Bool} {n : Nat} (ms : List Member)
    (hok : ∀ m ∈ ms, m.Ok n ∧ Kinded m ∧ Swappable swap m) (ha : ApartMembers ms) (c : Const) (hc : c.Typed ms) :
    ∃ c' x y, sema_invert_bitstruct_const_initializer ms c = some c' ∧ c.bytesArray swap n ms = some x ∧ c'.bytesArray swap n ms = some y ∧
      ∀ m ∈ ms, ∀ k, k < m.width → bitAt y (placeArray swap m k) =
        if m.bool ∨ k + 1 < m.width then !bitAt x (placeArray swap m k) else false := by
  obtain ⟨c', h1, h2, h3⟩ := invert_some (fun m j => rev swap m.width (j - m.start)) hc (fun m hm => ⟨(hok m hm).1, (hok m hm).2.1⟩) ha
  obtain ⟨x, hx, hxl, hxb⟩ := bytesArray_some (fun m hm => ⟨(hok m hm).1, (hok m hm).2.2⟩) hc
  obtain ⟨y, hy, hyl, hyb⟩ := bytesArray_some (fun m hm => ⟨(hok m hm).1, (hok m hm).2.2⟩) h2
  refine ⟨c', x, y, h1, hx, hy, fun m hm k hk => ?_⟩
  obtain ⟨ok, _, hs⟩ := hok m hm
  have hle := ok.le
  have hwd : m.width = m.stop - m.start + 1 := rfl
  have hr := rev_lt hs hk
  have hrr := rev_rev hs hk
  have h4 := h3 m hm (m.start + rev swap m.width k) (by omega) (by omega) (by simp only [Nat.add_sub_cancel_left, hrr]; exact hk)
  simp only [Nat.add_sub_cancel_left, hrr] at h4
  rw [placeArray_eq, hyb, hxb, h4]
  by_cases h5 : m.bool = true ∨ k + 1 < m.width
  · rw [if_pos h5]
    rcases h5 with h5 | h5 <;> simp [h5]
  · rw [if_neg h5]
    simp only [not_or, Bool.not_eq_true] at h5
    simp [h5]

/-- The code for `~` inverts all bits. -/
theorem C61_not_code {platform : Bool} {n : Nat} (mem : Mem) (h : mem.length = n) :
    ∃ mem', emitNot platform n mem = some mem' ∧ mem'.length = n ∧ ∀ j, j < 8 * n → bitAt mem' j = !bitAt mem j := not_some h

/-! ## Examples -/

/-- `bitstruct : char { char a : 1..3; bool b : 4; ichar c : 5..7; }` -/
abbrev exMs : List Member := [⟨1, 3, 1, false, false⟩, ⟨4, 4, 1, false, true⟩, ⟨5, 7, 1, true, false⟩]

example : (∀ m ∈ exMs, m.Ok 1 ∧ Kinded m) ∧ ApartMembers exMs ∧
    Const.Typed exMs (.struct [.int ⟨⟨0, 5⟩, .U8⟩, .zero, .int ⟨⟨BitVec.allOnes 64, BitVec.allOnes 64⟩, .I8⟩]) := by
  refine ⟨?_, ?_, ⟨⟨rfl, rfl⟩, trivial, ⟨rfl, rfl⟩, trivial⟩⟩
  · intro m hm
    simp only [List.mem_cons, List.not_mem_nil, or_false] at hm
    rcases hm with rfl | rfl | rfl
    · exact ⟨⟨by decide, by decide, by decide, by decide, by decide⟩, Or.inr ⟨_, rfl⟩⟩
    · exact ⟨⟨by decide, by decide, by decide, by decide, by decide⟩, Or.inl rfl⟩
    · exact ⟨⟨by decide, by decide, by decide, by decide, by decide⟩, Or.inr ⟨_, rfl⟩⟩
  · simp [ApartMembers, Member.Disjoint]

example : (sema_merge_bitstruct_const_initializers .xor exMs (.struct [.int ⟨⟨0, 5⟩, .U8⟩, .zero, .int ⟨⟨0, 3⟩, .I8⟩])
    (.struct [.int ⟨⟨0, 6⟩, .U8⟩, .bool true, .zero])).bind (Const.bytesInt false false 1 exMs) = some [0b01110110#8] := by decide +kernel

/-! ## Where it fails -/

/-- `~` on a constant that is zero, for a member that is all of the bitstruct: 127, not 255. -/
theorem C61_not_wrong :
    ∃ (ms : List Member) (c : Const) (x y z : Mem), (∀ m ∈ ms, m.Ok 1 ∧ Kinded m) ∧ Const.bytesInt false false 1 ms .zero = some x ∧
      sema_invert_bitstruct_const_initializer ms .zero = some c ∧ c.bytesInt false false 1 ms = some y ∧ emitNot false 1 x = some z ∧ y ≠ z := by
  refine ⟨[⟨0, 7, 1, false, false⟩], .struct [.int ⟨⟨0, 127⟩, .U8⟩], [0#8], [127#8], [255#8], ?_, by decide +kernel, by decide +kernel,
    by decide +kernel, by decide +kernel, by decide⟩
  intro m hm
  simp only [List.mem_cons, List.not_mem_nil, or_false] at hm
  subst hm
  exact ⟨⟨by decide, by decide, by decide, by decide, by decide⟩, Or.inr ⟨_, rfl⟩⟩

/-- With `@overlap`, `&` on constants may be zero where the code gives one. -/
theorem C61_binary_overlap :
    ∃ (ms : List Member) (l r c : Const) (x y z w : Mem), (∀ m ∈ ms, m.Ok 1) ∧ l.Typed ms ∧ r.Typed ms ∧
      l.bytesInt false false 1 ms = some x ∧ r.bytesInt false false 1 ms = some y ∧ sema_merge_bitstruct_const_initializers .and ms l r = some c ∧
      c.bytesInt false false 1 ms = some z ∧ llvm_emit_bitstruct_binary_op false 1 .and x y = some w ∧ z ≠ w := by
  refine ⟨[⟨0, 3, 1, false, false⟩, ⟨0, 0, 1, false, true⟩], .struct [.int ⟨⟨0, 1⟩, .U8⟩, .zero], .struct [.zero, .bool true],
    .struct [.zero, .zero], [1#8], [1#8], [0#8], [1#8], ?_, ⟨⟨rfl, rfl⟩, trivial, trivial⟩, ⟨trivial, rfl, trivial⟩, by decide +kernel,
    by decide +kernel, by decide +kernel, by decide +kernel, by decide +kernel, by decide⟩
  intro m hm
  simp only [List.mem_cons, List.not_mem_nil, or_false] at hm
  rcases hm with rfl | rfl
  · exact ⟨by decide, by decide, by decide, by decide, by decide⟩
  · exact ⟨by decide, by decide, by decide, by decide, by decide⟩

end C3.Bitstruct
