import Verif.Slice2d.Model

/-! # Two-dimensional slices -/

set_option autoImplicit false

namespace C3.Slice2d

theorem usz_of {z : Int} (h : 0 ≤ z) (h' : z < 2 ^ 64) : (usz z : Int) = z := by
  unfold usz
  rw [Int.emod_eq_of_lt h h']
  omega

theorem slice_some {s r : Slice2d} {x xlen y ylen : Int} (h : slice s x xlen y ylen = some r) :
    (0 ≤ y ∧ y < s.ylen ∧ 0 ≤ x ∧ x < s.xlen) ∧
      r = ⟨s.innerLen, usz y + s.ystart, newLen s.ylen ylen, usz x + s.xstart, newLen s.xlen xlen⟩ := by
  unfold slice at h
  split at h
  · rename_i hc
    exact ⟨hc, (Option.some.inj h).symm⟩
  · cases h

/-! ## C191 -/

/-- The elements of `r` are elements of `s`. -/
def Within (r s : Slice2d) : Prop :=
  ∀ x y p, getXyRef r x y = some p → ∃ x' y', getXyRef s x' y' = some p

/-- The whole of C191: a slice of a slice has only elements of that one, and a slice of an array only elements of the array. -/
def C191_full : Prop :=
  (∀ (s r : Slice2d) (x xlen y ylen : Int), s.xlen < 2 ^ 63 → s.ylen < 2 ^ 63 → s.xstart + s.xlen ≤ s.innerLen →
    slice s x xlen y ylen = some r → Within r s) ∧
  ∀ (w h : Nat) (x xlen y ylen : Int) (i j p : Nat), w < 2 ^ 63 → h < 2 ^ 63 → 0 ≤ x → x < w → 0 ≤ y → y < h →
    getXyRef (ofArray w h x xlen y ylen) i j = some p → p < w * h

/-- The element of a slice of a slice is the one of that slice moved by the start. -/
theorem C191_position {s r : Slice2d} {x xlen y ylen : Int} (hx : s.xlen < 2 ^ 63) (hy : s.ylen < 2 ^ 63)
    (h : slice s x xlen y ylen = some r) (i j : Nat) : addr r i j = addr s (x.toNat + i) (y.toNat + j) := by
  obtain ⟨⟨h1, h2, h3, h4⟩, rfl⟩ := slice_some h
  have ex : usz x = x.toNat := by have := usz_of h3 (by omega); omega
  have ey : usz y = y.toNat := by have := usz_of h1 (by omega); omega
  simp only [addr, ex, ey]
  rw [show j + (y.toNat + s.ystart) = y.toNat + j + s.ystart by omega]
  omega

/-- A slice of a slice is within it if the lengths are given and fit, or if as much is left out as the start is moved by. -/
theorem C191_within_partial {s r : Slice2d} {x xlen y ylen : Int} (hx : s.xlen < 2 ^ 63) (hy : s.ylen < 2 ^ 63)
    (h : slice s x xlen y ylen = some r)
    (h1 : 1 ≤ xlen ∧ x + xlen ≤ s.xlen ∨ xlen ≤ 0 ∧ x + xlen ≤ 0 ∧ 0 ≤ s.xlen + xlen)
    (h2 : 1 ≤ ylen ∧ y + ylen ≤ s.ylen ∨ ylen ≤ 0 ∧ y + ylen ≤ 0 ∧ 0 ≤ s.ylen + ylen) : Within r s := by
  intro i j p hp
  have hpos := C191_position hx hy h i j
  obtain ⟨⟨c1, c2, c3, c4⟩, e⟩ := slice_some h
  unfold getXyRef at hp
  split at hp
  · rename_i hij
    have hlx : (r.xlen : Int) = if xlen < 1 then s.xlen + xlen else xlen := by
      rw [e]; exact usz_of (by split <;> omega) (by split <;> omega)
    have hly : (r.ylen : Int) = if ylen < 1 then s.ylen + ylen else ylen := by
      rw [e]; exact usz_of (by split <;> omega) (by split <;> omega)
    refine ⟨x.toNat + i, y.toNat + j, ?_⟩
    rw [getXyRef, if_pos ?_, ← hpos]
    · exact hp
    · constructor
      · split at hly <;> omega
      · split at hlx <;> omega
  · cases hp

/-- A start in `x` without a length gives a slice that is as wide as before: its last
row goes on behind that of the slice it is made from. -/
theorem C191_default {s : Slice2d} {x : Int} (hx : s.xlen < 2 ^ 63) (hy : s.ylen < 2 ^ 63)
    (h0 : 0 < x) (h1 : x < s.xlen) (hrow : 0 < s.ylen) :
    ∃ r, slice s x 0 0 0 = some r ∧ r.xlen = s.xlen ∧ ¬ Within r s := by
  have hs : slice s x 0 0 0 = some ⟨s.innerLen, usz 0 + s.ystart, newLen s.ylen 0, usz x + s.xstart, newLen s.xlen 0⟩ := by
    rw [slice, if_pos ⟨by omega, by omega, by omega, h1⟩]
  have hl : newLen s.xlen 0 = s.xlen := by
    have := usz_of (z := s.xlen + 0) (by omega) (by omega)
    simp only [newLen, show (0 : Int) < 1 by omega, if_true]; omega
  have hl' : newLen s.ylen 0 = s.ylen := by
    have := usz_of (z := s.ylen + 0) (by omega) (by omega)
    simp only [newLen, show (0 : Int) < 1 by omega, if_true]; omega
  refine ⟨_, hs, hl, fun hw => ?_⟩
  obtain ⟨x', y', hp⟩ := hw (s.xlen - 1) (s.ylen - 1) _ (by rw [getXyRef, if_pos ⟨by simp only [hl']; omega, by simp only [hl]; omega⟩])
  have hpos := C191_position hx hy hs (s.xlen - 1) (s.ylen - 1)
  unfold getXyRef at hp
  split at hp
  · rename_i hc
    have e := Option.some.inj hp
    rw [hpos] at e
    simp only [addr] at e
    have := Nat.mul_le_mul_left s.innerLen (show y' + s.ystart ≤ Int.toNat 0 + (s.ylen - 1) + s.ystart by simp; omega)
    omega
  · cases hp

/-- Likewise for an array: the last row of such a slice ends behind the array. -/
theorem C191_array_default {w h : Nat} {x : Int} (hw : w < 2 ^ 63) (hh : h < 2 ^ 63) (h0 : 0 < x) (h1 : x < w) (hh0 : 0 < h) :
    ∃ p, getXyRef (ofArray w h x 0 0 0) (w - 1) (h - 1) = some p ∧ w * h ≤ p := by
  have hl : newLen w 0 = w := by
    have := usz_of (z := w + 0) (by omega) (by omega)
    simp only [newLen, show (0 : Int) < 1 by omega, if_true]; omega
  have hl' : newLen h 0 = h := by
    have := usz_of (z := h + 0) (by omega) (by omega)
    simp only [newLen, show (0 : Int) < 1 by omega, if_true]; omega
  have hx := usz_of (z := x) (by omega) (by omega)
  refine ⟨_, by rw [getXyRef, if_pos ⟨by simp only [ofArray, hl']; omega, by simp only [ofArray, hl]; omega⟩], ?_⟩
  simp only [addr, ofArray]
  have e : w * h = w * (h - 1) + w := by
    conv => lhs; rw [show h = h - 1 + 1 by omega]
    rw [Nat.mul_succ]
  rw [show usz 0 = 0 from rfl, Nat.add_zero]
  omega

/-- A slice of an array that fits has only elements of the array. -/
theorem C191_array_partial {w h : Nat} {x xlen y ylen : Int} (hw : w < 2 ^ 63) (hh : h < 2 ^ 63) (hx : 0 ≤ x) (hy : 0 ≤ y)
    (h1 : 1 ≤ xlen ∧ x + xlen ≤ w ∨ xlen ≤ 0 ∧ x + xlen ≤ 0 ∧ 0 ≤ w + xlen)
    (h2 : 1 ≤ ylen ∧ y + ylen ≤ h ∨ ylen ≤ 0 ∧ y + ylen ≤ 0 ∧ 0 ≤ h + ylen) {i j p : Nat}
    (hp : getXyRef (ofArray w h x xlen y ylen) i j = some p) : p < w * h := by
  unfold getXyRef at hp
  split at hp
  · rename_i hij
    have hlx : ((ofArray w h x xlen y ylen).xlen : Int) = if xlen < 1 then w + xlen else xlen :=
      usz_of (by split <;> omega) (by split <;> omega)
    have hly : ((ofArray w h x xlen y ylen).ylen : Int) = if ylen < 1 then h + ylen else ylen :=
      usz_of (by split <;> omega) (by split <;> omega)
    have ex := usz_of hx (by omega)
    have ey := usz_of hy (by omega)
    have hX : usz x + i < w := by split at hlx <;> omega
    have hY : j + usz y < h := by split at hly <;> omega
    rw [← Option.some.inj hp]
    simp only [addr, ofArray]
    have := Nat.mul_le_mul_left w (show j + usz y + 1 ≤ h by omega)
    rw [Nat.mul_succ] at this
    omega
  · cases hp

theorem C191_fails : ¬ C191_full := by
  intro h
  obtain ⟨p, h1, h2⟩ := C191_array_default (w := 3) (h := 2) (x := 1) (by decide) (by decide) (by decide) (by decide) (by decide)
  exact absurd (h.2 3 2 1 0 0 0 _ _ p (by decide) (by decide) (by decide) (by decide) (by decide) (by decide) h1) (by omega)

example : slice ⟨5, 1, 3, 1, 4⟩ 1 2 0 (-1) = some ⟨5, 1, 2, 2, 2⟩ := by decide
example : slice ⟨5, 1, 1, 1, 4⟩ 1 0 0 0 = some ⟨5, 1, 1, 2, 4⟩ := by decide
example : getXyRef (ofArray 3 2 1 0 0 0) 2 1 = some 6 := by decide

/-! ## C192 -/

/-- The rows are made of the elements at the coordinates. -/
theorem C192_row (s : Slice2d) {y : Nat} (hy : y < s.ylen) :
    ∃ row, getRow s y = some row ∧ row.length = s.xlen ∧ ∀ x, x < s.xlen → row[x]? = getXyRef s x y := by
  refine ⟨_, by rw [getRow, if_pos hy], by simp, fun x hx => ?_⟩
  rw [getXyRef, if_pos ⟨hy, hx⟩, List.getElem?_map, List.getElem?_range hx]
  simp [addr]; omega

/-- Different coordinates are different elements, if the rows of the slice are within those of the array. -/
theorem C192_distinct (s : Slice2d) (h : s.xstart + s.xlen ≤ s.innerLen) {x y x' y' p : Nat}
    (h1 : getXyRef s x y = some p) (h2 : getXyRef s x' y' = some p) : x = x' ∧ y = y' := by
  unfold getXyRef at h1 h2
  split at h1
  · split at h2
    · rename_i c1 c2
      have e : addr s x y = addr s x' y' := (Option.some.inj h1).trans (Option.some.inj h2).symm
      simp only [addr] at e
      have hy : y + s.ystart = y' + s.ystart := by
        rcases Nat.lt_trichotomy (y + s.ystart) (y' + s.ystart) with hlt | heq | hgt
        · have := Nat.mul_le_mul_left s.innerLen (show y + s.ystart + 1 ≤ y' + s.ystart by omega)
          rw [Nat.mul_succ] at this
          omega
        · exact heq
        · have := Nat.mul_le_mul_left s.innerLen (show y' + s.ystart + 1 ≤ y + s.ystart by omega)
          rw [Nat.mul_succ] at this
          omega
      rw [hy] at e
      omega
    · cases h2
  · cases h1

theorem mapM_some {α β : Type} (f : α → Option β) (g : α → β) (l : List α) (h : ∀ a ∈ l, f a = some (g a)) :
    l.mapM f = some (l.map g) := by
  induction l with
  | nil => rfl
  | cons a l ih =>
    rw [List.mapM_cons, h a (by simp), ih fun b hb => h b (by simp [hb])]
    rfl

theorem each_eq (s : Slice2d) : eachRef s = some ((List.range s.ylen).flatMap fun y =>
    (List.range s.xlen).map fun x => ((x, y), addr s x y)) := by
  have : ((List.range (len s)).mapM fun y => (getRow s y).map fun row => row.zipIdx.map fun p => ((p.2, y), p.1)) =
      some ((List.range s.ylen).map fun y => (List.range s.xlen).map fun x => ((x, y), addr s x y)) := by
    refine mapM_some _ _ _ fun y hy => ?_
    have hy : y < s.ylen := List.mem_range.1 hy
    rw [getRow, if_pos hy]
    simp only [Option.map_some, Option.some.injEq]
    apply List.ext_getElem?
    intro k
    simp only [List.getElem?_map, List.getElem?_zipIdx]
    by_cases hk : k < s.xlen
    · rw [List.getElem?_range hk]; simp [addr]; omega
    · rw [List.getElem?_eq_none (by simp; omega)]; simp
  rw [eachRef, this, Option.map_some, List.flatMap_def]

/-- `@each` and `@each_ref` visit every coordinate with its element, each once, as many as `count` says. -/
theorem C192_each (s : Slice2d) : ∃ l, eachRef s = some l ∧ l.length = count s ∧ (l.map Prod.fst).Nodup ∧
    ∀ x y p, ((x, y), p) ∈ l ↔ getXyRef s x y = some p := by
  refine ⟨_, each_eq s, ?_, ?_, fun x y p => ?_⟩
  · rw [List.length_flatMap]
    simp only [List.length_map, List.length_range, count]
    rw [List.map_const', List.sum_replicate_nat, List.length_range]
  · rw [List.map_flatMap, List.Nodup, List.pairwise_flatMap]
    refine ⟨fun y _ => ?_, ?_⟩
    · rw [List.map_map, List.pairwise_map]
      refine List.Pairwise.imp ?_ (List.nodup_range (n := s.xlen))
      intro a b h e
      exact h (Prod.mk.inj e).1
    · refine List.Pairwise.imp ?_ (List.nodup_range (n := s.ylen))
      intro a b hab q hq q' hq' e
      simp only [List.map_map, List.mem_map, Function.comp] at hq hq'
      obtain ⟨_, _, rfl⟩ := hq
      obtain ⟨_, _, rfl⟩ := hq'
      exact hab (Prod.mk.inj e).2
  · simp only [List.mem_flatMap, List.mem_range, List.mem_map, Prod.mk.injEq, getXyRef]
    constructor
    · rintro ⟨y', hy, x', hx, ⟨rfl, rfl⟩, rfl⟩
      rw [if_pos ⟨hy, hx⟩]
    · intro h
      split at h
      · rename_i c
        exact ⟨y, c.1, x, c.2, ⟨rfl, rfl⟩, Option.some.inj h⟩
      · cases h

example : eachRef ⟨5, 1, 2, 2, 2⟩ = some [((0, 0), 7), ((1, 0), 8), ((0, 1), 12), ((1, 1), 13)] := by decide

end C3.Slice2d
