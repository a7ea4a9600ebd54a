import Verif.Bitstruct.LemmasSema

/-!
# C62: the bitstructs that are accepted
-/

set_option autoImplicit false

namespace C3.Bitstruct

open C3.Bigint (CInt Int128 TypeKind)

/-- The compiler accepts a bitstruct, with certain members, if and only if: all or none of the members have a range; the members that are left
after `@if` are those; each is in the container and not wider than its type (`bool` is one bit); no two have bits in common, except with
`@overlap`; and the container has at most 4096 bits. -/
theorem C62_accepted (size : Nat) (overlap : Bool) (s : List Source) (ms : List Member) :
    bitstruct size overlap s = some ms ↔
      Uniform s ∧ List.Forall₂ (fun d m => 8 * size ≤ 4096 ∧ Says d.1 d.2 m ∧ m.Ok size) (kept s) ms ∧
        (overlap = false → ms.Pairwise Member.Disjoint) := by
  have hmem : ∀ d ∈ s.zipIdx, d.1 ∈ s := fun d hd => by
    have := List.mem_zipIdx hd
    simp at this
    rw [this.2]
    exact List.getElem_mem _
  constructor
  · intro h
    obtain ⟨⟨c, ds⟩, hp, h⟩ := Option.bind_eq_some_iff.1 h
    obtain ⟨h1, rfl, h3⟩ := parse_eq s c ds hp
    obtain ⟨new, rfl, h4, h5⟩ := (analyseAll_eq s.zipIdx (fun d hd => h3 d.1 (hmem d hd)) [] ms).1 h
    exact ⟨h1, h4, fun hov => (h5 hov).2⟩
  · rintro ⟨h1, h2, h3⟩
    obtain ⟨c, ds, hp⟩ := parse_some s h1
    obtain ⟨_, rfl, h4⟩ := parse_eq s c ds hp
    refine Option.bind_eq_some_iff.2 ⟨(c, _), hp, ?_⟩
    exact (analyseAll_eq s.zipIdx (fun d hd => h4 d.1 (hmem d hd)) [] ms).2 ⟨ms, rfl, h2, fun hov => ⟨by simp, h3 hov⟩⟩

theorem forall_right {size : Nat} : ∀ {ds : List (Source × Nat)} {ms : List Member},
    List.Forall₂ (fun d m => 8 * size ≤ 4096 ∧ Says d.1 d.2 m ∧ m.Ok size) ds ms → ∀ m ∈ ms, m.Ok size := by
  intro ds ms h
  induction h with
  | nil => intro m hm; cases hm
  | cons h _ ih =>
    intro m hm
    rcases List.mem_cons.1 hm with rfl | hm
    · exact h.2.2
    · exact ih m hm

/-- So what C59, C60 and C61 ask of the members is true of all bitstructs. -/
theorem C62_ok (size : Nat) (overlap : Bool) (s : List Source) (ms : List Member) (h : bitstruct size overlap s = some ms) :
    (∀ m ∈ ms, m.Ok size) ∧ (overlap = false → ∀ (i j : Nat) (hi : i < ms.length) (hj : j < ms.length), i ≠ j → ms[i].Disjoint ms[j]) := by
  obtain ⟨_, h1, h2⟩ := (C62_accepted size overlap s ms).1 h
  constructor
  · intro m hm
    exact forall_right h1 m hm
  · intro hov i j hi hj hne
    have h3 := List.pairwise_iff_getElem.1 (h2 hov)
    rcases Nat.lt_or_gt_of_ne hne with h4 | h4
    · exact h3 i j hi hj h4
    · exact Or.symm (h3 j i hj hi h4)

/-! ## Examples -/

/-- `{ int a : 3..8; bool b : 9; }` in a `ushort` -/
example : bitstruct 2 false [⟨.int .I32, .range (.const ⟨⟨0, 3⟩, .I32⟩) (.const ⟨⟨0, 8⟩, .U128⟩), false⟩, ⟨.bool, .single (.const ⟨⟨0, 9⟩, .I32⟩), false⟩] =
    some [⟨3, 8, 4, true, false⟩, ⟨9, 9, 1, false, true⟩] := by decide +kernel

/-- `{ bool a; bool b @if(false); bool c; }` in a `char` -/
example : bitstruct 1 false [⟨.bool, .none, false⟩, ⟨.bool, .none, true⟩, ⟨.bool, .none, false⟩] = some [⟨0, 0, 1, false, true⟩, ⟨2, 2, 1, false, true⟩] := by
  decide +kernel

/-- Not `{ char a : 0..4; char b : 4..7; }`, unless with `@overlap`; nor `{ char a : 0..8; }`. -/
example : bitstruct 2 false [⟨.int .U8, .range (.const ⟨⟨0, 0⟩, .I32⟩) (.const ⟨⟨0, 4⟩, .I32⟩), false⟩,
      ⟨.int .U8, .range (.const ⟨⟨0, 4⟩, .I32⟩) (.const ⟨⟨0, 7⟩, .I32⟩), false⟩] = none ∧
    bitstruct 2 true [⟨.int .U8, .range (.const ⟨⟨0, 0⟩, .I32⟩) (.const ⟨⟨0, 4⟩, .I32⟩), false⟩,
      ⟨.int .U8, .range (.const ⟨⟨0, 4⟩, .I32⟩) (.const ⟨⟨0, 7⟩, .I32⟩), false⟩] = some [⟨0, 4, 1, false, false⟩, ⟨4, 7, 1, false, false⟩] ∧
    bitstruct 2 false [⟨.int .U8, .range (.const ⟨⟨0, 0⟩, .I32⟩) (.const ⟨⟨0, 8⟩, .I32⟩), false⟩] = none := by decide +kernel

end C3.Bitstruct
