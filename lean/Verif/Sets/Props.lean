import Verif.Sets.Lemmas
/-
Property theorems C124-C130: bit sets and enum sets of the standard library.
-/
set_option autoImplicit false

namespace C3.Sets
open Std

/-! ### C124: a BitSet is a finite set of indices -/

/-- C124. Whatever sequence of `set`, `unset`, `[]=`, `|`, `&` and `^` with indices below `SIZE`
builds a `BitSet`: nothing aborts, and afterwards `get` answers membership in the mathematical set
for every index below `SIZE`. -/
theorem C124_bitset (size : Nat) (p : Prog) (hp : p.Below size) (hn : p.NoDiff) :
    ∃ d, BitSet.run size p = some d ∧
      ∀ i, i < size → BitSet.get size d i = some (decide (i ∈ p.sem)) := by
  obtain ⟨d, h1, h2, h3⟩ := BitSet.run_eq size p hp hn
  exact ⟨d, h1, fun i hi => by rw [BitSet.get_eq h2 hi, h3]⟩

/-- C124. `cardinality` is the number of members. -/
theorem C124_cardinality (size : Nat) (p : Prog) (hp : p.Below size) (hn : p.NoDiff) :
    ∃ d, BitSet.run size p = some d ∧ BitSet.cardinality d = p.sem.card := by
  obtain ⟨d, h1, h2, h3⟩ := BitSet.run_eq size p hp hn
  exact ⟨d, h1, card_of_bits (by decide) d p.sem h3⟩

/-- C124. An index that is not below `SIZE` is refused by all four operations. -/
theorem C124_refuses (size : Nat) (d : BitSet.Data) (i : Nat) (v : Bool) (h : size ≤ i) :
    BitSet.set size d i = none ∧ BitSet.unset size d i = none ∧ BitSet.get size d i = none ∧
      BitSet.setBool size d i v = none := by
  have : ¬ i < size := by omega
  simp [BitSet.set, BitSet.unset, BitSet.get, BitSet.setBool, this]

example : ∃ d, BitSet.run 70 (.xor (.add (.add .empty 31) 69) (.add (.put .empty 31 true) 5)) = some d ∧
    BitSet.get 70 d 69 = some true ∧ BitSet.get 70 d 31 = some false ∧ BitSet.cardinality d = 2 :=
  ⟨_, rfl, by decide, by decide, by decide⟩

/-! ### C125: walking a BitSet -/

/-- C125, in full: `foreach` over a `BitSet{SIZE}` visits the `SIZE` bits in order. -/
def C125_full : Prop :=
  ∀ (size : Nat) (p : Prog), 0 < size → p.Below size → p.NoDiff →
    ∃ d, BitSet.run size p = some d ∧
      BitSet.foreachAll size d = some ((List.range size).map fun i => decide (i ∈ p.sem))

/-- C125: it does when `SIZE` is a multiple of 32. Missing: every other size. -/
theorem C125_foreach_partial (size : Nat) (h32 : size % 32 = 0) (p : Prog) (hp : p.Below size)
    (hn : p.NoDiff) :
    ∃ d, BitSet.run size p = some d ∧
      BitSet.foreachAll size d = some ((List.range size).map fun i => decide (i ∈ p.sem)) := by
  obtain ⟨d, h1, h2⟩ := C124_bitset size p hp hn
  refine ⟨d, h1, ?_⟩
  have hl : BitSet.len size = size := by
    unfold BitSet.len BitSet.SZ BitSet.BITS; omega
  rw [BitSet.foreachAll, hl]
  exact mapM_some _ _ _ fun i hi => h2 i (List.mem_range.1 hi)

/-- C125: for every other size the walk aborts, whatever the set holds: `len` counts the bits of the
words and `get` refuses the ones from `SIZE` on. -/
theorem C125_aborts (size : Nat) (h32 : size % 32 ≠ 0) (d : BitSet.Data) :
    BitSet.foreachAll size d = none := by
  have hlt : size < BitSet.len size := by
    unfold BitSet.len BitSet.SZ BitSet.BITS; omega
  exact mapM_none _ _ size (List.mem_range.2 hlt) (C124_refuses size d size true (Nat.le_refl _)).2.2.1

theorem C125_fails : ¬ C125_full := by
  intro h
  obtain ⟨d, -, h2⟩ := h 10 .empty (by decide) trivial trivial
  rw [C125_aborts 10 (by decide)] at h2
  cases h2

example : (BitSet.run 32 (.add .empty 3)).bind (BitSet.foreachAll 32) =
    some ((List.range 32).map fun i => decide (i = 3)) := by decide

/-! ### C126: a GrowableBitSet is a finite set of numbers -/

/-- C126. With words of 8, 16 or 32 bits: whatever sequence of `set`, `unset` and `[]=` builds the
set, nothing aborts, and `get` answers membership for every number. -/
theorem C126_growable (w : Nat) (hw : w = 8 ∨ w = 16 ∨ w = 32) (p : Prog) (hp : p.Single) :
    ∃ d, Growable.run w p = some d ∧ ∀ i, Growable.get d i = some (decide (i ∈ p.sem)) := by
  obtain ⟨d, h1, h2⟩ := Growable.run_eq (w := w) (by omega) (by omega) p hp
  exact ⟨d, h1, fun i => by rw [Growable.get_eq (by omega) (by omega), h2]⟩

/-- C126. `cardinality` is the number of members. -/
theorem C126_cardinality (w : Nat) (hw : w = 8 ∨ w = 16 ∨ w = 32) (p : Prog) (hp : p.Single) :
    ∃ d, Growable.run w p = some d ∧ Growable.cardinality d = p.sem.card := by
  obtain ⟨d, h1, h2⟩ := Growable.run_eq (w := w) (by omega) (by omega) p hp
  exact ⟨d, h1, card_of_bits (by omega) d p.sem h2⟩

example : ∃ d, Growable.run 8 (.remove (.add (.add .empty 20) 7) 20) = some d ∧
    Growable.get d 7 = some true ∧ Growable.get d 20 = some false ∧ Growable.get d 1000 = some false ∧
    Growable.cardinality d = 1 := ⟨_, rfl, by decide, by decide, by decide, by decide⟩

/-! ### C127: the length of a GrowableBitSet -/

/-- C127, in full: `len` is one more than the largest member, and zero for the empty set. -/
def C127_full : Prop :=
  ∀ (w : Nat), (w = 8 ∨ w = 16 ∨ w = 32) → ∀ p : Prog, p.Single →
    ∃ d, Growable.run w p = some d ∧ Growable.len d = p.sem.sup (· + 1)

/-- C127: every member is below `len`. -/
theorem C127_bound (w : Nat) (hw : w = 8 ∨ w = 16 ∨ w = 32) (p : Prog) (hp : p.Single) :
    ∃ d, Growable.run w p = some d ∧ ∀ i ∈ p.sem, i < Growable.len d := by
  obtain ⟨d, h1, h2⟩ := Growable.run_eq (w := w) (by omega) (by omega) p hp
  refine ⟨d, h1, fun i hi => ?_⟩
  by_contra hlt
  have := Growable.len_above (by omega) d i (by omega)
  rw [h2] at this
  simp [hi] at this

/-- C127: as long as nothing is removed `len` is one more than the largest member. Missing:
histories with a removal, where the empty words at the end are counted. -/
theorem C127_len_partial (w : Nat) (hw : w = 8 ∨ w = 16 ∨ w = 32) (p : Prog) (hp : p.Growing) :
    ∃ d, Growable.run w p = some d ∧ Growable.len d = p.sem.sup (· + 1) := by
  obtain ⟨d, h1, h2, h3⟩ := Growable.run_growing (w := w) (by omega) (by omega) p hp
  refine ⟨d, h1, ?_⟩
  apply Nat.le_antisymm
  · by_cases hd : d = []
    · subst hd; simp [Growable.len]
    · obtain ⟨j, hj, hj2⟩ := h3 hd
      obtain ⟨hpos, hbit⟩ := Growable.len_top (by omega) d hd j (by rw [h2]; simpa using hj) hj2
      rw [h2] at hbit
      have hm : Growable.len d - 1 ∈ p.sem := by simpa using hbit
      have := Finset.le_sup (f := (· + 1)) hm
      omega
  · apply Finset.sup_le
    intro i hi
    by_contra hlt
    have := Growable.len_above (by omega) d i (by omega)
    rw [h2] at this
    simp [hi] at this

theorem C127_fails : ¬ C127_full := by
  intro h
  obtain ⟨d, h1, h2⟩ := h 8 (Or.inl rfl) (.remove (.add .empty 20) 20) trivial
  have h3 : (Growable.run 8 (.remove (.add .empty 20) 20)).map Growable.len = some 16 := by decide
  rw [h1] at h3
  have h4 : Growable.len d = 16 := by simpa using h3
  have h5 : (Prog.sem (.remove (.add .empty 20) 20)) = ∅ := by decide
  rw [h4, h5] at h2
  simp at h2

example : (Growable.run 16 (.add (.add .empty 20) 7)).map Growable.len = some 21 := by decide

/-! ### C128: an EnumSet of at most 32 elements -/

/-- C128. For an enum of at most 32 elements: whatever operations build the set, nothing aborts, and
`has` answers membership. -/
theorem C128_enumset (n : Nat) (hn : n ≤ 32) (p : Prog) (hp : p.Below 32) :
    ∃ s, Small.run p = some s ∧ ∀ v, v < n → Small.has s v = some (decide (v ∈ p.sem)) := by
  obtain ⟨s, h1, h2⟩ := Small.run_eq p hp
  refine ⟨s, h1, fun v hv => ?_⟩
  have hv : v < 32 := by omega
  have e : Small.has s v = some (s &&& 1#32 <<< v != 0) := by simp [Small.has, shlOne_lt hv]
  rw [e, and_oneShl _ _ hv, h2]

/-- C128. `remove` says whether the element was there. -/
theorem C128_remove (p : Prog) (hp : p.Below 32) (v : Nat) (hv : v < 32) :
    ∃ s, Small.run p = some s ∧ ∃ s', Small.remove s v = some (s', decide (v ∈ p.sem)) := by
  obtain ⟨s, h1, h2⟩ := Small.run_eq p hp
  refine ⟨s, h1, s &&& ~~~ (1#32 <<< v), ?_⟩
  · simp only [Small.remove, shlOne_lt hv, Option.bind_eq_bind, Option.bind_some, Option.some.injEq,
      Prod.mk.injEq, true_and]
    rw [← h2]
    cases hb : s.getLsbD v
    · have : s = s &&& ~~~ (1#32 <<< v) := by
        apply BitVec.eq_of_getLsbD_eq
        intro k hk
        rw [BitVec.getLsbD_and, BitVec.getLsbD_not, getLsbD_oneShl _ _ hk]
        by_cases h : k = v
        · subst h; simp [hb]
        · simp [h, hk]
      rw [← this]; simp
    · have : s ≠ s &&& ~~~ (1#32 <<< v) := by
        intro h
        have := congrArg (fun y => BitVec.getLsbD y v) h
        simp only [BitVec.getLsbD_and, BitVec.getLsbD_not, getLsbD_oneShl _ _ hv, hb] at this
        simp at this
      simpa using this

/-- C128. Two sets are equal values exactly when they have the same members. -/
theorem C128_equal (p q : Prog) (hp : p.Below 32) (hq : q.Below 32) :
    Small.run p = Small.run q ↔ p.sem = q.sem := by
  obtain ⟨s, h1, h2⟩ := Small.run_eq p hp
  obtain ⟨t, g1, g2⟩ := Small.run_eq q hq
  rw [h1, g1]
  constructor
  · intro h
    have h : s = t := by simpa using h
    subst h
    ext i
    have := (h2 i).symm.trans (g2 i)
    simpa using this
  · intro h
    congr 1
    apply BitVec.eq_of_getLsbD_eq
    intro k _
    rw [h2, g2, h]

example : Small.run (.diff (.union (.add .empty 31) (.add .empty 0)) (.add .empty 0)) = some 0x80000000#32 ∧
    Small.remove 0x80000000#32 31 = some (0#32, true) ∧ Small.has 0x80000000#32 31 = some true := by decide

/-! ### C129: an EnumSet of more than 128 elements -/

/-- C129, in full: the same for an enum of more than 128 elements. -/
def C129_full : Prop :=
  ∀ (n : Nat) (p : Prog), 128 < n → p.Below n →
    ∃ d, Big.run n p = some d ∧ ∀ v, v < n → Big.has d v = some (decide (v ∈ p.sem))

/-- C129: it holds for the elements whose ordinal is a multiple of eight. Missing: all others. -/
theorem C129_enumset_partial (n : Nat) (p : Prog) (hp : p.Below n) :
    ∃ d, Big.run n p = some d ∧
      ∀ v, v < n → v % 8 = 0 → Big.has d v = some (decide (v ∈ p.sem)) ∧
        ∃ d', Big.remove d v = some (d', decide (v ∈ p.sem)) := by
  obtain ⟨d, h1, h2, h3⟩ := Big.run_eq n p hp
  refine ⟨d, h1, fun v hv h0 => ?_⟩
  have hq : v / 8 < d.length := by omega
  refine ⟨by rw [Big.has_eq d v hq, h3 v h0]; simp [h0], ?_⟩
  obtain ⟨d', h4, -, -⟩ := Big.remove_eq hq
  exact ⟨d', by rw [h4, h3 v h0]; simp [h0]⟩

/-- C129: an element whose ordinal is not a multiple of eight is never found and never removed,
whatever the set holds. -/
theorem C129_blind (n : Nat) (d : Big.Data) (hd : d.length = (n + 7) / 8) (v : Nat) (hv : v < n)
    (h8 : v % 8 ≠ 0) :
    Big.has d v = some false ∧ Big.remove d v = some (d, false) := by
  have hq : v / 8 < d.length := by omega
  have hh : Big.has d v = some false := by rw [Big.has_eq d v hq]; simp [h8]
  exact ⟨hh, by rw [Big.remove, hh]; rfl⟩

theorem C129_fails : ¬ C129_full := by
  intro h
  obtain ⟨d, h1, h2⟩ := h 129 (.add .empty 1) (by decide) (by simp [Prog.Below])
  obtain ⟨d', g1, g2, -⟩ := Big.run_eq 129 (.add .empty 1) (by simp [Prog.Below])
  have e : d = d' := by rw [h1] at g1; simpa using g1
  subst e
  have := h2 1 (by decide)
  rw [(C129_blind 129 d g2 1 (by decide) (by decide)).1] at this
  simp [Prog.sem] at this

example : (Big.run 200 (.add (.add .empty 16) 17)).bind (fun d => Big.has d 16) = some true ∧
    (Big.run 200 (.add (.add .empty 16) 17)).bind (fun d => Big.has d 17) = some false := by decide

/-! ### C130: printing an EnumSet -/

/-- C130. For an enum of at most 32 elements the printed form is the names of the members in the
order of the declaration, between brackets and separated by a comma and a blank, and the count
returned is its length in bytes. -/
theorem C130_print (names : List String) (hn : names.length ≤ 32) (p : Prog)
    (hp : p.Below names.length) :
    ∃ s, Small.run p = some s ∧
      ∃ text, text = "[" ++ ", ".intercalate (membersFrom p.sem names 0) ++ "]" ∧
        toFormat (Small.has s) names = some (text, text.utf8ByteSize) := by
  have hp' : p.Below 32 := by
    have : ∀ (q : Prog), q.Below names.length → q.Below 32 := by
      intro q
      induction q with
      | empty => intro _; trivial
      | add q i ih | remove q i ih | put q i v ih => exact fun h => ⟨ih h.1, by have := h.2; omega⟩
      | union a b iha ihb | inter a b iha ihb | diff a b iha ihb | xor a b iha ihb =>
        exact fun h => ⟨iha h.1, ihb h.2⟩
    exact this p hp
  obtain ⟨s, h1, h2⟩ := C128_enumset names.length hn p hp'
  refine ⟨s, h1, _, rfl, ?_⟩
  unfold toFormat
  rw [formatLoop_eq (Small.has s) p.sem names.length h2 names 0 false (by omega)]
  simp

example : (Small.run (.add (.add .empty 2) 0)).bind (fun s => toFormat (Small.has s) ["RED", "GREEN", "BLUE"]) =
    some ("[RED, BLUE]", 11) := by decide

end C3.Sets
