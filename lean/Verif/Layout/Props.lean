import Verif.Layout.LemmasTree

/-!
# C24: layout of structs and unions
-/

set_option autoImplicit false

namespace C3.Layout

open Spec

theorem fits_final {attrs : Attrs} {ms : List Member} {offs : List Nat} {last a size : Nat} (hv : Valid attrs ms)
    (hp : Placed attrs 0 ms offs last) (ha : IsAlignment attrs ms a) (hs : FirstFrom last a size) (hf : Fits ms size) :
    offs = offsets attrs 0 ms ∧ last = lastEnd attrs 0 ms ∧ a = finalAlign attrs (steps attrs (start attrs) ms) ∧
    size = roundUp last a ∧
    Fits ms (roundUp (lastEnd attrs 0 ms) (finalAlign attrs (steps attrs (start attrs) ms))) := by
  obtain ⟨h1, h2⟩ := (placed_iff attrs 0 ms (ValidMembers.required hv.2) offs last).1 hp
  have h3 := isAlignment_unique attrs ms _ _ ha (finalAlign_is attrs ms)
  have h4 := (firstFrom_iff last a size ha.2.1).1 hs
  exact ⟨h1, h2, h3, h4, by rw [← h3, ← h2, ← h4]; exact hf⟩

/-- An accepted struct has its members one after the other, each at the first offset with the alignment asked for
(1 if packed and none is given), the largest of those alignments, and the smallest size that covers them and is a
multiple of it.  The expected layout must fit in 32 bits. -/
theorem C24_struct_partial (attrs : Attrs) (ms : List Member) (offs : List Nat) (last a size : Nat) (l : Layout)
    (hv : Valid attrs ms) (hp : Placed attrs 0 ms offs last) (ha : IsAlignment attrs ms a)
    (hs : FirstFrom last a size) (hf : Fits ms size) (e : layoutStruct attrs ms = some (some l)) :
    l.fields.map (·.offset) = offs ∧ l.fields.map (·.alignment) = ms.map (required attrs) ∧ l.alignment = a ∧
    l.size = size := by
  obtain ⟨rfl, rfl, rfl, rfl, h⟩ := fits_final hv hp ha hs hf
  have hne : ms ≠ [] := by
    rintro rfl
    cases e
  obtain ⟨h1, h2, h3, h4, -⟩ := struct_result attrs ms l hne hv h e
  exact ⟨h1, h2, h3, by rw [h4, h3]⟩

/-- The expected layout exists for all members. -/
theorem C24_struct_exists (attrs : Attrs) (ms : List Member) (hv : Valid attrs ms) :
    ∃ offs last a size, Placed attrs 0 ms offs last ∧ IsAlignment attrs ms a ∧ FirstFrom last a size := by
  have ha := finalAlign_is attrs ms
  exact ⟨_, _, _, _, (placed_iff attrs 0 ms (ValidMembers.required hv.2) _ _).2 ⟨rfl, rfl⟩, ha,
    (firstFrom_iff _ _ _ ha.2.1).2 rfl⟩

theorem placed_facts (attrs : Attrs) (ms : List Member) (s : Nat) (offs : List Nat) (last : Nat)
    (hp : Placed attrs s ms offs last) :
    offs.length = ms.length ∧ s ≤ last ∧
    (∀ (i o : Nat) (m : Member), offs[i]? = some o → ms[i]? = some m → s ≤ o ∧ required attrs m ∣ o ∧ o + m.size ≤ last) ∧
    ∀ (i j o : Nat) (m : Member) (p : Nat), i < j → offs[i]? = some o → ms[i]? = some m → offs[j]? = some p → o + m.size ≤ p := by
  induction ms generalizing s offs with
  | nil =>
    obtain ⟨rfl, rfl⟩ := hp
    simp
  | cons m ms ih =>
    obtain ⟨o, rest, rfl, ho, hr⟩ := hp
    obtain ⟨h1, h2, h3, h4⟩ := ih _ rest hr
    obtain ⟨f1, f2, f3⟩ := ho
    refine ⟨by simp [h1], by omega, ?_, ?_⟩
    · intro i x y hx hy
      cases i with
      | zero =>
        simp only [List.getElem?_cons_zero, Option.some.injEq] at hx hy
        subst hx hy
        exact ⟨f1, f2, h2⟩
      | succ i =>
        simp only [List.getElem?_cons_succ] at hx hy
        obtain ⟨g1, g2, g3⟩ := h3 i x y hx hy
        exact ⟨by omega, g2, g3⟩
    · intro i j x y p hij hx hy hz
      cases j with
      | zero => omega
      | succ j =>
        simp only [List.getElem?_cons_succ] at hz
        cases i with
        | zero =>
          simp only [List.getElem?_cons_zero, Option.some.injEq] at hx hy
          subst hx hy
          obtain ⟨z, hz'⟩ : ∃ z, ms[j]? = some z := by
            have hj : j < ms.length := by rw [← h1]; exact (List.getElem?_eq_some_iff.1 hz).1
            exact ⟨_, List.getElem?_eq_getElem hj⟩
          exact (h3 j p z hz hz').1
        | succ i =>
          simp only [List.getElem?_cons_succ] at hx hy
          exact h4 i j x y p (by omega) hx hy hz

/-- In particular members do not overlap, keep their order, are aligned, and lie within the size, which is a multiple of
the alignment, as is every alignment asked for. -/
theorem C24_members_partial (attrs : Attrs) (ms : List Member) (offs : List Nat) (last a size : Nat) (l : Layout)
    (hv : Valid attrs ms) (hp : Placed attrs 0 ms offs last) (ha : IsAlignment attrs ms a)
    (hs : FirstFrom last a size) (hf : Fits ms size) (e : layoutStruct attrs ms = some (some l)) :
    l.fields.length = ms.length ∧ l.alignment ∣ l.size ∧
    (∀ (i : Nat) (f : Field) (m : Member), l.fields[i]? = some f → ms[i]? = some m →
      required attrs m ∣ f.offset ∧ f.offset + m.size ≤ l.size ∧ required attrs m ∣ l.alignment) ∧
    ∀ (i j : Nat) (f : Field) (m : Member) (g : Field), i < j → l.fields[i]? = some f → ms[i]? = some m → l.fields[j]? = some g →
      f.offset + m.size ≤ g.offset := by
  obtain ⟨h1, -, h3, h4⟩ := C24_struct_partial attrs ms offs last a size l hv hp ha hs hf e
  obtain ⟨p1, p2, p3, p4⟩ := placed_facts attrs ms 0 offs last hp
  have ho : ∀ (i : Nat) (f : Field), l.fields[i]? = some f → offs[i]? = some f.offset := by
    intro i f hf
    rw [← h1, List.getElem?_map, hf]
    rfl
  refine ⟨?_, ?_, ?_, ?_⟩
  · rw [← p1, ← h1, List.length_map]
  · rw [h3, h4]
    exact hs.2.1
  · intro i f m hf hm
    obtain ⟨g1, g2, g3⟩ := p3 i _ m (ho i f hf) hm
    refine ⟨g2, by rw [h4]; exact Nat.le_trans g3 hs.1, ?_⟩
    have hmem := List.mem_of_getElem? hm
    rw [h3]
    exact (required_pow2 (hv.2 m hmem).1 (hv.2 m hmem).2.2).dvd (isAlignment_pow2 attrs ms a hv ha)
      (ha.2.2.2 m hmem)
  · intro i j f m g hij hf hm hg
    exact p4 i j _ m _ hij (ho i f hf) hm (ho j g hg)

/-- Structs that are not asked to be without padding are accepted, if no member asks for less than its natural
alignment. -/
theorem C24_accepted_partial (attrs : Attrs) (ms : List Member) (offs : List Nat) (last a size : Nat) (hne : ms ≠ [])
    (hv : Valid attrs ms) (hp : Placed attrs 0 ms offs last) (ha : IsAlignment attrs ms a)
    (hs : FirstFrom last a size) (hf : Fits ms size) (h1 : attrs.nopadding = false) (h2 : attrs.compact = false)
    (h : ∀ m ∈ ms, m.nopadding = false ∧ m.flexible = false ∧ m.inferred = false)
    (hn : ∀ m ∈ ms, m.natural ≤ required attrs m) : ∃ l, layoutStruct attrs ms = some (some l) :=
  accepts attrs ms hne hv (fits_final hv hp ha hs hf).2.2.2.2 h1 h2 h hn

/-- With `@nopadding` only structs whose members touch, and that end with the last one, are accepted. -/
theorem C24_nopadding (attrs : Attrs) (ms : List Member) (offs : List Nat) (last a size : Nat) (l : Layout)
    (hv : Valid attrs ms) (hp : Placed attrs 0 ms offs last) (ha : IsAlignment attrs ms a)
    (hs : FirstFrom last a size) (hf : Fits ms size) (hnp : attrs.nopadding = true)
    (e : layoutStruct attrs ms = some (some l)) :
    l.size = (ms.map (·.size)).sum ∧
    ∀ (i : Nat) (f : Field), l.fields[i]? = some f → f.offset = ((ms.take i).map (·.size)).sum := by
  obtain ⟨rfl, rfl, rfl, rfl, h⟩ := fits_final hv hp ha hs hf
  have hne : ms ≠ [] := by
    rintro rfl
    cases e
  obtain ⟨h1, h2, h3, h4, h5⟩ := struct_result attrs ms l hne hv h e
  have hr : rejectsAny attrs ms.length 0 (start attrs) ms = false := by
    rw [layoutStruct_eq attrs ms hne hv h] at e
    split at e
    · cases e
    · next hc => simpa using hc
  have e1 := nopadding_end attrs _ _ _ ms hnp hr
  have e2 := nopadding_offsets attrs _ _ _ ms hnp hr
  rw [show (start attrs).offset = 0 from rfl] at e1 e2
  refine ⟨by rw [h5 hnp, e1, Nat.zero_add], ?_⟩
  intro i f hi
  have hlen : i < ms.length := by
    have := (List.getElem?_eq_some_iff.1 hi).1
    have hl := congrArg List.length h2
    rw [List.length_map, List.length_map] at hl
    omega
  have := e2 i hlen
  rw [← h1, List.getElem?_map, hi, Nat.zero_add] at this
  simpa using this

/-- A union starts all members at offset 0.  Its alignment is the largest of its own and the members', unless it is
packed: then only its own counts.  Its size is that of the largest member, rounded up to the alignment. -/
theorem C24_union (attrs : Attrs) (ms : List Member) (l : Layout) (n size : Nat) (hv : Valid attrs ms)
    (hn : (∃ m ∈ ms, m.size = n) ∧ ∀ m ∈ ms, m.size ≤ n) (hs : FirstFrom n l.alignment size) (hf : size < 2 ^ 32)
    (e : layoutUnion attrs ms = some (some l)) :
    (∀ f ∈ l.fields, f.offset = 0) ∧ l.fields.length = ms.length ∧ l.size = size ∧ Pow2 l.alignment ∧
    (attrs.packed = true → l.alignment = max 1 attrs.align) ∧
    (attrs.packed = false → IsAlignment { attrs with packed := false }
      (ms.map fun m => { m with given := max m.abi m.given }) l.alignment) := by
  obtain ⟨a, n', rep, h1, h2, h3, h4, h5, h6, h7, h8, h9, h10, h11, h12⟩ := union_result attrs ms l hv e
  have hnn : n' = n := by
    obtain ⟨x1, x2, x3⟩ := h2
    obtain ⟨⟨m, hm, y1⟩, y3⟩ := hn
    refine Nat.le_antisymm ?_ ?_
    · rcases x1 with h | ⟨m, hm, h⟩
      · omega
      · have := y3 m hm
        dsimp only at h
        omega
    · have := x3 m hm
      dsimp only at this
      omega
  subst hnn
  have hsz := (firstFrom_iff _ _ _ h7.pos).1 hs
  rw [alignedOffset_pow2 _ _ h7 (by omega)] at h9
  injection h9 with h9
  refine ⟨?_, ?_, by rw [← h9, hsz], h7, ?_, ?_⟩
  · rw [h10]
    intro f hf
    obtain ⟨m, -, rfl⟩ := List.mem_map.1 hf
    rfl
  · rw [h10, List.length_map]
  · intro hp
    rw [h6, unionFinal, if_pos hp]
    split <;> omega
  · intro hp
    rw [h6, unionFinal, if_neg (by simp [hp])]
    obtain ⟨x1, x2, x3⟩ := h1
    have hreq : ∀ m ∈ ms, required { attrs with packed := false } { m with given := max m.abi m.given } = unionAlign m := by
      intro m hm
      have := (hv.2 m hm).1.pos
      unfold required unionAlign
      dsimp only
      rw [if_pos (by omega)]
    have := h8.pos
    refine ⟨Or.inr ?_, by omega, ?_, ?_⟩
    · rcases Nat.le_total attrs.align a with h | h
      · rw [Nat.max_eq_right h]
        rcases x1 with h | ⟨m, hm, h⟩
        · omega
        · exact Or.inr ⟨_, List.mem_map_of_mem hm, by rw [hreq m hm]; exact h⟩
      · exact Or.inl (Nat.max_eq_left h)
    · exact Nat.le_max_left _ _
    · intro m hm
      obtain ⟨x, hx, rfl⟩ := List.mem_map.1 hm
      rw [hreq x hx]
      have := x3 x hx
      omega

/-- The LLVM type made for a struct has its size, and finds each member at its offset, if LLVM has the same size and the
natural alignment for every member, and the padding at the end is below 64 kB. -/
theorem C24_llvm_struct_partial (attrs : Attrs) (ms : List Member) (offs : List Nat) (last a size : Nat) (l : Layout)
    (hv : Valid attrs ms) (hp : Placed attrs 0 ms offs last) (ha : IsAlignment attrs ms a)
    (hs : FirstFrom last a size) (hf : Fits ms size) (e : layoutStruct attrs ms = some (some l))
    (hpad : size - last < 2 ^ 16) :
    (structType l (ms.map fun m => ⟨m.size, m.natural⟩)).size = size ∧
    ∀ i, i < ms.length → accessOffset l (ms.map fun m => ⟨m.size, m.natural⟩) i = offs[i]? := by
  obtain ⟨h1, -, -, h4⟩ := C24_struct_partial attrs ms offs last a size l hv hp ha hs hf e
  obtain ⟨-, h2, -, -, h5⟩ := fits_final hv hp ha hs hf
  have hne : ms ≠ [] := by
    rintro rfl
    cases e
  obtain ⟨k1, k2⟩ := llvm_struct attrs ms l hne hv h5 e (by rw [h4, ← h2]; exact hpad)
  constructor
  · change (structType l (types ms)).size = size
    rw [k2, h4]
  · intro i hi
    rw [← h1]
    exact k1 i hi

/-- The LLVM type made for a union has its size, if no member has an alignment other than its natural one, and there is
less than 64 kB between the sizes of the union and of the member it is represented by. -/
theorem C24_llvm_union_partial (attrs : Attrs) (ms : List Member) (l : Layout) (n : Nat) (hv : Valid attrs ms)
    (hn : (∃ m ∈ ms, m.size = n) ∧ ∀ m ∈ ms, m.size ≤ n) (hf : n + l.alignment ≤ 2 ^ 32)
    (ha : ∀ m ∈ ms, m.natural = m.abi ∧ m.given ≤ m.abi) (e : layoutUnion attrs ms = some (some l))
    (hpad : ∀ m : Member, ms[l.rep]? = some m → l.size - m.size < 2 ^ 16) :
    ∃ t, unionType l (ms.map fun m => ⟨m.size, m.natural⟩) = some t ∧ t.size = l.size := by
  obtain ⟨-, -, -, -, -, -, -, -, -, h7, -⟩ := union_result attrs ms l hv e
  have hlt := roundUp_lt n _ h7.pos
  obtain ⟨⟨m, hm, y1⟩, y3⟩ := hn
  obtain ⟨b, -, hb⟩ := llvm_union attrs ms l hv e (fun m hm => by have := ha m hm; omega) n
    ⟨Or.inr ⟨m, hm, y1.symm⟩, Nat.zero_le _, y3⟩ (by omega) hpad
  exact ⟨_, hb, rfl⟩

/-- Types built without attributes have the size and alignment of the C layout, and so do their LLVM types (unions up to
64 kB, types within 32 bits). -/
theorem C24_plain_partial (t : Ty) (h : Plain t) (hb : (cType t).1 + (cType t).2 ≤ 2 ^ 32) :
    ∃ i, info t = some (some i) ∧ (i.size, i.abi) = cType t ∧ (i.llvm.size, i.llvm.align) = cType t := by
  obtain ⟨i, h1, h2, h3, -, h5⟩ := plain_info t h hb
  refine ⟨i, h1, ?_, ?_⟩
  · rw [h2, h3]
  · rw [h5]

/-- And the members of a struct are where the C layout has them, in the analysis and in LLVM. -/
theorem C24_plain_members_partial (ms : List (Nat × Ty)) (h : Plain (.struct {} ms))
    (hb : (cType (.struct {} ms)).1 + (cType (.struct {} ms)).2 ≤ 2 ^ 32) :
    ∃ is i l, infos ms = some (some is) ∧ info (.struct {} ms) = some (some i) ∧ i.layout = some l ∧
      l.fields.map (·.offset) = cOffsets 0 (cTypes ms) ∧
      ∀ k, k < ms.length → accessOffset l (is.map (·.llvm)) k = (cOffsets 0 (cTypes ms))[k]? := by
  rw [Plain] at h
  obtain ⟨-, hne, hp⟩ := h
  have hok := plains_ok ms hp
  have hne' := cTypes_ne ms hne
  obtain ⟨hpm, -⟩ := cMax_ok _ hne' hok
  rw [cType] at hb
  dsimp only at hb
  rw [up_eq] at hb
  obtain ⟨is, h1, h2, h3⟩ := plains_infos ms hp fun c hc => by
    have := (cEnd_ge 0 (cTypes ms) fun c hc => (hok c hc).2.1.pos).2 c hc
    have := le_roundUp (cEnd 0 (cTypes ms)) _ hpm.pos
    have := le_cMax _ _ (List.mem_map_of_mem (f := (·.2)) hc)
    omega
  obtain ⟨l, l1, l2, l3, l4, l5, l6⟩ := good_struct _ is h2 hok hne' hb
  have hinfo : ∃ i, info (.struct {} ms) = some (some i) ∧ i.layout = some l := by
    rw [info, h1]
    simp only [Option.bind_eq_bind, Option.bind_some, Option.pure_def]
    rw [goods_zip ms is hp h3, l1]
    exact ⟨_, rfl, rfl⟩
  obtain ⟨i, i1, i2⟩ := hinfo
  exact ⟨is, i, l, h1, i1, i2, l5, by rw [h3]; exact l6⟩

/-! ## Where the code goes wrong -/

/-- `struct @packed @align(16) { char; int }` fails an assertion. -/
theorem C24_packed_align_asserts :
    layoutStruct { packed := true, align := 16 } [⟨1, 1, 1, 0, false, false, false, false, false⟩,
      ⟨4, 4, 4, 0, false, false, false, false, false⟩] = none := by decide +kernel

/-- The padding of a union is cut to 16 bits: with a member of `n` bytes beside one of 8 bytes with alignment 8, the LLVM
type is smaller than the union whenever `n` is more than 64 kB above. -/
theorem C24_union_truncated (n : Nat) (h1 : 2 ^ 16 + 8 ≤ n) (h2 : n + 8 ≤ 2 ^ 32) :
    ∃ i, info (.union {} [(0, .array (.prim 1 1) n), (0, .prim 8 8)]) = some (some i) ∧ n ≤ i.size ∧
      i.llvm.size < n := by
  have hu : u32 n = n := u32_of_lt (by omega)
  have hlt := roundUp_lt n 8 (by omega)
  have hle := le_roundUp n 8 (by omega)
  have ha := alignedOffset_eq n 8 (by omega) h2
  have hloop : unionLoop {} 0 ⟨0, 0, 0, false⟩
      [{ size := n, abi := 1, natural := 1 }, { size := 8, abi := 8, natural := 8 }] = some ⟨n, 1, 8, false⟩ := by
    simp [unionLoop, unionMember, show 0 < n by omega, show ¬ n < 8 by omega]
  have hl : layoutUnion {} [{ size := n, abi := 1, natural := 1 }, { size := 8, abi := 8, natural := 8 }] =
      some (some { fields := [⟨0, 8, 0⟩, ⟨0, 8, 0⟩], size := roundUp n 8, alignment := 8,
                   padding := (roundUp n 8 - 8) % 2 ^ 16, packed := false, hole := false, rep := 1 }) := by
    unfold layoutUnion
    rw [if_neg (by simp), hloop]
    simp [ha, show ¬ n = 0 by omega, show 8 < roundUp n 8 by omega]
  have hinf : infos [(0, .array (.prim 1 1) n), (0, .prim 8 8)] =
      some (some [{ size := n, abi := 1, natural := 1, llvm := ⟨n, 1⟩ },
        { size := 8, abi := 8, natural := 8, llvm := ⟨8, 8⟩ }]) := by
    simp [infos, info, hu]
  have hut : ∀ p : Nat, ∃ t : LType, unionType
      { fields := [⟨0, 8, 0⟩, ⟨0, 8, 0⟩], size := roundUp n 8, alignment := 8,
        padding := p, packed := false, hole := false, rep := 1 } [⟨n, 1⟩, ⟨8, 8⟩] = some t ∧
      t.size = roundUp (8 + p) 8 := by
    intro p
    have h0 : roundUp 0 8 = 0 := by decide
    by_cases hz : p = 0
    · subst hz
      exact ⟨_, rfl, by simp [lStruct, lOffsets, lAlign, h0]⟩
    · refine ⟨_, rfl, ?_⟩
      simp [hz, lStruct, lOffsets, lAlign, padType, h0, roundUp_one]
  obtain ⟨t, t1, t2⟩ := hut ((roundUp n 8 - 8) % 2 ^ 16)
  have hinfo : ∃ i, info (.union {} [(0, .array (.prim 1 1) n), (0, .prim 8 8)]) = some (some i) ∧
      i.size = roundUp n 8 ∧ i.llvm = t := by
    rw [info, hinf]
    simp only [Option.bind_eq_bind, Option.bind_some, Option.pure_def]
    have hz : ((([(0, Ty.array (.prim 1 1) n), (0, Ty.prim 8 8)] : List (Nat × Ty)).zip
        [({ size := n, abi := 1, natural := 1, llvm := ⟨n, 1⟩ } : Info),
          { size := 8, abi := 8, natural := 8, llvm := ⟨8, 8⟩ }]).map fun (m, i) => i.member m.1) =
        [{ size := n, abi := 1, natural := 1 }, { size := 8, abi := 8, natural := 8 }] := rfl
    rw [hz, hl]
    simp only [Option.bind_some, List.map_cons, List.map_nil]
    rw [t1]
    exact ⟨_, rfl, rfl, rfl⟩
  obtain ⟨i, i1, i2, i3⟩ := hinfo
  refine ⟨i, i1, by omega, ?_⟩
  · rw [i3, t2]
    have := Nat.mod_lt (roundUp n 8 - 8) (show 2 ^ 16 > 0 by omega)
    have := roundUp_le (8 + (roundUp n 8 - 8) % 2 ^ 16) 8 (2 ^ 16 + 7 - (2 ^ 16 + 7) % 8) (by omega)
      (by
        obtain ⟨k, hk⟩ := dvd_roundUp n 8
        omega) ⟨8192, by omega⟩
    omega

/-- The padding at the end of a struct is cut too: `struct @align(131072) { int }`. -/
theorem C24_struct_truncated :
    ∃ i, info (.struct { align := 131072 } [(0, .prim 4 4)]) = some (some i) ∧ i.size = 131072 ∧
      i.llvm.size = 65536 := ⟨_, rfl, by decide +kernel, by decide +kernel⟩

/-- `struct P @packed { char; int }`. -/
def packedPair : Ty := .struct { packed := true } [(0, .prim 1 1), (0, .prim 4 4)]

/-- Offset of a member in the analysis, and where LLVM has it. -/
def bothOffsets (attrs : Attrs) (ms : List (Nat × Ty)) (k : Nat) : Option (Option (Option Nat × Option Nat)) := do
  match ← infos ms with
  | none => return none
  | some is =>
    match ← layoutStruct attrs ((ms.zip is).map fun (m, i) => i.member m.1) with
    | none => return none
    | some l => return some ((l.fields[k]?).map (·.offset), accessOffset l (is.map (·.llvm)) k)

/-- A packed struct has alignment 1 in LLVM, but counts with that of its largest member: aligned by an attribute, it is
at 4 for the analysis, at 1 for LLVM.  `struct { char; P p @align(4); }`. -/
theorem C24_packed_member_moved :
    bothOffsets {} [(0, .prim 1 1), (4, packedPair)] 1 = some (some (some 4, some 1)) := by decide +kernel

/-- The same without any alignment attribute: `struct Q { short; P; }`, `struct { char[3]; Q; }`: 4 and 3. -/
theorem C24_packed_nested_moved :
    bothOffsets {} [(0, .array (.prim 1 1) 3), (0, .struct {} [(0, .prim 2 2), (0, packedPair)])] 1 =
      some (some (some 4, some 3)) := by decide +kernel

/-- `union U { long; char[16] @align(8); }`, `struct { char; U; }`: 8 and 1. -/
theorem C24_union_member_moved :
    bothOffsets {} [(0, .prim 1 1), (0, .union {} [(0, .prim 8 8), (8, .array (.prim 1 1) 16)])] 1 =
      some (some (some 8, some 1)) := by decide +kernel

/-- `struct @align(4) { P; }` has 8 bytes, its LLVM type 5. -/
theorem C24_packed_size :
    ∃ i, info (.struct { align := 4 } [(0, packedPair)]) = some (some i) ∧ i.size = 8 ∧ i.llvm.size = 5 :=
  ⟨_, rfl, by decide +kernel, by decide +kernel⟩

/-- Offsets wrap around: of two arrays of 3 GB and a byte, the byte lies in the first array. -/
theorem C24_offsets_wrap :
    bothOffsets {} [(0, .array (.prim 1 1) (3 * 2 ^ 30)), (0, .array (.prim 1 1) (3 * 2 ^ 30)), (0, .prim 1 1)] 2 =
      some (some (some (2 ^ 31), some (6 * 2 ^ 30))) := by decide +kernel

/-- In a packed union an alignment given to a member is ignored: `union @packed { int @align(8); }`. -/
theorem C24_union_packed_given :
    ∃ i, info (.union { packed := true } [(8, .prim 4 4)]) = some (some i) ∧ i.abi = 1 :=
  ⟨_, rfl, by decide +kernel⟩

/-- `@compact` structs are compared as memory, but an array of structs with padding is let through. -/
theorem C24_compact_array :
    (∃ i, info (.struct {} [(0, .prim 4 4), (0, .prim 1 1)]) = some (some i) ∧ i.hole = true) ∧
    ∃ i, info (.struct { nopadding := true, compact := true }
      [(0, .array (.struct {} [(0, .prim 4 4), (0, .prim 1 1)]) 2)]) = some (some i) ∧ i.hole = false :=
  ⟨⟨_, rfl, by decide +kernel⟩, _, rfl, by decide +kernel⟩

/-! ## Examples -/

/-- `struct { char; int @align(2); short; }` -/
def sample : List Member := [⟨1, 1, 1, 0, false, false, false, false, false⟩,
  ⟨4, 4, 4, 2, false, false, false, false, false⟩, ⟨2, 2, 2, 0, false, false, false, false, false⟩]

example : Valid {} sample ∧ Placed {} 0 sample [0, 2, 6] 8 ∧ IsAlignment {} sample 2 ∧ FirstFrom 8 2 8 ∧ Fits sample 8 ∧
    ∃ l, layoutStruct {} sample = some (some l) ∧ l.size = 8 ∧ l.packed = true ∧
      l.fields = [⟨0, 1, 0⟩, ⟨2, 2, 1⟩, ⟨6, 2, 0⟩] := by
  have p1 : Pow2 1 := ⟨0, rfl⟩
  have p2 : Pow2 2 := ⟨1, rfl⟩
  have p4 : Pow2 4 := ⟨2, rfl⟩
  refine ⟨⟨Or.inl rfl, by simp [sample, p1, p2, p4]⟩, ?_, by simp [IsAlignment, sample, required], ?_, by simp [Fits, sample],
    _, rfl, by decide +kernel, by decide +kernel, by decide +kernel⟩
  · rw [placed_iff]
    · decide +kernel
    · simp [sample, required]
  · rw [firstFrom_iff _ _ _ (by omega)]
    decide

example : ∃ l, layoutStruct { nopadding := true } [⟨2, 2, 2, 0, false, false, false, false, false⟩,
    ⟨2, 2, 2, 0, false, false, false, false, false⟩] = some (some l) ∧ l.size = 4 := ⟨_, rfl, by decide +kernel⟩

example : layoutStruct { nopadding := true } sample = some none := by decide +kernel

example : ∃ l, layoutUnion { align := 16 } sample = some (some l) ∧ l.size = 16 ∧ l.rep = 1 ∧ l.padding = 12 :=
  ⟨_, rfl, by decide +kernel, by decide +kernel, by decide +kernel⟩

/-- `struct { char; union { double; char[9] }; int[3]; }` -/
def tree : Ty := .struct {} [(0, .prim 1 1), (0, .union {} [(0, .prim 8 8), (0, .array (.prim 1 1) 9)]),
  (0, .array (.prim 4 4) 3)]

example : Plain tree ∧ cType tree = (40, 8) := by
  have p1 : Pow2 1 := ⟨0, rfl⟩
  have p4 : Pow2 4 := ⟨2, rfl⟩
  have p8 : Pow2 8 := ⟨3, rfl⟩
  constructor
  · simp only [tree, Plain, Plains, p1, p4, p8]
    refine ⟨trivial, by simp, trivial, ⟨by omega, trivial, by omega⟩, trivial,
      ⟨trivial, by simp, ⟨trivial, ⟨by omega, trivial, by omega⟩, trivial, ⟨⟨by omega, trivial, by omega⟩, by omega⟩, trivial⟩, ?_⟩, trivial,
      ⟨⟨by omega, trivial, by omega⟩, by omega⟩, trivial⟩
    decide +kernel
  · decide +kernel

end C3.Layout
