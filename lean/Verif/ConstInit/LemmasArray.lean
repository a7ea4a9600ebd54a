import Verif.ConstInit.LemmasUnion

/-! # Designators of arrays -/

set_option autoImplicit false

namespace C3.ConstInit

variable {α : Type} {fl : Bool}

/-- The elements of an array that are given, by index: `C` are the cells of the list, `E` those of the elements. -/
structure Arr (fl : Bool) (h : Heap α) (len : Nat) (base : Ty) (a : Nat) (L : List Nat) (C E : Nat → Nat) (T : Nat → Ty) (M : Nat → Content α)
    (F : Nat → Nat → Prop) : Prop where
  ha : h[a]? = some (.array len base, .array (L.map C)) ∨ (h[a]? = some (.array len base, .zero) ∧ L = [])
  sorted : L.Pairwise (· < ·)
  cells : ∀ i, i ∈ L → h[C i]? = some (T i, .arrayValue (E i) i) ∧ ¬ F i (C i) ∧ i < len
  kids : ∀ i, i ∈ L → Own fl h base (E i) (M i) (F i)
  sep : Sep a (fun i x => x = C i ∨ F i x) (· ∈ L)
  out : ∀ i, i ∉ L → M i = zeros

abbrev arrFp (a : Nat) (L : List Nat) (C : Nat → Nat) (F : Nat → Nat → Prop) : Nat → Prop := fp a (fun i x => x = C i ∨ F i x) (· ∈ L)

theorem Arr.own {h : Heap α} {len : Nat} {base : Ty} {a : Nat} {L : List Nat} {C E : Nat → Nat} {T : Nat → Ty} {M : Nat → Content α}
    {F : Nat → Nat → Prop} (s : Arr fl h len base a L C E T M F) : Own fl h (.array len base) a (node M) (arrFp a L C F) := by
  rcases s.ha with ha | ⟨ha, rfl⟩
  · exact .array ha s.sorted s.cells s.kids s.sep s.out
  · have h1 : M = fun _ => zeros := funext fun i => s.out i (by simp)
    have h2 : arrFp a [] C F = (· = a) := by
      funext x; simp [arrFp, fp]
    rw [h1, h2, ← node_zeros]
    exact .zero ha

/-- An array is given by some of its elements, or by all of them. -/
theorem Own.arr {h : Heap α} {len : Nat} {base : Ty} {a : Nat} {m : Content α} {F : Nat → Prop} (o : Own fl h (.array len base) a m F) :
    (∃ L C E T M F', Arr fl h len base a L C E T M F' ∧ m = node M ∧ F = arrFp a L C F') ∨
    fl = true ∧ ∃ els, h[a]? = some (.array len base, .arrayFull els) ∧ els.length = len ∧ ∀ e, e ∈ els → ∃ c, h[e]? = some c ∧ ∀ e i, c.2 ≠ .arrayValue e i := by
  cases o with
  | zero ha =>
    refine .inl ⟨[], id, id, fun _ => .scalar, fun _ => zeros, fun _ _ => False, ⟨.inr ⟨ha, rfl⟩, .nil, by simp, by simp, ⟨by simp, by simp⟩, by simp⟩, node_zeros, ?_⟩
    funext x; simp [arrFp, fp]
  | full hfl ha hl kids sep out =>
    refine .inr ⟨hfl, _, ha, hl, fun e he => ?_⟩
    obtain ⟨i, hi⟩ := List.getElem?_of_mem he
    obtain ⟨n, h1, h2⟩ := (kids i e hi).cell
    exact ⟨_, h1, h2⟩
  | array ha sorted cells kids sep out => exact .inl ⟨_, _, _, _, _, _, ⟨.inl ha, sorted, cells, kids, sep, out⟩, rfl, rfl⟩

theorem walk_spec {h : Heap α} {C E : Nat → Nat} {T : Nat → Ty} {i : Nat} : ∀ {L : List Nat} {p pos : Nat},
    (∀ j, j ∈ L → h[C j]? = some (T j, .arrayValue (E j) j)) → walk h i (L.map C) p = some pos →
    ∃ A B, L = A ++ B ∧ pos = p + A.length ∧ (∀ j, j ∈ A → j < i) ∧ ∀ j, B.head? = some j → i ≤ j := by
  intro L
  induction L with
  | nil =>
    intro p pos _ hw
    simp [walk] at hw
    exact ⟨[], [], rfl, by simp [hw], by simp, by simp⟩
  | cons j L ih =>
    intro p pos hc hw
    simp only [List.map_cons, walk, hc j (by simp)] at hw
    by_cases hj : j < i
    · rw [if_pos hj] at hw
      obtain ⟨A, B, rfl, rfl, h1, h2⟩ := ih (fun j hj => hc j (by simp [hj])) hw
      refine ⟨j :: A, B, rfl, by simp; omega, ?_, h2⟩
      intro j' hj'
      rcases List.mem_cons.1 hj' with rfl | h
      · exact hj
      · exact h1 j' h
    · rw [if_neg hj] at hw
      cases hw
      refine ⟨[], j :: L, rfl, by simp, by simp, ?_⟩
      intro j' hj'
      simp at hj'
      omega

/-- A new element, which is zero. -/
theorem Arr.insert {h : Heap α} {len : Nat} {base : Ty} {a : Nat} {A B : List Nat} {C E : Nat → Nat} {T : Nat → Ty} {M : Nat → Content α}
    {F : Nat → Nat → Prop} (s : Arr fl h len base a (A ++ B) C E T M F) {i : Nat} (hi : i < len) (hA : ∀ j, j ∈ A → j < i)
    (hB : ∀ j, j ∈ B → i < j) :
    ∃ C' E' T' F', Arr fl ((h ++ [(base, Node.zero), (base, Node.arrayValue h.length i)]).set a
        (.array len base, .array ((A ++ i :: B).map C'))) len base a (A ++ i :: B) C' E' T' M F' ∧
      E' i = h.length ∧ C' i = h.length + 1 ∧ (∀ j, j ∈ A ++ B → C' j = C j) ∧
      (∀ x, arrFp a (A ++ i :: B) C' F' x → arrFp a (A ++ B) C F x ∨ h.length ≤ x) := by
  have al : a < h.length := by
    rcases s.ha with ha | ⟨ha, _⟩ <;> exact lt_of_get ha
  have hni : i ∉ A ++ B := by
    intro hm
    rcases List.mem_append.1 hm with hm | hm
    · have := hA i hm; omega
    · have := hB i hm; omega
  have hne : ∀ j, j ∈ A ++ B → j ≠ i := fun j hj e => hni (e ▸ hj)
  have klt : ∀ j, j ∈ A ++ B → ∀ x, F j x → x < h.length := fun j hj => (s.kids j hj).lt
  have clt : ∀ j, j ∈ A ++ B → C j < h.length := fun j hj => lt_of_get (s.cells j hj).1
  have mem : ∀ j, j ∈ A ++ i :: B ↔ j = i ∨ j ∈ A ++ B := by
    intro j; simp only [List.mem_append, List.mem_cons]
    constructor
    · rintro (h | h | h)
      · exact .inr (.inl h)
      · exact .inl h
      · exact .inr (.inr h)
    · rintro (h | h | h)
      · exact .inr (.inl h)
      · exact .inl h
      · exact .inr (.inr h)
  have old : ∀ (c : Cell α) x, x < h.length → x ≠ a → ((h ++ [(base, Node.zero), (base, Node.arrayValue h.length i)]).set a c)[x]? = h[x]? := by
    intro c x hx hxa
    rw [get_set_ne hxa, List.getElem?_append_left hx]
  let C' : Nat → Nat := fun j => if j = i then h.length + 1 else C j
  let E' : Nat → Nat := fun j => if j = i then h.length else E j
  let T' : Nat → Ty := fun j => if j = i then base else T j
  let F' : Nat → Nat → Prop := fun j => if j = i then (· = h.length) else F j
  have c1 : C' i = h.length + 1 := if_pos rfl
  have c2 : ∀ j, j ∈ A ++ B → C' j = C j := fun j hj => if_neg (hne j hj)
  have e1 : E' i = h.length := if_pos rfl
  have e2 : ∀ j, j ∈ A ++ B → E' j = E j := fun j hj => if_neg (hne j hj)
  have t1 : T' i = base := if_pos rfl
  have t2 : ∀ j, j ∈ A ++ B → T' j = T j := fun j hj => if_neg (hne j hj)
  have f1 : F' i = (· = h.length) := if_pos rfl
  have f2 : ∀ j, j ∈ A ++ B → F' j = F j := fun j hj => if_neg (hne j hj)
  refine ⟨C', E', T', F', ⟨.inl (get_set_self (by simp; omega) _), ?_, ?_, ?_, ⟨?_, ?_⟩, ?_⟩, e1, c1, c2, ?_⟩
  · have hs := s.sorted
    rw [List.pairwise_append] at hs ⊢
    refine ⟨hs.1, List.pairwise_cons.2 ⟨hB, hs.2.1⟩, ?_⟩
    intro x hx y hy
    rcases List.mem_cons.1 hy with rfl | hy
    · exact hA x hx
    · exact hs.2.2 x hx y hy
  · intro j hj
    rcases (mem j).1 hj with rfl | hj
    · rw [c1, t1, e1, f1]
      refine ⟨?_, by simp, hi⟩
      rw [get_set_ne (by omega), List.getElem?_append_right (by omega)]
      simp
    · rw [c2 j hj, t2 j hj, e2 j hj, f2 j hj, old _ _ (clt j hj) (fun h => s.sep.root j hj (.inl h.symm))]
      exact s.cells j hj
  · intro j hj
    rcases (mem j).1 hj with rfl | hj
    · rw [e1, f1, s.out j hni]
      refine .zero ?_
      rw [get_set_ne (by omega), List.getElem?_append_right (by omega)]
      simp
    · rw [e2 j hj, f2 j hj]
      exact (s.kids j hj).frame fun x hx => old _ x (klt j hj x hx) fun h => s.sep.root j hj (.inr (h ▸ hx))
  · intro j hj hx
    rcases (mem j).1 hj with rfl | hj
    · rw [c1, f1] at hx
      rcases hx with hx | hx <;> omega
    · rw [c2 j hj, f2 j hj] at hx
      exact s.sep.root j hj hx
  · have big : ∀ x, (x = C' i ∨ F' i x) → h.length ≤ x := by
      intro x hx
      rw [c1, f1] at hx
      rcases hx with hx | hx <;> omega
    have small : ∀ j, j ∈ A ++ B → ∀ x, (x = C' j ∨ F' j x) → x < h.length := by
      intro j hj x hx
      rw [c2 j hj, f2 j hj] at hx
      rcases hx with rfl | hx
      · exact clt j hj
      · exact klt j hj x hx
    intro j l x hj hl hx hx'
    rcases (mem j).1 hj with h1 | h1 <;> rcases (mem l).1 hl with h2 | h2
    · omega
    · rw [h1] at hx
      have := big x hx; have := small l h2 x hx'; omega
    · rw [h2] at hx'
      have := big x hx'; have := small j h1 x hx; omega
    · rw [c2 j h1, f2 j h1] at hx
      rw [c2 l h2, f2 l h2] at hx'
      exact s.sep.parts j l x h1 h2 hx hx'
  · intro j hj
    exact s.out j fun h => hj ((mem j).2 (.inr h))
  · rintro x (hx | ⟨j, hj, hx⟩)
    · exact .inl (.inl hx)
    · rcases (mem j).1 hj with rfl | hj
      · rw [c1, f1] at hx
        right; rcases hx with hx | hx <;> omega
      · rw [c2 j hj, f2 j hj] at hx
        exact .inl (.inr ⟨j, hj, hx⟩)

/-- The search for an element, which is there afterwards. -/
theorem Arr.find {h h1 : Heap α} {len : Nat} {base : Ty} {a : Nat} {L : List Nat} {C E : Nat → Nat} {T : Nat → Ty} {M : Nat → Content α}
    {F : Nat → Nat → Prop} (s : Arr fl h len base a L C E T M F) {i ins pos e : Nat} {els : List Nat} (hi : i < len)
    (hins : ∀ j, j ∈ L.take ins → j < i) (hle : ins ≤ L.length) (hf : atIndex h base (L.map C) i ins = some (e, els, pos, h1)) :
    ∃ L' C' E' T' F', Arr fl (h1.set a (.array len base, .array els)) len base a L' C' E' T' M F' ∧ els = L'.map C' ∧ i ∈ L' ∧ E' i = e ∧
      pos ≤ L'.length ∧ (∀ j, j ∈ L'.take pos → j < i) ∧ h.length ≤ h1.length ∧
      (∀ x, x < h.length → x ≠ a → (h1.set a (.array len base, .array els))[x]? = h[x]?) ∧
      (∀ x, arrFp a L' C' F' x → arrFp a L C F x ∨ h.length ≤ x) := by
  have al : a < h.length := by
    rcases s.ha with ha | ⟨ha, _⟩ <;> exact lt_of_get ha
  simp only [atIndex, alloc, Option.bind_eq_bind, Option.bind_eq_some_iff] at hf
  obtain ⟨pos', hw, hf⟩ := hf
  rw [← List.map_drop] at hw
  obtain ⟨A', B, hAB, hpos, hA', hB⟩ := walk_spec (E := E) (T := T) (fun j hj => (s.cells j (List.mem_of_mem_drop hj)).1) hw
  obtain ⟨A, hA, hL, hAl⟩ : ∃ A, (∀ j, j ∈ A → j < i) ∧ L = A ++ B ∧ A.length = pos' := by
    refine ⟨L.take ins ++ A', ?_, ?_, ?_⟩
    · intro j hj
      rcases List.mem_append.1 hj with hj | hj
      · exact hins j hj
      · exact hA' j hj
    · rw [List.append_assoc, ← hAB, List.take_append_drop]
    · simp only [List.length_append, List.length_take]; omega
  subst hL
  have hBs : B.Pairwise (· < ·) := (List.pairwise_append.1 s.sorted).2.1
  have newcase : (∀ j, j ∈ B → i < j) → els = A.map C ++ (h.length + 1) :: B.map C → e = h.length → pos = pos' →
      h1 = h ++ [(base, Node.zero), (base, Node.arrayValue h.length i)] → ∃ L' C' E' T' F', Arr fl (h1.set a (.array len base, .array els)) len base a L' C' E' T' M F' ∧ els = L'.map C' ∧ i ∈ L' ∧ E' i = e ∧
      pos ≤ L'.length ∧ (∀ j, j ∈ L'.take pos → j < i) ∧ h.length ≤ h1.length ∧
      (∀ x, x < h.length → x ≠ a → (h1.set a (.array len base, .array els))[x]? = h[x]?) ∧
      (∀ x, arrFp a L' C' F' x → arrFp a (A ++ B) C F x ∨ h.length ≤ x) := by
    intro hB' he1 he2 he3 he4
    obtain ⟨C', E', T', F', s', h1', h2', h3', h4'⟩ := s.insert hi hA hB'
    have hels : els = (A ++ i :: B).map C' := by
      rw [he1, List.map_append, List.map_cons, h2']
      congr 1
      · exact List.map_congr_left fun j hj => (h3' j (List.mem_append_left _ hj)).symm
      · congr 1
        exact List.map_congr_left fun j hj => (h3' j (List.mem_append_right _ hj)).symm
    subst he4 he2 he3
    refine ⟨A ++ i :: B, C', E', T', F', hels ▸ s', hels, by simp, h1', by simp; omega, ?_, by simp, ?_, h4'⟩
    · rw [← hAl, List.take_left]; exact hA
    · intro x hx hxa
      rw [get_set_ne hxa, List.getElem?_append_left hx]
  cases B with
  | nil =>
    rw [List.append_nil, List.getElem?_eq_none (by simp; omega)] at hf
    simp only [Option.some.injEq, Prod.mk.injEq] at hf
    obtain ⟨he, he1, he2, he3⟩ := hf
    refine newcase (by simp) ?_ he.symm he2.symm ?_
    · rw [← he1]; simp
    · rw [← he3]; simp
  | cons b B =>
    have hget : ((A ++ b :: B).map C)[pos']? = some (C b) := by
      rw [← hAl]; simp
    have hbc := s.cells b (by simp)
    rw [hget] at hf
    simp only [hbc.1] at hf
    by_cases hbi : b = i
    · subst hbi
      simp only [ne_eq, not_true_eq_false, if_false, Option.some.injEq, Prod.mk.injEq] at hf
      obtain ⟨rfl, rfl, rfl, rfl⟩ := hf
      have hself : h.set a (.array len base, .array ((A ++ b :: B).map C)) = h := by
        apply List.ext_getElem?
        intro x
        by_cases hx : x = a
        · subst hx
          rw [get_set_self al]
          rcases s.ha with ha | ⟨_, h0⟩
          · exact ha.symm
          · simp at h0
        · rw [get_set_ne hx]
      rw [hself]
      refine ⟨A ++ b :: B, C, E, T, F, s, rfl, by simp, rfl, by simp; omega, ?_, Nat.le_refl _, fun _ _ _ => rfl, fun x hx => .inl hx⟩
      rw [← hAl, List.take_left]; exact hA
    · have hib : i < b := by
        have := hB b (by simp)
        omega
      simp only [ne_eq, hbi, not_false_eq_true, if_true] at hf
      split at hf
      · simp only [Option.some.injEq, Prod.mk.injEq] at hf
        obtain ⟨he, he1, he2, he3⟩ := hf
        refine newcase ?_ ?_ he.symm he2.symm ?_
        · intro j hj
          rcases List.mem_cons.1 hj with rfl | hj
          · exact hib
          · exact Nat.lt_trans hib ((List.pairwise_cons.1 hBs).1 j hj)
        · rw [← he1, List.map_append, ← hAl, List.take_left' (by simp), List.drop_left' (by simp)]
          simp
        · rw [← he3]; simp
      · cases hf

/-- A change of the element `i`. -/
theorem Arr.change {h h' : Heap α} {len : Nat} {base : Ty} {a : Nat} {L : List Nat} {C E : Nat → Nat} {T : Nat → Ty} {M : Nat → Content α}
    {F : Nat → Nat → Prop} (s : Arr fl h len base a L C E T M F) {i : Nat} (hi : i ∈ L) {m : Content α}
    {Fv F' : Nat → Prop} (r : Res fl h h' base (E i) m (F i) Fv F') (dj : ∀ x, arrFp a L C F x → ¬ Fv x) :
    ∃ F2, Arr fl h' len base a L C E T (fun j => if j = i then m else M j) F2 ∧
      (∀ x, arrFp a L C F2 x → arrFp a L C F x ∨ Fv x ∨ h.length ≤ x) ∧ (∀ x, x < h.length → ¬ arrFp a L C F x → h'[x]? = h[x]?) := by
  have al : a < h.length := by
    rcases s.ha with ha | ⟨ha, _⟩ <;> exact lt_of_get ha
  have klt : ∀ j, j ∈ L → ∀ x, F j x → x < h.length := fun j hj => (s.kids j hj).lt
  have clt : ∀ j, j ∈ L → C j < h.length := fun j hj => lt_of_get (s.cells j hj).1
  have hra : h'[a]? = h[a]? := r.frame a al fun h => s.sep.root i hi (.inr h)
  have glt : ∀ j, j ∈ L → ∀ x, (x = C j ∨ F j x) → x < h.length := by
    rintro j hj x (rfl | hx)
    · exact clt j hj
    · exact klt j hj x hx
  have key : ∀ j x, j ∈ L → j ≠ i → (x = C j ∨ F j x) → ¬ F' x := by
    intro j x hj hji hx hx'
    rcases r.sub x hx' with h1 | h1 | h1
    · exact hji (s.sep.parts j i x hj hi hx (.inr h1))
    · exact dj x (.inr ⟨j, hj, hx⟩) h1
    · have := glt j hj x hx; omega
  have keyC : ¬ F' (C i) := by
    intro hx'
    rcases r.sub _ hx' with h1 | h1 | h1
    · exact (s.cells i hi).2.1 h1
    · exact dj _ (.inr ⟨i, hi, .inl rfl⟩) h1
    · have := clt i hi; omega
  have fC : ∀ j, j ∈ L → h'[C j]? = h[C j]? := by
    intro j hj
    refine r.frame _ (clt j hj) fun hx => ?_
    by_cases hji : j = i
    · subst hji; exact (s.cells j hj).2.1 hx
    · exact hji (s.sep.parts j i _ hj hi (.inl rfl) (.inr hx))
  refine ⟨fun j => if j = i then F' else F j, ⟨?_, s.sorted, ?_, ?_, ⟨?_, ?_⟩, ?_⟩, ?_, ?_⟩
  · rw [hra]; exact s.ha
  · intro j hj
    rw [fC j hj]
    refine ⟨(s.cells j hj).1, ?_, (s.cells j hj).2.2⟩
    by_cases hji : j = i
    · subst hji; simp only [if_true]; exact keyC
    · simp only [if_neg hji]; exact (s.cells j hj).2.1
  · intro j hj
    by_cases hji : j = i
    · subst hji; simp only [if_true]; exact r.own
    · simp only [if_neg hji]
      exact (s.kids j hj).frame fun x hx => r.frame x (klt j hj x hx) fun hx' => hji (s.sep.parts j i x hj hi (.inr hx) (.inr hx'))
  · intro j hj hx
    by_cases hji : j = i
    · subst hji
      simp only [if_true] at hx
      rcases hx with hx | hx
      · exact s.sep.root j hj (.inl hx)
      · rcases r.sub a hx with h1 | h1 | h1
        · exact s.sep.root j hi (.inr h1)
        · exact dj a (.inl rfl) h1
        · omega
    · simp only [if_neg hji] at hx
      exact s.sep.root j hj hx
  · have cross : ∀ j x, j ∈ L → j ≠ i → (x = C j ∨ F j x) → ¬ (x = C i ∨ F' x) := by
      rintro j x hj hji hx (hx' | hx')
      · exact hji (s.sep.parts j i x hj hi hx (.inl hx'))
      · exact key j x hj hji hx hx'
    intro j l x hj hl hx hx'
    by_cases h1 : j = i <;> by_cases h2 : l = i
    · omega
    · simp only [if_pos h1, h1] at hx; simp only [if_neg h2] at hx'
      exact (cross l x hl h2 hx' hx).elim
    · simp only [if_neg h1] at hx; simp only [if_pos h2, h2] at hx'
      exact (cross j x hj h1 hx hx').elim
    · simp only [if_neg h1] at hx; simp only [if_neg h2] at hx'
      exact s.sep.parts j l x hj hl hx hx'
  · intro j hj
    rw [if_neg (fun (e : j = i) => hj (e ▸ hi))]
    exact s.out j hj
  · rintro x (hx | ⟨j, hj, hx⟩)
    · exact .inl (.inl hx)
    · by_cases hji : j = i
      · subst hji
        simp only [if_true] at hx
        rcases hx with hx | hx
        · exact .inl (.inr ⟨j, hj, .inl hx⟩)
        · rcases r.sub x hx with h1 | h1 | h1
          · exact .inl (.inr ⟨j, hj, .inr h1⟩)
          · exact .inr (.inl h1)
          · exact .inr (.inr h1)
      · simp only [if_neg hji] at hx
        exact .inl (.inr ⟨j, hj, hx⟩)
  · intro x hx hn
    exact r.frame x hx fun h => hn (.inr ⟨i, hi, .inr h⟩)

end C3.ConstInit
