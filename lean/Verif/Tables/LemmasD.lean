import Verif.Tables.LemmasS

/-! # `DeclTable` refines a map from names to sequences of declarations -/

set_option autoImplicit false

namespace C3.Tables

/-- What a table cell holds. -/
def dview (heap : Heap) (id : Nat) : Cell Nat :=
  if id = 0 then none else (heap[id]?).map fun d => (d.name, id)

def dcells (heap : Heap) (es : List Nat) : List (Cell Nat) := es.map (dview heap)

/-- Every id in the table is that of a declaration. -/
def Valid (heap : Heap) (es : List Nat) : Prop := ∀ id ∈ es, id ≠ 0 → id < heap.length

theorem dcells_get (heap : Heap) (es : List Nat) (i : Nat) : (dcells heap es)[i]? = (es[i]?).map (dview heap) := by
  rw [dcells, List.getElem?_map]

theorem dcells_empty (heap : Heap) (n : Nat) : dcells heap (List.replicate n 0) = List.replicate n none := by
  rw [dcells, List.map_replicate]; rfl

theorem dview_some (heap : Heap) (id : Nat) (k : Ptr) (v : Nat) (h : dview heap id = some (k, v)) :
    v = id ∧ id ≠ 0 ∧ ∃ d, heap[id]? = some d ∧ d.name = k := by
  unfold dview at h
  split at h
  · simp at h
  · rename_i h0
    rw [Option.map_eq_some_iff] at h
    obtain ⟨d, h1, h2⟩ := h
    simp only [Prod.mk.injEq] at h2
    exact ⟨h2.2.symm, h0, d, h1, h2.1⟩

theorem dview_none (heap : Heap) (es : List Nat) (hv : Valid heap es) (id : Nat) (hm : id ∈ es) (h : dview heap id = none) :
    id = 0 := by
  by_contra h0
  have := hv id hm h0
  rw [dview, if_neg h0, List.getElem?_eq_getElem this] at h
  simp at h

theorem dview_of (heap : Heap) (id : Nat) (d : Decl) (h0 : id ≠ 0) (h : heap[id]? = some d) : dview heap id = some (d.name, id) := by
  rw [dview, if_neg h0, h]; rfl

theorem dcells_set (heap : Heap) (es : List Nat) (i id : Nat) (d : Decl) (h0 : id ≠ 0) (h : heap[id]? = some d) :
    dcells heap (es.set i id) = (dcells heap es).set i (some (d.name, id)) := by
  rw [dcells, List.map_set, dview_of heap id d h0 h]; rfl

/-- The table looks the same in a heap that has the same names. -/
theorem dcells_congr (heap heap' : Heap) (es : List Nat)
    (h : ∀ id ∈ es, id ≠ 0 → (heap'[id]?).map (·.name) = (heap[id]?).map (·.name)) : dcells heap' es = dcells heap es := by
  apply List.map_congr_left
  intro id hid
  unfold dview
  split
  · rfl
  · rename_i h0
    have := h id hid h0
    cases h1 : heap'[id]? <;> cases h2 : heap[id]? <;> rw [h1, h2] at this <;> simp at this
    simp [this]

theorem dprobe_at (heap : Heap) (es : List Nat) (c : BitVec 32) (n : Nat) (hc : c.toNat = 2 ^ n) (hn : n ≤ 31) (k : Ptr) (d : Nat) :
    ∀ i : BitVec 32,
      (∀ e, e < d → ∃ x dd, es[(i.toNat + e) % 2 ^ n]? = some x ∧ x ≠ 0 ∧ heap[x]? = some dd ∧ dd.name ≠ k) →
      (∃ x, es[(i.toNat + d) % 2 ^ n]? = some x ∧ (x = 0 ∨ ∃ dd, heap[x]? = some dd ∧ dd.name = k)) → i.toNat < 2 ^ n →
      declentryProbe heap es (c - 1#32) k i = some ((i.toNat + d) % 2 ^ n) := by
  induction d with
  | zero =>
    intro i _ h2 h3
    obtain ⟨x, g1, g2⟩ := h2
    rw [Nat.add_zero, Nat.mod_eq_of_lt h3] at g1 ⊢
    rw [declentryProbe, g1]
    dsimp only
    by_cases h0 : x = 0
    · rw [if_pos h0]
    · rcases g2 with g2 | ⟨dd, g2, g3⟩
      · exact absurd g2 h0
      · rw [if_neg h0, g2]
        dsimp only
        rw [if_pos g3]
  | succ d ih =>
    intro i h1 h2 h3
    obtain ⟨x, dd, g1, g2, g3, g4⟩ := h1 0 (by omega)
    rw [Nat.add_zero, Nat.mod_eq_of_lt h3] at g1
    rw [declentryProbe, g1]
    dsimp only
    rw [if_neg g2, g3]
    dsimp only
    rw [if_neg g4]
    have hnext := next_toNat c i n hc hn
    have hshift : ∀ e, ((i.toNat + 1) % 2 ^ n + e) % 2 ^ n = (i.toNat + (e + 1)) % 2 ^ n := by
      intro e; rw [Nat.mod_add_mod]; congr 1; omega
    have := ih ((i + 1#32) &&& (c - 1#32)) (by
      intro e he
      rw [hnext, hshift]
      exact h1 (e + 1) (by omega)) (by rw [hnext, hshift]; exact h2)
      (by rw [hnext]; exact Nat.mod_lt _ (Nat.two_pow_pos n))
    rw [this, hnext, hshift]

theorem declentryFind_spec (heap : Heap) (es : List Nat) (c : BitVec 32) (n : Nat) (hc : c.toNat = 2 ^ n) (hn : n ≤ 31) (k : Ptr)
    (hv : Valid heap es) (hw : WF (2 ^ n) (homeOf c) (dcells heap es)) (hf : none ∈ dcells heap es) :
    ∃ d, Stops (2 ^ n) (homeOf c) (dcells heap es) k d ∧ declentryFind heap es c k = some ((homeOf c k + d) % 2 ^ n) := by
  obtain ⟨d, hd⟩ := exists_stop _ _ _ k hw hf
  refine ⟨d, hd, ?_⟩
  rw [declentryFind]
  apply dprobe_at heap es c n hc hn k d
  · intro e he
    obtain ⟨k', v, g1, g2⟩ := hd.before e he
    rw [dcells_get, Option.map_eq_some_iff] at g1
    obtain ⟨x, g3, g4⟩ := g1
    obtain ⟨rfl, g5, dd, g6, g7⟩ := dview_some _ _ _ _ g4
    exact ⟨_, dd, g3, g5, g6, by rw [g7]; exact g2⟩
  · rcases hd.stop with ⟨g1, -⟩ | ⟨v, g1⟩
    · rw [dcells_get, Option.map_eq_some_iff] at g1
      obtain ⟨x, g3, g4⟩ := g1
      exact ⟨x, g3, Or.inl (dview_none _ _ hv _ (List.mem_of_getElem? g3) g4)⟩
    · rw [dcells_get, Option.map_eq_some_iff] at g1
      obtain ⟨x, g3, g4⟩ := g1
      obtain ⟨rfl, g5, dd, g6, g7⟩ := dview_some _ _ _ _ g4
      exact ⟨_, g3, Or.inr ⟨dd, g6, g7⟩⟩
  · exact first_lt c n hc k

/-! ## Resizing -/

theorem declResizeLoop_spec (heap : Heap) (c : BitVec 32) (n : Nat) (hc : c.toNat = 2 ^ n) (hn : n ≤ 30) (cap0 : Nat)
    (home0 : Ptr → Nat) (rest : List Nat) : ∀ (pre new : List Nat) (count : BitVec 32),
    WF cap0 home0 (dcells heap (pre ++ rest)) → WF (2 ^ n) (homeOf c) (dcells heap new) → Valid heap rest → Valid heap new →
    used (dcells heap (pre ++ rest)) < 2 ^ n →
    count.toNat = used (dcells heap new) → used (dcells heap new) = used (dcells heap pre) →
    (∀ x, some x ∈ dcells heap new ↔ some x ∈ dcells heap pre) →
    ∃ count' new', declResizeLoop heap c rest count new = some (count', new') ∧ WF (2 ^ n) (homeOf c) (dcells heap new') ∧
      count'.toNat = used (dcells heap new') ∧ used (dcells heap new') = used (dcells heap (pre ++ rest)) ∧
      (∀ x, some x ∈ dcells heap new' ↔ some x ∈ dcells heap (pre ++ rest)) ∧ Valid heap new' := by
  induction rest with
  | nil =>
    intro pre new count h1 h2 hvr hvn h3 h4 h5 h6
    rw [List.append_nil] at *
    exact ⟨count, new, rfl, h2, h4, h5, h6, hvn⟩
  | cons e rest ih =>
    intro pre new count h1 h2 hvr hvn h3 h4 h5 h6
    have happ : pre ++ e :: rest = (pre ++ [e]) ++ rest := by simp
    have hvr' : Valid heap rest := fun id hid => hvr id (by simp [hid])
    rw [declResizeLoop]
    by_cases hk : e = 0
    · rw [if_pos hk]
      have hv : dcells heap (pre ++ [e]) = dcells heap pre ++ [none] := by simp [dcells, dview, hk]
      have hu : used (dcells heap (pre ++ [e])) = used (dcells heap pre) := by rw [hv, used, List.countP_append]; rfl
      rw [happ] at h1 h3 ⊢
      refine ih (pre ++ [e]) new count h1 h2 hvr' hvn h3 h4 (by rw [h5, hu]) ?_
      intro x
      rw [h6, hv]
      simp
    · rw [if_neg hk]
      have hel := hvr e (by simp) hk
      obtain ⟨dd, hdd⟩ : ∃ dd, heap[e]? = some dd := ⟨_, List.getElem?_eq_getElem hel⟩
      rw [hdd, Option.bind_eq_bind, Option.bind_some]
      have hv : dcells heap (pre ++ [e]) = dcells heap pre ++ [some (dd.name, e)] := by
        simp [dcells, dview_of heap e dd hk hdd]
      have hu : used (dcells heap (pre ++ [e])) = used (dcells heap pre) + 1 := by rw [hv, used, List.countP_append]; rfl
      have hule : used (dcells heap (pre ++ [e])) ≤ used (dcells heap (pre ++ e :: rest)) := by
        have : dcells heap (pre ++ e :: rest) = dcells heap (pre ++ [e]) ++ dcells heap rest := by
          rw [happ, dcells, List.map_append]; rfl
        rw [this, used, used, List.countP_append]
        exact Nat.le_add_right _ _
      have hfree : none ∈ dcells heap new := by
        apply free_of_used_lt
        rw [h2.len]; omega
      obtain ⟨d, hd, hf⟩ := declentryFind_spec heap new c n hc (by omega) dd.name hvn h2 hfree
      rw [hf, Option.bind_eq_bind, Option.bind_some]
      have habs : ∀ w, some (dd.name, w) ∉ dcells heap new := by
        intro w hw
        rw [h6] at hw
        obtain ⟨i, hi, hin⟩ := List.getElem_of_mem hw
        have hi2 : i < pre.length := by simpa [dcells] using hi
        have g1 : (dcells heap (pre ++ e :: rest))[i]? = some (some (dd.name, w)) := by
          rw [dcells, List.map_append, List.getElem?_append_left (by simpa using hi2)]
          rw [← dcells, List.getElem?_eq_getElem hi, hin]
        have g2 : (dcells heap (pre ++ e :: rest))[pre.length]? = some (some (dd.name, e)) := by
          simp [dcells, dview_of heap e dd hk hdd]
        have := h1.uniq _ _ _ _ _ g1 g2
        omega
      have hfr : (dcells heap new)[(homeOf c dd.name + d) % 2 ^ n]? = some none := by
        rcases hd.stop with ⟨g, -⟩ | ⟨v, g⟩
        · exact g
        · exact absurd (List.mem_of_getElem? g) (habs v)
      have hset := dcells_set heap new ((homeOf c dd.name + d) % 2 ^ n) e dd hk hdd
      have hpow : 2 ^ n ≤ 2 ^ 30 := Nat.pow_le_pow_right (by omega) hn
      have hcnt : (count + 1#32).toNat = used (dcells heap (new.set ((homeOf c dd.name + d) % 2 ^ n) e)) := by
        rw [hset, used_fill _ _ _ hfr, BitVec.toNat_add, show (1#32).toNat = 1 from rfl, h4]
        exact Nat.mod_eq_of_lt (by omega)
      have hvn' : Valid heap (new.set ((homeOf c dd.name + d) % 2 ^ n) e) := by
        intro id hid h0
        rcases List.mem_or_eq_of_mem_set hid with hid | rfl
        · exact hvn id hid h0
        · exact hel
      rw [happ] at h1 h3 ⊢
      refine ih (pre ++ [e]) _ _ h1 ?_ hvr' hvn' h3 hcnt ?_ ?_
      · rw [hset]; exact h2.insert hd hfr habs e
      · rw [hset, used_fill _ _ _ hfr, hu, h5]
      · intro x
        rw [hset, mem_fill _ _ _ hfr, h6, hv]
        simp [or_comm]

/-- The part of the invariant that concerns the table as such. -/
structure DTab (heap : Heap) (t : DeclTable) (es : List Nat) (n : Nat) : Prop where
  entries : t.entries = some es
  cap : t.capacity.toNat = 2 ^ n
  capLe : n ≤ 30
  load : t.maxLoad.toNat = 2 ^ n / 2
  wf : WF (2 ^ n) (homeOf t.capacity) (dcells heap es)
  count : t.count.toNat = used (dcells heap es)
  below : used (dcells heap es) < 2 ^ n / 2 ∨ used (dcells heap es) = 0
  valid : Valid heap es

theorem DTab.free {heap : Heap} {t : DeclTable} {es : List Nat} {n : Nat} (h : DTab heap t es n) : none ∈ dcells heap es := by
  apply free_of_used_lt
  rw [h.wf.len]
  have := Nat.two_pow_pos n
  rcases h.below with g | g <;> omega

theorem decltableResize_spec (heap : Heap) (t : DeclTable) (es : List Nat) (n : Nat) (he : t.entries = some es)
    (hcap : t.capacity.toNat = 2 ^ n) (hn : n ≤ 28) (hw : WF (2 ^ n) (homeOf t.capacity) (dcells heap es))
    (hv : Valid heap es) (hu : used (dcells heap es) ≤ 2 ^ n) :
    ∃ t' es', decltableResize heap t = some t' ∧ DTab heap t' es' (n + 2) ∧
      used (dcells heap es') = used (dcells heap es) ∧ ∀ x, some x ∈ dcells heap es' ↔ some x ∈ dcells heap es := by
  have hpow : 2 ^ n ≤ 2 ^ 28 := Nat.pow_le_pow_right (by omega) hn
  have hpos := Nat.two_pow_pos n
  have hne : t.capacity ≠ 0#32 := by
    intro h; rw [h] at hcap; simp at hcap; omega
  have hnew : (t.capacity <<< 2).toNat = 2 ^ (n + 2) := by
    rw [BitVec.toNat_shiftLeft, hcap, Nat.shiftLeft_eq, Nat.pow_add]
    exact Nat.mod_eq_of_lt (by omega)
  have h4 : 2 ^ (n + 2) = 4 * 2 ^ n := by rw [Nat.pow_add]; omega
  have hwe : WF (2 ^ (n + 2)) (homeOf (t.capacity <<< 2)) (dcells heap (List.replicate (t.capacity <<< 2).toNat 0)) := by
    rw [dcells_empty, hnew]
    exact wf_empty _ _ (first_lt _ _ hnew)
  have hue : used (dcells heap (List.replicate (t.capacity <<< 2).toNat 0)) = 0 := by
    rw [dcells_empty, used, List.countP_replicate]; rfl
  obtain ⟨c', new', g1, g2, g3, g4, g5, g6⟩ := declResizeLoop_spec heap (t.capacity <<< 2) (n + 2) hnew (by omega) _ _ es [] _ 0#32
    hw hwe hv (by
      intro id hid h0
      exact absurd (List.mem_replicate.1 hid).2 h0)
    (by show used (dcells heap es) < _; omega) (by rw [hue]; rfl) (by rw [hue]; rfl) (by
      intro x
      rw [dcells_empty]
      simp [dcells])
  refine ⟨⟨c', t.capacity <<< 2, loadLimit (t.capacity <<< 2), some new'⟩, new', ?_, ?_, g4, g5⟩
  · rw [decltableResize, if_pos (by rw [BitVec.lt_def, hcap]; exact Nat.lt_of_le_of_lt hpow (by decide)), if_pos hne, he]
    dsimp only
    rw [Option.getD_some, show (0 : BitVec 32) = 0#32 from rfl, g1]
    rfl
  · constructor
    · rfl
    · exact hnew
    · omega
    · rw [loadLimit_toNat, hnew]
    · exact g2
    · exact g3
    · left
      rw [g4, List.nil_append]
      omega
    · exact g6

/-! ## The invariant -/

/-- The declarations entered under a name. -/
def under (s : Names) (k : Ptr) : List Nat := s.entered.filter fun n => s.names[n]? = some k

/-- The id `id` found under `k` stands for the declarations `l`. -/
def Stands (p : Prog) (k : Ptr) (l : List Nat) (id : Nat) : Prop :=
  (∃ n, l = [n] ∧ p.created[n]? = some id) ∨
  (2 ≤ l.length ∧ ∃ ids, p.heap[id]? = some ⟨k, true, ids⟩ ∧ l.map (p.created[·]?) = ids.map some)

structure DInv (p : Prog) (s : Names) (es : List Nat) (n : Nat) : Prop where
  tab : DTab p.heap p.table es n
  len : p.created.length = s.names.length
  decl : ∀ (i id : Nat) k, p.created[i]? = some id → s.names[i]? = some k → id ≠ 0 ∧ p.heap[id]? = some ⟨k, false, []⟩
  inj : ∀ (i j id : Nat), p.created[i]? = some id → p.created[j]? = some id → i = j
  known : ∀ i ∈ s.entered, i < s.names.length
  heap0 : 0 < p.heap.length
  absent : ∀ k id, some (k, id) ∈ dcells p.heap es → under s k ≠ [] ∧ Stands p k (under s k) id
  present : ∀ k, under s k ≠ [] → ∃ id, some (k, id) ∈ dcells p.heap es
  usedLe : used (dcells p.heap es) ≤ s.entered.length

theorem numberOf_spec {p : Prog} {s : Names} {es : List Nat} {n : Nat} (h : DInv p s es n) (i id : Nat)
    (hi : p.created[i]? = some id) : numberOf p.created id = some i := by
  obtain ⟨hl, he⟩ := List.getElem?_eq_some_iff.1 hi
  rw [numberOf, List.findIdx?_eq_some_iff_getElem]
  refine ⟨hl, by simp [he], ?_⟩
  intro j hj
  simp only [beq_iff_eq]
  intro hje
  have := h.inj j i id (by rw [List.getElem?_eq_getElem (by omega), hje]) hi
  omega

theorem mapM_numberOf {p : Prog} {s : Names} {es : List Nat} {n : Nat} (h : DInv p s es n) (l ids : List Nat)
    (hl : l.map (p.created[·]?) = ids.map some) : ids.mapM (numberOf p.created) = some l := by
  induction l generalizing ids with
  | nil =>
    cases ids with
    | nil => rfl
    | cons => simp at hl
  | cons a l ih =>
    cases ids with
    | nil => simp at hl
    | cons b ids =>
      rw [List.map_cons, List.map_cons, List.cons.injEq] at hl
      rw [List.mapM_cons, numberOf_spec h a b hl.1, ih ids hl.2]
      rfl

theorem DInv.get {p : Prog} {s : Names} {es : List Nat} {n : Nat} (h : DInv p s es n) (k : Ptr) :
    dStep p (.get k) = some (p, under s k) := by
  obtain ⟨d, hd, hf⟩ := declentryFind_spec p.heap es p.table.capacity n h.tab.cap (by have := h.tab.capLe; omega) k h.tab.valid
    h.tab.wf h.tab.free
  rw [dStep, decltableGet, h.tab.entries]
  dsimp only
  simp only [hf, Option.bind_eq_bind, Option.bind_some]
  rcases hd.stop with ⟨g1, g2⟩ | ⟨v, g1⟩
  · rw [dcells_get, Option.map_eq_some_iff] at g1
    obtain ⟨x, g3, g4⟩ := g1
    have := dview_none _ _ h.tab.valid _ (List.mem_of_getElem? g3) g4
    subst this
    have hu : under s k = [] := by
      by_contra hne
      obtain ⟨id, hid⟩ := h.present k hne
      exact g2 id hid
    rw [g3, hu]
    rfl
  · obtain ⟨-, hst⟩ := h.absent k v (List.mem_of_getElem? g1)
    rw [dcells_get, Option.map_eq_some_iff] at g1
    obtain ⟨x, g3, g4⟩ := g1
    obtain ⟨rfl, g5, dd, g6, g7⟩ := dview_some _ _ _ _ g4
    rw [g3]
    simp only [Option.bind_eq_bind, Option.bind_some]
    rw [resolve, if_neg g5, g6]
    simp only [Option.bind_eq_bind, Option.bind_some]
    rcases hst with ⟨i, e1, e2⟩ | ⟨e0, ids, e1, e2⟩
    · have hil : i < s.names.length := by rw [← h.len]; exact (List.getElem?_eq_some_iff.1 e2).1
      have hdec := h.decl i v _ e2 (List.getElem?_eq_getElem hil)
      rw [g6, Option.some.injEq] at hdec
      rw [hdec.2, if_neg (by simp), e1, mapM_numberOf h [i] [v] (by simp [e2])]
      rfl
    · rw [g6, Option.some.injEq] at e1
      rw [e1, if_pos rfl, mapM_numberOf h _ _ e2]
      rfl

theorem under_create (s : Names) (name : Ptr) (hk : ∀ i ∈ s.entered, i < s.names.length) (k : Ptr) :
    under ⟨s.names ++ [name], s.entered⟩ k = under s k := by
  unfold under
  apply List.filter_congr
  intro i hi
  dsimp only
  rw [List.getElem?_append_left (hk i hi)]

theorem under_set (s : Names) (i : Nat) (k0 : Ptr) (h0 : s.names[i]? = some k0) (k : Ptr) :
    under ⟨s.names, s.entered ++ [i]⟩ k = if k = k0 then under s k ++ [i] else under s k := by
  unfold under
  rw [List.filter_append]
  dsimp only
  split
  · rename_i h; simp [h0, h]
  · rename_i h
    have : ¬ k0 = k := fun e => h e.symm
    simp [h0, this]

theorem DInv.create {p : Prog} {s : Names} {es : List Nat} {n : Nat} (h : DInv p s es n) (name : Ptr) :
    DInv ⟨p.heap ++ [⟨name, false, []⟩], p.table, p.created ++ [p.heap.length]⟩ ⟨s.names ++ [name], s.entered⟩ es n := by
  have hc : dcells (p.heap ++ [⟨name, false, []⟩]) es = dcells p.heap es := by
    apply dcells_congr
    intro id hid h0
    rw [List.getElem?_append_left (h.tab.valid id hid h0)]
  have hcr : ∀ (i id : Nat), (p.created ++ [p.heap.length])[i]? = some id →
      (p.created[i]? = some id ∧ id < p.heap.length) ∨ (i = p.created.length ∧ id = p.heap.length) := by
    intro i id hi
    by_cases hlt : i < p.created.length
    · rw [List.getElem?_append_left hlt] at hi
      have hil : i < s.names.length := by rw [← h.len]; exact hlt
      exact Or.inl ⟨hi, (List.getElem?_eq_some_iff.1 (h.decl i id _ hi (List.getElem?_eq_getElem hil)).2).1⟩
    · have := (List.getElem?_eq_some_iff.1 hi).1
      simp at this
      have : i = p.created.length := by omega
      subst this
      simp at hi
      exact Or.inr ⟨rfl, hi.symm⟩
  constructor
  · exact ⟨h.tab.entries, h.tab.cap, h.tab.capLe, h.tab.load, by rw [hc]; exact h.tab.wf, by rw [hc]; exact h.tab.count,
      by rw [hc]; exact h.tab.below, by
        intro id hid h0
        have := h.tab.valid id hid h0
        simp; omega⟩
  · simp [h.len]
  · intro i id k hi hk
    rcases hcr i id hi with ⟨g1, g2⟩ | ⟨g1, g2⟩
    · have hlt := (List.getElem?_eq_some_iff.1 g1).1
      rw [h.len] at hlt
      dsimp only at hk ⊢
      rw [List.getElem?_append_left hlt] at hk
      have := h.decl i id k g1 hk
      rw [List.getElem?_append_left g2]
      exact this
    · subst g2
      rw [h.len] at g1
      subst g1
      have := h.heap0
      simp at hk
      subst hk
      exact ⟨by omega, by simp⟩
  · intro i j id hi hj
    rcases hcr i id hi with ⟨g1, g2⟩ | ⟨g1, g2⟩ <;> rcases hcr j id hj with ⟨f1, f2⟩ | ⟨f1, f2⟩
    · exact h.inj i j id g1 f1
    · omega
    · omega
    · omega
  · intro i hi
    have := h.known i hi
    simp; omega
  · simp
  · intro k id hm
    rw [hc] at hm
    obtain ⟨a1, a2⟩ := h.absent k id hm
    rw [under_create s name h.known]
    refine ⟨a1, ?_⟩
    rcases a2 with ⟨i, b1, b2⟩ | ⟨b0, ids, b1, b2⟩
    · refine Or.inl ⟨i, b1, ?_⟩
      dsimp only
      rw [List.getElem?_append_left (List.getElem?_eq_some_iff.1 b2).1, b2]
    · refine Or.inr ⟨b0, ids, ?_, ?_⟩
      · dsimp only
        rw [List.getElem?_append_left (List.getElem?_eq_some_iff.1 b1).1, b1]
      · rw [← b2]
        apply List.map_congr_left
        intro i hi
        have : i < p.created.length := by
          rw [h.len]
          exact h.known i ((List.mem_filter.1 hi).1)
        dsimp only
        rw [List.getElem?_append_left this]
  · intro k hk
    rw [under_create s name h.known] at hk
    rw [hc]
    exact h.present k hk
  · rw [hc]; exact h.usedLe

/-! ## Setting -/

theorem mem_under {s : Names} {k : Ptr} {i : Nat} (h : i ∈ under s k) : i ∈ s.entered := (List.mem_filter.1 h).1

theorem DInv.set {p : Prog} {s : Names} {es : List Nat} {n : Nat} (h : DInv p s es n) (i : Nat) (hi : i < s.names.length)
    (hnew : i ∉ s.entered) (hbound : s.entered.length + 1 < 2 ^ 28) :
    ∃ p' es' n', dStep p (.set i) = some (p', []) ∧ DInv p' ⟨s.names, s.entered ++ [i]⟩ es' n' := by
  obtain ⟨k, hk⟩ : ∃ k, s.names[i]? = some k := ⟨_, List.getElem?_eq_getElem hi⟩
  obtain ⟨id, hid⟩ : ∃ id, p.created[i]? = some id := ⟨_, List.getElem?_eq_getElem (by rw [h.len]; exact hi)⟩
  obtain ⟨hid0, hdecl⟩ := h.decl i id k hid hk
  obtain ⟨d, hd, hf⟩ := declentryFind_spec p.heap es p.table.capacity n h.tab.cap (by have := h.tab.capLe; omega) k h.tab.valid
    h.tab.wf h.tab.free
  have hpow : 2 ^ n ≤ 2 ^ 30 := Nat.pow_le_pow_right (by omega) h.tab.capLe
  have hpos := Nat.two_pow_pos n
  have hul := h.usedLe
  have hknown : ∀ j ∈ s.entered ++ [i], j < s.names.length := by
    intro j hj
    rcases List.mem_append.1 hj with hj | hj
    · exact h.known j hj
    · rw [List.mem_singleton] at hj; omega
  simp only [dStep, decltableSet, hid, hdecl, h.tab.entries, hf, Option.bind_eq_bind, Option.bind_some]
  rcases hd.stop with ⟨g1, g2⟩ | ⟨v, g1⟩
  · -- the first declaration of this name
    have g1' := g1
    rw [dcells_get, Option.map_eq_some_iff] at g1'
    obtain ⟨x, g3, g4⟩ := g1'
    have := dview_none _ _ h.tab.valid _ (List.mem_of_getElem? g3) g4
    subst this
    have hu0 : under s k = [] := by
      by_contra hne
      obtain ⟨id', hid'⟩ := h.present k hne
      exact g2 id' hid'
    simp only [g3, Option.bind_some, if_neg (Ne.symm hid0), if_true]
    have hset := dcells_set p.heap es ((homeOf p.table.capacity k + d) % 2 ^ n) id _ hid0 hdecl
    have hw' : WF (2 ^ n) (homeOf p.table.capacity) (dcells p.heap (es.set ((homeOf p.table.capacity k + d) % 2 ^ n) id)) := by
      rw [hset]; exact h.tab.wf.insert hd g1 g2 id
    have hu' : used (dcells p.heap (es.set ((homeOf p.table.capacity k + d) % 2 ^ n) id)) = used (dcells p.heap es) + 1 := by
      rw [hset, used_fill _ _ _ g1]
    have hmem : ∀ x, some x ∈ dcells p.heap (es.set ((homeOf p.table.capacity k + d) % 2 ^ n) id) ↔
        x = (k, id) ∨ some x ∈ dcells p.heap es := by
      intro x
      rw [hset, mem_fill _ _ _ g1]
    have hval : Valid p.heap (es.set ((homeOf p.table.capacity k + d) % 2 ^ n) id) := by
      intro j hj h0
      rcases List.mem_or_eq_of_mem_set hj with hj | rfl
      · exact h.tab.valid j hj h0
      · exact (List.getElem?_eq_some_iff.1 hdecl).1
    have hcnt : (p.table.count + 1#32).toNat = used (dcells p.heap es) + 1 := by
      rw [BitVec.toNat_add, show (1#32).toNat = 1 from rfl, h.tab.count]
      exact Nat.mod_eq_of_lt (by omega)
    -- whatever the table's shape, its contents will do
    have hfin : ∀ (t' : DeclTable) (es' : List Nat) (n' : Nat), DTab p.heap t' es' n' →
        used (dcells p.heap es') = used (dcells p.heap es) + 1 →
        (∀ x, some x ∈ dcells p.heap es' ↔ x = (k, id) ∨ some x ∈ dcells p.heap es) →
        DInv ⟨p.heap, t', p.created⟩ ⟨s.names, s.entered ++ [i]⟩ es' n' := by
      intro t' es' n' ht hu hm
      refine ⟨ht, h.len, h.decl, h.inj, hknown, h.heap0, ?_, ?_, ?_⟩
      · intro k' id' hm'
        rw [under_set s i k hk]
        rcases (hm _).1 hm' with he | he
        · simp only [Prod.mk.injEq] at he
          obtain ⟨rfl, rfl⟩ := he
          rw [if_pos rfl, hu0]
          exact ⟨by simp, Or.inl ⟨i, rfl, hid⟩⟩
        · have hkk : k' ≠ k := by rintro rfl; exact g2 _ he
          rw [if_neg hkk]
          exact h.absent k' id' he
      · intro k' hne
        rw [under_set s i k hk] at hne
        by_cases hkk : k' = k
        · exact ⟨id, (hm _).2 (Or.inl (by rw [hkk]))⟩
        · rw [if_neg hkk] at hne
          obtain ⟨id', hid'⟩ := h.present k' hne
          exact ⟨id', (hm _).2 (Or.inr hid')⟩
      · rw [hu]; simp; omega
    by_cases hge : p.table.count + 1#32 ≥ p.table.maxLoad
    · rw [if_pos hge]
      have hge' : 2 ^ n / 2 ≤ used (dcells p.heap es) + 1 := by
        have := BitVec.le_def.1 hge
        rw [h.tab.load, hcnt] at this
        exact this
      have hn28 : n ≤ 28 := by
        by_contra hgt
        have : 2 ^ 29 ≤ 2 ^ n := Nat.pow_le_pow_right (by omega) (by omega)
        omega
      obtain ⟨t', es', r1, r2, r3, r4⟩ := decltableResize_spec p.heap
        ⟨p.table.count + 1#32, p.table.capacity, p.table.maxLoad,
          some (es.set ((homeOf p.table.capacity k + d) % 2 ^ n) id)⟩ _ n rfl h.tab.cap hn28 hw' hval (by
          rw [hu']
          rcases h.tab.below with g | g <;> omega)
      rw [r1]
      refine ⟨_, es', n + 2, rfl, hfin t' es' (n + 2) r2 (by rw [r3, hu']) ?_⟩
      intro x
      rw [r4, hmem]
    · rw [if_neg hge]
      refine ⟨_, _, n, rfl, hfin _ _ n ⟨rfl, h.tab.cap, h.tab.capLe, h.tab.load, hw', by rw [hu', ← hcnt], ?_, hval⟩ hu' hmem⟩
      left
      have : ¬ p.table.maxLoad.toNat ≤ (p.table.count + 1#32).toNat := fun hh => hge (BitVec.le_def.2 hh)
      rw [h.tab.load, hcnt] at this
      rw [hu']; omega
  · -- the name is in the table already
    obtain ⟨hne, hst⟩ := h.absent k v (List.mem_of_getElem? g1)
    have g1' := g1
    rw [dcells_get, Option.map_eq_some_iff] at g1'
    obtain ⟨x, g3, g4⟩ := g1'
    obtain ⟨rfl, g5, dd, g6, g7⟩ := dview_some _ _ _ _ g4
    have hvm := List.mem_of_getElem? g3
    rcases hst with ⟨j, e1, e2⟩ | ⟨e0, ids, e1, e2⟩
    · -- as a single declaration
      have hje : j ∈ s.entered := mem_under (k := k) (by rw [e1]; simp)
      have hvid : v ≠ id := by
        rintro rfl
        have := h.inj i j _ hid e2
        exact hnew (this ▸ hje)
      have hdec := h.decl j v _ e2 (List.getElem?_eq_getElem (h.known j hje))
      have hdd : dd.isArray = false := by
        rw [g6, Option.some.injEq] at hdec; rw [hdec.2]
      simp only [g3, Option.bind_some, if_neg hvid, if_neg g5, g6, hdd, Bool.false_eq_true, if_false]
      have hc : dcells (p.heap ++ [⟨k, true, [v, id]⟩]) es = dcells p.heap es := by
        apply dcells_congr
        intro id hid h0
        rw [List.getElem?_append_left (h.tab.valid id hid h0)]
      have hl0 : p.heap.length ≠ 0 := by have := h.heap0; omega
      have hnewat : (p.heap ++ [(⟨k, true, [v, id]⟩ : Decl)])[p.heap.length]? = some ⟨k, true, [v, id]⟩ := by simp
      have hkeep : ∀ (x : Nat) dx, p.heap[x]? = some dx → (p.heap ++ [(⟨k, true, [v, id]⟩ : Decl)])[x]? = some dx := by
        intro x dx hx
        rw [List.getElem?_append_left (List.getElem?_eq_some_iff.1 hx).1, hx]
      have hset := dcells_set (p.heap ++ [⟨k, true, [v, id]⟩]) es ((homeOf p.table.capacity k + d) % 2 ^ n) p.heap.length _ hl0 hnewat
      rw [hc] at hset
      dsimp only at hset
      refine ⟨_, es.set ((homeOf p.table.capacity k + d) % 2 ^ n) p.heap.length, n, rfl, ?_⟩
      refine ⟨⟨rfl, h.tab.cap, h.tab.capLe, h.tab.load, ?_, ?_, ?_, ?_⟩, h.len, ?_, h.inj, hknown, by simp, ?_, ?_, ?_⟩
      · dsimp only; rw [hset]; exact h.tab.wf.replace g1 _
      · dsimp only; rw [hset, used_replace _ _ _ _ g1]; exact h.tab.count
      · dsimp only; rw [hset, used_replace _ _ _ _ g1]; exact h.tab.below
      · intro y hy h0
        rcases List.mem_or_eq_of_mem_set hy with hy | rfl
        · have := h.tab.valid y hy h0
          simp; omega
        · simp
      · intro a b c ha hb
        obtain ⟨f1, f2⟩ := h.decl a b c ha hb
        exact ⟨f1, hkeep _ _ f2⟩
      · intro k' id' hm'
        dsimp only at hm'
        rw [hset, h.tab.wf.mem_replace g1] at hm'
        rw [under_set s i k hk]
        rcases hm' with he | ⟨hkk, he⟩
        · simp only [Prod.mk.injEq] at he
          obtain ⟨rfl, rfl⟩ := he
          rw [if_pos rfl, e1]
          refine ⟨by simp, Or.inr ⟨by simp, [v, id], hnewat, ?_⟩⟩
          simp [e2, hid]
        · rw [if_neg hkk]
          obtain ⟨a1, a2⟩ := h.absent k' id' he
          refine ⟨a1, ?_⟩
          rcases a2 with ⟨y, b1, b2⟩ | ⟨b0, ids, b1, b2⟩
          · exact Or.inl ⟨y, b1, b2⟩
          · exact Or.inr ⟨b0, ids, hkeep _ _ b1, b2⟩
      · intro k' hne'
        rw [under_set s i k hk] at hne'
        dsimp only
        rw [hset]
        by_cases hkk : k' = k
        · exact ⟨_, (h.tab.wf.mem_replace g1 _ _).2 (Or.inl (by rw [hkk]))⟩
        · rw [if_neg hkk] at hne'
          obtain ⟨id', hid'⟩ := h.present k' hne'
          exact ⟨id', (h.tab.wf.mem_replace g1 _ _).2 (Or.inr ⟨hkk, hid'⟩)⟩
      · dsimp only; rw [hset, used_replace _ _ _ _ g1]; simp; omega
    · -- as an array
      have hvid : v ≠ id := by
        rintro rfl
        rw [hdecl] at e1
        simp at e1
      rw [e1, Option.some.injEq] at g6
      have hvl := (List.getElem?_eq_some_iff.1 e1).1
      simp only [g3, Option.bind_some, if_neg hvid, if_neg g5, e1, if_true]
      have hat : (p.heap.set v ⟨k, true, ids ++ [id]⟩)[v]? = some ⟨k, true, ids ++ [id]⟩ := List.getElem?_set_self hvl
      have hother : ∀ y : Nat, y ≠ v → (p.heap.set v (⟨k, true, ids ++ [id]⟩ : Decl))[y]? = p.heap[y]? := by
        intro y hy
        rw [List.getElem?_set_ne (Ne.symm hy)]
      have hc : dcells (p.heap.set v ⟨k, true, ids ++ [id]⟩) es = dcells p.heap es := by
        apply dcells_congr
        intro y hy h0
        by_cases hyv : y = v
        · rw [hyv, hat, e1]; rfl
        · rw [hother y hyv]
      refine ⟨_, es, n, rfl, ?_⟩
      refine ⟨⟨h.tab.entries, h.tab.cap, h.tab.capLe, h.tab.load, ?_, ?_, ?_, ?_⟩, h.len, ?_, h.inj, hknown,
        by simpa using h.heap0, ?_, ?_, ?_⟩
      · dsimp only; rw [hc]; exact h.tab.wf
      · dsimp only; rw [hc]; exact h.tab.count
      · dsimp only; rw [hc]; exact h.tab.below
      · intro y hy h0
        have := h.tab.valid y hy h0
        simpa using this
      · intro a b c ha hb
        obtain ⟨f1, f2⟩ := h.decl a b c ha hb
        refine ⟨f1, ?_⟩
        dsimp only
        rw [hother b (by rintro rfl; rw [e1] at f2; simp at f2), f2]
      · intro k' id' hm'
        dsimp only at hm'
        rw [hc] at hm'
        rw [under_set s i k hk]
        obtain ⟨a1, a2⟩ := h.absent k' id' hm'
        by_cases hkk : k' = k
        · subst hkk
          have := h.tab.wf.func hm' (List.mem_of_getElem? g1)
          subst this
          rw [if_pos rfl]
          refine ⟨by simp, Or.inr ⟨by simp; omega, ids ++ [id], hat, ?_⟩⟩
          simp only [List.map_append, e2, List.map_cons, List.map_nil, hid]
        · rw [if_neg hkk]
          refine ⟨a1, ?_⟩
          rcases a2 with ⟨y, b1, b2⟩ | ⟨b0, ids', b1, b2⟩
          · exact Or.inl ⟨y, b1, b2⟩
          · refine Or.inr ⟨b0, ids', ?_, b2⟩
            dsimp only
            rw [hother id' (by
              rintro rfl
              rw [e1] at b1
              simp at b1
              exact hkk b1.1.symm), b1]
      · intro k' hne'
        rw [under_set s i k hk] at hne'
        dsimp only
        rw [hc]
        by_cases hkk : k' = k
        · exact ⟨v, by rw [hkk]; exact List.mem_of_getElem? g1⟩
        · rw [if_neg hkk] at hne'
          exact h.present k' hne'
      · dsimp only; rw [hc]; simp; omega

theorem dRun_refines (ops : List DOp) : ∀ (p : Prog) (s : Names) (es : List Nat) (n : Nat) (rs : List (List Nat)), DInv p s es n →
    s.entered.length + ops.length < 2 ^ 28 → specDRun s ops = some rs → ∃ p', dRun p ops = some (p', rs) := by
  induction ops with
  | nil =>
    intro p s es n rs _ _ h
    simp only [specDRun, Option.some.injEq] at h
    subst h
    exact ⟨p, rfl⟩
  | cons op ops ih =>
    intro p s es n rs h hb hs
    rw [specDRun, Option.bind_eq_bind, Option.bind_eq_some_iff] at hs
    obtain ⟨⟨s1, r⟩, hs1, hs2⟩ := hs
    dsimp only at hs2
    rw [Option.bind_eq_bind, Option.bind_eq_some_iff] at hs2
    obtain ⟨rs', hs3, hs4⟩ := hs2
    simp only [Option.some.injEq] at hs4
    subst hs4
    rw [List.length_cons] at hb
    cases op with
    | create name =>
      simp only [specDStep, Option.some.injEq, Prod.mk.injEq] at hs1
      obtain ⟨rfl, rfl⟩ := hs1
      obtain ⟨p', hp⟩ := ih _ _ es n rs' (h.create name) (by dsimp only; omega) hs3
      refine ⟨p', ?_⟩
      simp only [dRun, dStep, Option.bind_eq_bind, Option.bind_some, hp]
    | get name =>
      simp only [specDStep, Option.some.injEq, Prod.mk.injEq] at hs1
      obtain ⟨rfl, rfl⟩ := hs1
      obtain ⟨p', hp⟩ := ih p s es n rs' h (by omega) hs3
      refine ⟨p', ?_⟩
      simp only [dRun, h.get name, Option.bind_eq_bind, Option.bind_some, hp]
      rfl
    | set i =>
      simp only [specDStep] at hs1
      split at hs1
      · rename_i hc
        simp only [Option.some.injEq, Prod.mk.injEq] at hs1
        obtain ⟨rfl, rfl⟩ := hs1
        obtain ⟨p1, es1, n1, g1, g2⟩ := h.set i hc.1 hc.2 (by omega)
        obtain ⟨p', hp⟩ := ih p1 _ es1 n1 rs' g2 (by simp; omega) hs3
        refine ⟨p', ?_⟩
        simp only [dRun, g1, Option.bind_eq_bind, Option.bind_some, hp]
      · simp at hs1

/-- A fresh table in a program that has no declarations yet; the first heap cell is never used. -/
theorem decltableInit_inv (c : BitVec 32) (t : DeclTable) (h : decltableInit c = some t) (hc : c.toNat ≤ 2 ^ 30) (h0 : Decl) :
    ∃ n, DInv ⟨[h0], t, []⟩ ⟨[], []⟩ (List.replicate c.toNat 0) n := by
  unfold decltableInit at h
  split at h
  · rename_i hcond
    simp only [Option.some.injEq] at h
    subst h
    obtain ⟨n, -, hn⟩ := pow2_of_and c hcond.1 hcond.2
    have hn30 : n ≤ 30 := by
      by_contra hgt
      have : 2 ^ 31 ≤ 2 ^ n := Nat.pow_le_pow_right (by omega) (by omega)
      omega
    refine ⟨n, ⟨rfl, hn, hn30, ?_, ?_, ?_, ?_, ?_⟩, rfl, ?_, ?_, ?_, ?_, ?_, ?_, ?_⟩
    · rw [loadLimit_toNat, hn]
    · rw [dcells_empty, hn]; exact wf_empty _ _ (first_lt _ _ hn)
    · rw [dcells_empty, used, List.countP_replicate]; rfl
    · right; rw [dcells_empty, used, List.countP_replicate]; rfl
    · intro id hid h0
      exact absurd (List.mem_replicate.1 hid).2 h0
    · intro i id k hi; simp at hi
    · intro i j id hi; simp at hi
    · intro i hi; simp at hi
    · simp
    · intro k id hm
      dsimp only at hm
      rw [dcells_empty, List.mem_replicate] at hm
      simp at hm
    · intro k hk; exact absurd rfl hk
    · dsimp only; rw [dcells_empty, used, List.countP_replicate]; simp
  · simp at h

end C3.Tables
