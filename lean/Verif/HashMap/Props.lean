import Verif.HashMap.LemmasAll

/-!
# C54: a hash map is a dictionary

The claims are for every key type with a lawful equality and hash, every function from capacity to limit (every load factor), every
initial capacity up to the largest, every allocator, and every sequence of operations.
-/

set_option autoImplicit false

namespace C3.HashMap

variable {K V : Type} {E : Env K}

/-! ## Helpers -/

theorem Inv.bounded {h : Heap K V} {m : Map} {chains : List (List Nat)} {ps : List (K × V)} (I : Inv E h m chains ps) :
    ∃ top, ∀ a, top ≤ a → h a = none := by
  refine ⟨chains.flatten.foldr max 0 + 1, fun a ha => ?_⟩
  cases hx : h a with
  | none => rfl
  | some x =>
    have hm := I.mem_dom hx
    have : ∀ l : List Nat, a ∈ l → a ≤ l.foldr max 0 := by
      intro l
      induction l with
      | nil => intro h; cases h
      | cons b l ih =>
        intro h
        rw [List.foldr_cons]
        rcases List.mem_cons.1 h with rfl | h
        · exact Nat.le_max_left _ _
        · exact Nat.le_trans (ih h) (Nat.le_max_right _ _)
    have := this _ hm
    omega

theorem insert_length (eq : K → K → Bool) (ps : List (K × V)) (k : K) (v : V) : (Spec.insert eq ps k v).length ≤ ps.length + 1 := by
  unfold Spec.insert
  split <;> simp

theorem step_length (eq : K → K → Bool) (ps : List (K × V)) (op : Op K V) : (Spec.step eq ps op).1.length ≤ ps.length + 1 := by
  cases op with
  | set k v => exact insert_length eq ps k v
  | get_or_set k v =>
    rw [Spec.step]
    split <;> simp
  | remove k => exact Nat.le_trans (List.length_filter_le _ _) (Nat.le_succ _)
  | clear => simp [Spec.step]
  | get => simp [Spec.step]
  | has_key => simp [Spec.step]
  | len => simp [Spec.step]

theorem step_spec {h : Heap K V} {m : Map} {chains : List (List Nat)} {ps : List (K × V)} (I : Inv E h m chains ps) (L : Lawful E)
    {new : Nat} (hn0 : new ≠ 0) (hnew : h new = none) (hsmall : ps.length + 1 < 2 ^ 32) (op : Op K V) :
    ∃ h' m' chains', step E h m new op = some (h', m', (Spec.step E.equals ps op).2) ∧ Inv E h' m' chains' (Spec.step E.equals ps op).1 := by
  cases op with
  | set k v =>
    obtain ⟨h', m', c', r1, r2⟩ := set_spec I L k v hn0 hnew hsmall
    exact ⟨h', m', c', by rw [step, r1]; rfl, r2⟩
  | get k => exact ⟨h, m, chains, by rw [step, get_spec I L]; rfl, I⟩
  | has_key k => exact ⟨h, m, chains, by rw [step, has_key_spec I L]; rfl, I⟩
  | get_or_set k v =>
    obtain ⟨h', m', c', r1, r2⟩ := get_or_set_spec I L k v hn0 hnew hsmall
    refine ⟨h', m', c', ?_, ?_⟩
    · rw [step, r1, Spec.step]
      cases Spec.lookup E.equals ps k <;> rfl
    · rw [Spec.step]
      cases hl : Spec.lookup E.equals ps k with
      | none => rw [hl] at r2; exact r2
      | some w => rw [hl] at r2; exact r2
  | remove k =>
    obtain ⟨h', m', c', r1, r2⟩ := remove_spec I L k
    exact ⟨h', m', c', by rw [step, r1]; rfl, r2⟩
  | clear =>
    obtain ⟨m', c', r1, r2⟩ := clear_spec I
    exact ⟨_, m', c', by rw [step, r1]; rfl, r2⟩
  | len => exact ⟨h, m, chains, by rw [step, I.count, I.length]; rfl, I⟩

theorem run_spec (L : Lawful E) {alloc : Nat → Heap K V → Nat} (hf : Fresh alloc) : ∀ (ops : List (Op K V)) (n : Nat) {h : Heap K V} {m : Map}
    {chains : List (List Nat)} {ps : List (K × V)}, Inv E h m chains ps → ps.length + ops.length < 2 ^ 32 →
    ∃ h' m' chains', run E alloc n h m ops = some (h', m', (Spec.run E.equals ps ops).2) ∧ Inv E h' m' chains' (Spec.run E.equals ps ops).1 := by
  intro ops
  induction ops with
  | nil => intro n h m chains ps I _; exact ⟨h, m, chains, rfl, I⟩
  | cons op ops ih =>
    intro n h m chains ps I hlen
    rw [List.length_cons] at hlen
    obtain ⟨f1, f2⟩ := hf n h I.bounded
    obtain ⟨h1, m1, c1, r1, r2⟩ := step_spec I L f1 f2 (by omega) op
    have hl := step_length E.equals ps op
    obtain ⟨h2, m2, c2, s1, s2⟩ := ih (n + 1) r2 (by omega)
    exact ⟨h2, m2, c2, by rw [run, r1]; simp only [s1]; rfl, s2⟩

/-- What the theorems below are about: a map that was initialized and on which `ops` were run, by an allocator `alloc`. -/
def Reached (E : Env K) (alloc : Nat → Heap K V → Nat) (capacity : Nat) (ops : List (Op K V)) (h : Heap K V) (m : Map) : Prop :=
  ∃ m0 outs, init E capacity = some m0 ∧ run E alloc 0 noHeap m0 ops = some (h, m, outs)

theorem Reached.inv (L : Lawful E) {alloc : Nat → Heap K V → Nat} (hf : Fresh alloc) {capacity : Nat} (hc : capacity ≤ MAXIMUM_CAPACITY)
    {ops : List (Op K V)} (hops : ops.length < 2 ^ 32) {h : Heap K V} {m : Map} (hr : Reached E alloc capacity ops h m) :
    ∃ chains, Inv E h m chains (Spec.run E.equals [] ops).1 := by
  obtain ⟨m0, outs, h0, hrun⟩ := hr
  obtain ⟨m0', c0, r1, I0⟩ := init_spec (V := V) E hc
  rw [r1] at h0
  cases h0
  obtain ⟨h', m', c', s1, s2⟩ := run_spec L hf ops 0 I0 (by simpa using hops)
  rw [s1] at hrun
  cases hrun
  exact ⟨c', s2⟩

/-! ## The properties -/

/-- **C54.**  From `init`, any fewer than `2^32` operations return, without a fault, exactly what they return on a list of pairs of
key and value. -/
theorem C54_run (L : Lawful E) {alloc : Nat → Heap K V → Nat} (hf : Fresh alloc) {capacity : Nat} (hc : capacity ≤ MAXIMUM_CAPACITY)
    (ops : List (Op K V)) (hops : ops.length < 2 ^ 32) :
    ∃ m0 h m, init E capacity = some m0 ∧ run E alloc 0 noHeap m0 ops = some (h, m, (Spec.run E.equals [] ops).2) := by
  obtain ⟨m0, c0, r1, I0⟩ := init_spec (V := V) E hc
  obtain ⟨h', m', c', s1, -⟩ := run_spec L hf ops 0 I0 (by simpa using hops)
  exact ⟨m0, h', m', r1, s1⟩

/-- A map that was not initialized: all zero. -/
def zero : Map := ⟨[], 0, 0, false⟩

/-- The same from a map that was not initialized, on which the first `set` makes a table. -/
theorem C54_run_zero (L : Lawful E) {alloc : Nat → Heap K V → Nat} (hf : Fresh alloc) (ops : List (Op K V)) (hops : ops.length < 2 ^ 32) :
    ∃ h m, run E alloc 0 noHeap zero ops = some (h, m, (Spec.run E.equals [] ops).2) := by
  have main : ∀ (ops : List (Op K V)) (n : Nat), ops.length < 2 ^ 32 →
      ∃ h m, run E alloc n noHeap zero ops = some (h, m, (Spec.run E.equals [] ops).2) := by
    intro ops
    induction ops with
    | nil => intro n _; exact ⟨_, _, rfl⟩
    | cons op ops ih =>
      intro n hlen
      rw [List.length_cons] at hlen
      obtain ⟨h2, m2, hih⟩ := ih (n + 1) (by omega)
      obtain ⟨f1, f2⟩ := hf n (noHeap : Heap K V) ⟨0, fun _ _ => rfl⟩
      have stay : ∀ o, step E (noHeap : Heap K V) zero (alloc n noHeap) op = some (noHeap, zero, o) → Spec.step E.equals [] op = ([], o) →
          ∃ h m, run E alloc n (noHeap : Heap K V) zero (op :: ops) = some (h, m, (Spec.run E.equals [] (op :: ops)).2) := by
        intro o h1 h3
        exact ⟨h2, m2, by rw [run, h1, Spec.run, h3]; simp only [hih]⟩
      have grow : ∀ k v, set E (noHeap : Heap K V) zero k v (alloc n noHeap) = (init E DEFAULT_INITIAL_CAPACITY).bind fun m =>
          set E noHeap m k v (alloc n noHeap) := by
        intro k v
        obtain ⟨m0, c0, r1, I0⟩ := init_spec (V := V) E (capacity := DEFAULT_INITIAL_CAPACITY) (by decide)
        rw [r1]
        unfold set
        simp [zero, r1, I0.alive]
      have first : ∀ k v, ∃ h' m' chains', set E (noHeap : Heap K V) zero k v (alloc n noHeap) = some (h', m', false) ∧
          Inv E h' m' chains' [(k, v)] := by
        intro k v
        obtain ⟨m0, c0, r1, I0⟩ := init_spec (V := V) E (capacity := DEFAULT_INITIAL_CAPACITY) (by decide)
        obtain ⟨h', m', c', s1, s2⟩ := set_spec I0 L k v f1 f2 (by simp)
        exact ⟨h', m', c', by rw [grow, r1]; exact s1, s2⟩
      cases op with
      | get k => exact stay _ rfl rfl
      | has_key k => exact stay _ rfl rfl
      | remove k => exact stay _ rfl rfl
      | clear => exact stay _ rfl rfl
      | len => exact stay _ rfl rfl
      | set k v =>
        obtain ⟨h1, m1, c1, s1, s2⟩ := first k v
        obtain ⟨h', m', c', t1, -⟩ := run_spec L hf ops (n + 1) s2 (by rw [List.length_singleton]; omega)
        refine ⟨h', m', ?_⟩
        rw [run, step, s1]
        simp only [Option.map_some, t1]
        rfl
      | get_or_set k v =>
        obtain ⟨h1, m1, c1, s1, s2⟩ := first k v
        obtain ⟨h', m', c', t1, -⟩ := run_spec L hf ops (n + 1) s2 (by rw [List.length_singleton]; omega)
        refine ⟨h', m', ?_⟩
        rw [run, step, get_or_set, if_pos (show zero.count = 0 from rfl), s1]
        simp only [Option.bind_eq_bind, Option.bind_some, Option.map_some, t1]
        rfl
  exact main ops 0 hops

/-- `@each_entry` visits every pair once, and `keys` and `values` return the keys and values of the pairs, in the same order. -/
theorem C54_each (L : Lawful E) {alloc : Nat → Heap K V → Nat} (hf : Fresh alloc) {capacity : Nat} (hc : capacity ≤ MAXIMUM_CAPACITY)
    {ops : List (Op K V)} (hops : ops.length < 2 ^ 32) {h : Heap K V} {m : Map} (hr : Reached E alloc capacity ops h m) :
    ∃ es, each_entry h m = some es ∧ (es.map fun e => (e.key, e.value)).Perm (Spec.run E.equals [] ops).1 ∧
      keys h m = some (es.map (·.key)) ∧ values h m = some (es.map (·.value)) := by
  obtain ⟨c, I⟩ := hr.inv L hf hc hops
  obtain ⟨es, h1, -, h3, h4, h5⟩ := each_spec I
  exact ⟨es, h1, h3, h4, h5⟩

/-- A sequence of calls of `HashMapIterator.get`. -/
def iterate (h : Heap K V) (m : Map) : Iter → List Nat → Option (List (Entry K V))
  | _, [] => some []
  | it, i :: is => do
    let (it, e) ← iterGet h m it i
    let es ← iterate h m it is
    some (e :: es)

/-- An iterator, asked for any indices in any order, forward or backward, answers each with the entry at that place in the order
of `@each_entry`. -/
theorem C54_iter (L : Lawful E) {alloc : Nat → Heap K V → Nat} (hf : Fresh alloc) {capacity : Nat} (hc : capacity ≤ MAXIMUM_CAPACITY)
    {ops : List (Op K V)} (hops : ops.length < 2 ^ 32) {h : Heap K V} {m : Map} (hr : Reached E alloc capacity ops h m) {es : List (Entry K V)}
    (hes : each_entry h m = some es) (idx : List Nat) (hidx : ∀ i ∈ idx, i < m.count) :
    ∃ r, iterate h m iter idx = some r ∧ r.map some = idx.map fun i => es[i]? := by
  obtain ⟨c, I⟩ := hr.inv L hf hc hops
  obtain ⟨es', h1, h2, h3, -, -⟩ := each_spec I
  rw [h1] at hes
  cases hes
  have hlen : es.length = m.count := by
    have := h3.length_eq
    rw [List.length_map] at this
    rw [this, I.count, I.length]
  have main : ∀ (idx : List Nat) (it : Iter), Rest h c it → (∀ i ∈ idx, i < m.count) →
      ∃ r, iterate h m it idx = some r ∧ r.map some = idx.map fun i => es[i]? := by
    intro idx
    induction idx with
    | nil => intro it _ _; exact ⟨[], rfl, rfl⟩
    | cons i idx ih =>
      intro it hrest hi
      have hlt : i < es.length := by rw [hlen]; exact hi i (by simp)
      have hget : es[i]? = some es[i] := List.getElem?_eq_getElem hlt
      obtain ⟨it', r1, r2⟩ := iterGet_spec I.tab hrest (by rw [← h2]; exact hget)
      obtain ⟨r, s1, s2⟩ := ih it' r2 fun j hj => hi j (by simp [hj])
      refine ⟨es[i] :: r, ?_, ?_⟩
      · rw [iterate]
        simp only [Option.bind_eq_bind, r1, Option.bind_some, s1]
      · rw [List.map_cons, List.map_cons, s2, hget]
  exact main idx iter (.inl rfl) hidx

/-- Every entry in memory is one of the map, and holds a pair of the dictionary: nothing that was removed or replaced is kept. -/
theorem C54_no_leak (L : Lawful E) {alloc : Nat → Heap K V → Nat} (hf : Fresh alloc) {capacity : Nat} (hc : capacity ≤ MAXIMUM_CAPACITY)
    {ops : List (Op K V)} (hops : ops.length < 2 ^ 32) {h : Heap K V} {m : Map} (hr : Reached E alloc capacity ops h m) :
    ∃ live : List Nat, live.Nodup ∧ (∀ a, a ∈ live ↔ (h a).isSome) ∧
      (live.filterMap fun a => (h a).map fun e => (e.key, e.value)).Perm (Spec.run E.equals [] ops).1 ∧ live.length = m.count := by
  obtain ⟨c, I⟩ := hr.inv L hf hc hops
  exact ⟨c.flatten, I.tab.nodup, fun a => (I.dom a).symm, I.holds, I.count.symm⟩

/-- `free` gives back every entry. -/
theorem C54_free (L : Lawful E) {alloc : Nat → Heap K V → Nat} (hf : Fresh alloc) {capacity : Nat} (hc : capacity ≤ MAXIMUM_CAPACITY)
    {ops : List (Op K V)} (hops : ops.length < 2 ^ 32) {h : Heap K V} {m : Map} (hr : Reached E alloc capacity ops h m) :
    ∃ m', free h m = some (noHeap, m') ∧ m'.table = [] ∧ m'.count = 0 := by
  obtain ⟨c, I⟩ := hr.inv L hf hc hops
  obtain ⟨m', c', r1, r2⟩ := clear_spec I
  refine ⟨{ m' with table := [] }, ?_, rfl, ?_⟩
  · rw [free, if_pos I.alive, r1]
    rfl
  · show m'.count = 0
    rw [r2.count, r2.length]
    rfl

/-- **Not reusable after `free`.**  `set` makes a table for a map that is not initialized; a map that was freed still has its
allocator, so it counts as initialized (and `init` refuses it), and `set` on it indexes a table of no buckets. -/
theorem C54_set_after_free (L : Lawful E) {alloc : Nat → Heap K V → Nat} (hf : Fresh alloc) {capacity : Nat} (hc : capacity ≤ MAXIMUM_CAPACITY)
    {ops : List (Op K V)} (hops : ops.length < 2 ^ 32) {h : Heap K V} {m : Map} (hr : Reached E alloc capacity ops h m) {h' : Heap K V} {m' : Map}
    (hfree : free h m = some (h', m')) (k : K) (v : V) (new : Nat) : set E h' m' k v new = none := by
  obtain ⟨c, I⟩ := hr.inv L hf hc hops
  obtain ⟨m1, c', r1, r2⟩ := clear_spec I
  rw [free, if_pos I.alive, r1] at hfree
  cases hfree
  rw [set]
  simp only [r2.alive]
  rfl

/-- `init_from_map` makes a map, in memory of its own and with any limits, with the same pairs. -/
theorem C54_copy (L : Lawful E) {alloc : Nat → Heap K V → Nat} (hf : Fresh alloc) {capacity : Nat} (hc : capacity ≤ MAXIMUM_CAPACITY)
    {ops : List (Op K V)} (hops : ops.length < 2 ^ 32) {h : Heap K V} {m : Map} (hr : Reached E alloc capacity ops h m) (limit : Nat → Nat)
    {news : List Nat} (hlen : m.count ≤ news.length) (hnd : news.Nodup) (h0 : 0 ∉ news) :
    ∃ h' m' es, init_from_map { E with limit := limit } h m news = some (h', m') ∧ each_entry h' m' = some es ∧
      (es.map fun e => (e.key, e.value)).Perm (Spec.run E.equals [] ops).1 ∧ m'.count = m.count ∧
      ∀ k, get { E with limit := limit } h' m' k = get E h m k := by
  obtain ⟨c, I⟩ := hr.inv L hf hc hops
  obtain ⟨h', m', c', qs, r1, I', r3⟩ := init_from_map_spec I L { E with limit := limit } ⟨rfl, rfl⟩ hlen hnd h0
  obtain ⟨es, s1, -, s3, -, -⟩ := each_spec I'
  have L' : Lawful { E with limit := limit } := ⟨L.refl, L.symm, L.trans, L.hash⟩
  refine ⟨h', m', es, r1, s1, s3.trans r3, ?_, ?_⟩
  · rw [I'.count, I'.length, I.count, I.length, r3.length_eq]
  · intro k
    rw [get_spec I' L', get_spec I L]
    congr 1
    have hp := I.pairwise L
    have hq := I'.pairwise L'
    have key : ∀ v, Spec.lookup E.equals qs k = some v ↔ Spec.lookup E.equals (Spec.run E.equals [] ops).1 k = some v := by
      intro v
      rw [lookup_iff L hp]
      have := lookup_iff L' hq k v
      rw [show ({ E with limit := limit } : Env K).equals = E.equals from rfl] at this
      rw [this]
      constructor
      · rintro ⟨k', a, b⟩; exact ⟨k', r3.mem_iff.1 a, b⟩
      · rintro ⟨k', a, b⟩; exact ⟨k', r3.mem_iff.2 a, b⟩
    exact Option.ext key

/-- The laws of the list of pairs that serves as the reference: a key that was set has that value and no other key changes; a key that
was removed has none and no other key changes. -/
theorem C54_dictionary_laws (eq : K → K → Bool) (hsymm : ∀ a b, eq a b = true → eq b a = true)
    (htrans : ∀ a b c, eq a b = true → eq b c = true → eq a c = true) (l : List (K × V)) (k : K) (v : V) (k' : K) :
    Spec.lookup eq (Spec.insert eq l k v) k' = (if eq k k' then some v else Spec.lookup eq l k') ∧
    Spec.lookup eq (l.filter fun p => !eq k p.1) k' = (if eq k k' then none else Spec.lookup eq l k') := by
  have hcong : ∀ a b c, eq a b = true → eq a c = eq b c := by
    intro a b c hab
    cases h1 : eq a c with
    | true => exact (htrans b a c (hsymm _ _ hab) h1).symm
    | false =>
      cases h2 : eq b c with
      | false => rfl
      | true => rw [htrans a b c hab h2] at h1; cases h1
  have hcong' : ∀ a b, eq a b = eq b a := by
    intro a b
    cases h1 : eq a b with
    | true => exact (hsymm _ _ h1).symm
    | false =>
      cases h2 : eq b a with
      | false => rfl
      | true => rw [hsymm _ _ h2] at h1; cases h1
  constructor
  · unfold Spec.insert
    by_cases hl : (Spec.lookup eq l k).isSome = true
    · rw [if_pos hl]
      unfold Spec.lookup at hl ⊢
      induction l with
      | nil => simp at hl
      | cons p l ih =>
        rw [List.map_cons, List.find?_cons]
        by_cases hp : eq k p.1 = true
        · rw [if_pos hp]
          simp only
          by_cases hk : eq k k' = true
          · rw [if_pos hk, ← hcong k k' p.1 hk, hp]
            rfl
          · rw [if_neg hk]
            have hk'p : eq k' p.1 = false := by
              cases hc : eq k' p.1 with
              | false => rfl
              | true => exact absurd (htrans _ _ _ hp (hsymm _ _ hc)) hk
            rw [hk'p, List.find?_cons, hk'p]
            simp only
            have : ∀ l : List (K × V), Option.map (·.2) (List.find? (fun q => eq k' q.1) (l.map fun q => if eq k q.1 = true then (q.1, v) else q)) =
                Option.map (·.2) (List.find? (fun q => eq k' q.1) l) := by
              intro l
              induction l with
              | nil => rfl
              | cons q l ih2 =>
                rw [List.map_cons, List.find?_cons, List.find?_cons]
                by_cases hq : eq k q.1 = true
                · rw [if_pos hq]
                  have : eq k' q.1 = false := by
                    cases hc : eq k' q.1 with
                    | false => rfl
                    | true => exact absurd (htrans _ _ _ hq (hsymm _ _ hc)) hk
                  simp only [this, ih2]
                · rw [if_neg hq]
                  cases eq k' q.1 with
                  | true => rfl
                  | false => exact ih2
            exact this l
        · rw [if_neg hp]
          have hp : eq k p.1 = false := by simpa using hp
          rw [List.find?_cons, hp] at hl
          have ih := ih hl
          by_cases hk : eq k k' = true
          · rw [if_pos hk] at ih ⊢
            rw [← hcong k k' p.1 hk, hp]
            exact ih
          · rw [if_neg hk] at ih ⊢
            rw [List.find?_cons]
            cases eq k' p.1 with
            | true => rfl
            | false => exact ih
    · rw [if_neg hl]
      unfold Spec.lookup
      rw [List.find?_cons]
      simp only
      rw [hcong' k' k]
      cases hk : eq k k' with
      | true => rfl
      | false => rfl
  · unfold Spec.lookup
    induction l with
    | nil => simp
    | cons p l ih =>
      rw [List.filter_cons]
      by_cases hp : eq k p.1 = true
      · rw [if_neg (by simp [hp]), ih]
        by_cases hk : eq k k' = true
        · rw [if_pos hk, if_pos hk]
        · rw [if_neg hk, if_neg hk, List.find?_cons]
          have : eq k' p.1 = false := by
            cases hc : eq k' p.1 with
            | false => rfl
            | true => exact absurd (htrans _ _ _ hp (hsymm _ _ hc)) hk
          rw [this]
      · rw [if_pos (by simp [hp]), List.find?_cons]
        have hp : eq k p.1 = false := by simpa using hp
        by_cases hk : eq k k' = true
        · rw [if_pos hk] at ih ⊢
          rw [← hcong k k' p.1 hk, hp]
          exact ih
        · rw [if_neg hk] at ih ⊢
          rw [List.find?_cons]
          cases eq k' p.1 with
          | true => rfl
          | false => exact ih

/-! ## A concrete map: keys are numbers, all with the same hash, a table of one bucket that grows at every entry -/

/-- Keys equal modulo 10, all of the same hash; the table grows at once. -/
def exEnv : Env Nat := ⟨fun _ => 7#32, fun a b => a % 10 == b % 10, fun _ => 0⟩

theorem exLawful : Lawful exEnv := by
  constructor
  · intro a; simp [exEnv]
  · intro a b h; simp [exEnv] at h ⊢; exact h.symm
  · intro a b c h1 h2; simp [exEnv] at h1 h2 ⊢; exact h1.trans h2
  · intro a b _; rfl

/-- An allocator: the next free address, found by search. -/
noncomputable def exAlloc : Nat → Heap Nat Nat → Nat := by
  classical
  exact fun _ h => if hx : ∃ a, a ≠ 0 ∧ h a = none then Classical.choose hx else 0

theorem exFresh : Fresh exAlloc := by
  rintro n h ⟨top, ht⟩
  have hx : ∃ a, a ≠ 0 ∧ h a = none := ⟨top + 1, by omega, ht _ (by omega)⟩
  unfold exAlloc
  rw [dif_pos hx]
  exact Classical.choose_spec hx

def exOps : List (Op Nat Nat) := [.set 1 100, .set 12 200, .get 11, .set 21 300, .get 1, .remove 2, .get 2, .get_or_set 5 50, .len]

example : ∃ m0 h m, init exEnv 1 = some m0 ∧ run exEnv exAlloc 0 noHeap m0 exOps =
    some (h, m, [.bool false, .bool false, .value (some 100), .bool true, .value (some 300), .bool true, .value none, .value (some 50), .num 2]) :=
  C54_run exLawful exFresh (by decide) exOps (by decide)

example : ∃ h m, run exEnv exAlloc 0 noHeap zero exOps =
    some (h, m, [.bool false, .bool false, .value (some 100), .bool true, .value (some 300), .bool true, .value none, .value (some 50), .num 2]) :=
  C54_run_zero exLawful exFresh exOps (by decide)

example : (Spec.run exEnv.equals [] exOps).1 = [(5, 50), (1, 300)] := rfl

/-- The hypotheses of the theorems on reached states can be met. -/
theorem exReached : ∃ h m, Reached exEnv exAlloc 1 exOps h m := by
  obtain ⟨m0, h, m, a, b⟩ := C54_run exLawful exFresh (capacity := 1) (by decide) exOps (by decide)
  exact ⟨h, m, m0, _, a, b⟩

example : ∃ h m es, Reached exEnv exAlloc 1 exOps h m ∧ each_entry h m = some es ∧
    (es.map fun e => (e.key, e.value)).Perm [(5, 50), (1, 300)] := by
  obtain ⟨h, m, hr⟩ := exReached
  obtain ⟨es, a, b, -, -⟩ := C54_each exLawful exFresh (by decide) (by decide) hr
  exact ⟨h, m, es, hr, a, b⟩

example : ∃ h m es r, Reached exEnv exAlloc 1 exOps h m ∧ each_entry h m = some es ∧
    iterate h m iter [1, 0, 0, 1] = some r ∧ r.map some = [es[1]?, es[0]?, es[0]?, es[1]?] := by
  obtain ⟨h, m, hr⟩ := exReached
  obtain ⟨es, a, b, -, -⟩ := C54_each exLawful exFresh (by decide) (by decide) hr
  obtain ⟨live, -, -, l1, l2⟩ := C54_no_leak exLawful exFresh (by decide) (by decide) hr
  have hcount : m.count = 2 := by
    obtain ⟨c, I⟩ := hr.inv exLawful exFresh (by decide) (by decide)
    rw [I.count, I.length]
    rfl
  obtain ⟨r, r1, r2⟩ := C54_iter exLawful exFresh (by decide) (by decide) hr a [1, 0, 0, 1] (by rw [hcount]; decide)
  exact ⟨h, m, es, r, hr, a, r1, r2⟩

example : ∃ h m m', Reached exEnv exAlloc 1 exOps h m ∧ free h m = some (noHeap, m') ∧ set exEnv noHeap m' 3 4 99 = none := by
  obtain ⟨h, m, hr⟩ := exReached
  obtain ⟨m', a, -, -⟩ := C54_free exLawful exFresh (by decide) (by decide) hr
  exact ⟨h, m, m', hr, a, C54_set_after_free exLawful exFresh (by decide) (by decide) hr a 3 4 99⟩

example : ∃ h m h' m' es, Reached exEnv exAlloc 1 exOps h m ∧ init_from_map exEnv h m [30, 20] = some (h', m') ∧ each_entry h' m' = some es ∧
    (es.map fun e => (e.key, e.value)).Perm [(5, 50), (1, 300)] := by
  obtain ⟨h, m, hr⟩ := exReached
  have hcount : m.count = 2 := by
    obtain ⟨c, I⟩ := hr.inv exLawful exFresh (by decide) (by decide)
    rw [I.count, I.length]
    rfl
  obtain ⟨h', m', es, a, b, c, -, -⟩ := C54_copy exLawful exFresh (by decide) (by decide) hr exEnv.limit (news := [30, 20]) (by rw [hcount]; decide)
    (by decide) (by decide)
  exact ⟨h, m, h', m', es, hr, a, b, c⟩

example : Spec.lookup exEnv.equals (Spec.insert exEnv.equals [(1, 5), (2, 6)] 12 7) 22 = some 7 := rfl

end C3.HashMap
