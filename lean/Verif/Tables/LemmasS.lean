import Verif.Tables.Lemmas

/-! # `STable` refines a map -/

set_option autoImplicit false

namespace C3.Tables

/-- What an entry holds. -/
def view (e : SEntry) : Cell Ptr := if e.key = 0#64 then none else some (e.key, e.value)

def cells (es : List SEntry) : List (Cell Ptr) := es.map view

theorem cells_get (es : List SEntry) (i : Nat) : (cells es)[i]? = (es[i]?).map view := by
  rw [cells, List.getElem?_map]

theorem cells_empty (c : BitVec 32) : cells (emptyEntries c) = List.replicate c.toNat none := by
  rw [cells, emptyEntries, List.map_replicate]; rfl

theorem cells_set (es : List SEntry) (i : Nat) (k v : Ptr) (hk : k ≠ 0#64) :
    cells (es.set i ⟨k, v⟩) = (cells es).set i (some (k, v)) := by
  rw [cells, List.map_set, view, if_neg hk]; rfl

theorem view_none (e : SEntry) (h : view e = none) : e.key = 0#64 := by
  unfold view at h
  split at h
  · assumption
  · simp at h

theorem view_some (e : SEntry) (k v : Ptr) (h : view e = some (k, v)) : e = ⟨k, v⟩ ∧ k ≠ 0#64 := by
  unfold view at h
  split at h
  · simp at h
  · simp only [Option.some.injEq, Prod.mk.injEq] at h
    refine ⟨by cases e; simp_all, ?_⟩
    rw [← h.1]; assumption

theorem probe_at (es : List SEntry) (c : BitVec 32) (n : Nat) (hc : c.toNat = 2 ^ n) (hn : n ≤ 31) (k : Ptr) (d : Nat) :
    ∀ i : BitVec 32, (∀ e, e < d → ∃ x, es[(i.toNat + e) % 2 ^ n]? = some x ∧ ¬ (x.key = k ∨ x.key = 0#64)) →
      (∃ x, es[(i.toNat + d) % 2 ^ n]? = some x ∧ (x.key = k ∨ x.key = 0#64)) → i.toNat < 2 ^ n →
      sentryProbe es (c - 1#32) k i = some ((i.toNat + d) % 2 ^ n) := by
  induction d with
  | zero =>
    intro i _ h2 h3
    obtain ⟨x, g1, g2⟩ := h2
    rw [Nat.add_zero, Nat.mod_eq_of_lt h3] at g1 ⊢
    rw [sentryProbe, g1]
    dsimp only
    rw [if_pos g2]
  | succ d ih =>
    intro i h1 h2 h3
    obtain ⟨x, g1, g2⟩ := h1 0 (by omega)
    rw [Nat.add_zero, Nat.mod_eq_of_lt h3] at g1
    rw [sentryProbe, g1]
    dsimp only
    rw [if_neg g2]
    have hnext := next_toNat c i n hc hn
    have hshift : ∀ e, ((i.toNat + 1) % 2 ^ n + e) % 2 ^ n = (i.toNat + (e + 1)) % 2 ^ n := by
      intro e; rw [Nat.mod_add_mod]; congr 1; omega
    have := ih ((i + 1#32) &&& (c - 1#32)) (by
      intro e he
      rw [hnext, hshift]
      exact h1 (e + 1) (by omega)) (by rw [hnext, hshift]; exact h2)
      (by rw [hnext]; exact Nat.mod_lt _ (Nat.two_pow_pos n))
    rw [this, hnext, hshift]

theorem sentryFind_spec (es : List SEntry) (c : BitVec 32) (n : Nat) (hc : c.toNat = 2 ^ n) (hn : n ≤ 31) (k : Ptr)
    (hw : WF (2 ^ n) (homeOf c) (cells es)) (hf : none ∈ cells es) :
    ∃ d, Stops (2 ^ n) (homeOf c) (cells es) k d ∧ sentryFind es c k = some ((homeOf c k + d) % 2 ^ n) := by
  obtain ⟨d, hd⟩ := exists_stop _ _ _ k hw hf
  refine ⟨d, hd, ?_⟩
  rw [sentryFind]
  apply probe_at es c n hc hn k d
  · intro e he
    obtain ⟨k', v, g1, g2⟩ := hd.before e he
    rw [cells_get, Option.map_eq_some_iff] at g1
    obtain ⟨x, g3, g4⟩ := g1
    obtain ⟨rfl, g5⟩ := view_some _ _ _ g4
    refine ⟨_, g3, ?_⟩
    dsimp only
    rintro (h | h)
    · exact g2 h
    · exact g5 h
  · rcases hd.stop with ⟨g1, -⟩ | ⟨v, g1⟩
    · rw [cells_get, Option.map_eq_some_iff] at g1
      obtain ⟨x, g3, g4⟩ := g1
      exact ⟨x, g3, Or.inr (view_none _ g4)⟩
    · rw [cells_get, Option.map_eq_some_iff] at g1
      obtain ⟨x, g3, g4⟩ := g1
      obtain ⟨rfl, g5⟩ := view_some _ _ _ g4
      exact ⟨_, g3, Or.inl rfl⟩
  · exact first_lt c n hc k

/-! ## The invariant -/

/-- Free entries are all zero. -/
def Clean (es : List SEntry) : Prop := ∀ e ∈ es, e.key = 0#64 → e.value = 0#64

theorem Clean.set {es : List SEntry} (h : Clean es) (i : Nat) (x : SEntry) (hx : x.key ≠ 0#64) : Clean (es.set i x) := by
  intro e he hk
  rcases List.mem_or_eq_of_mem_set he with he | rfl
  · exact h e he hk
  · exact absurd hk hx

theorem clean_empty (c : BitVec 32) : Clean (emptyEntries c) := by
  intro e he _
  rw [(List.mem_replicate.1 he).2]
  rfl

structure SInv (t : STable) (m : Map) (es : List SEntry) (n : Nat) : Prop where
  entries : t.entries = some es
  cap : t.capacity.toNat = 2 ^ n
  capLe : n ≤ 30
  load : t.maxLoad.toNat = 2 ^ n / 2
  wf : WF (2 ^ n) (homeOf t.capacity) (cells es)
  count : t.count.toNat = used (cells es)
  below : used (cells es) < 2 ^ n / 2 ∨ used (cells es) = 0
  content : ∀ k v, some (k, v) ∈ cells es ↔ k ≠ 0#64 ∧ v ≠ 0#64 ∧ m k = v
  clean : Clean es

theorem SInv.free {t : STable} {m : Map} {es : List SEntry} {n : Nat} (h : SInv t m es n) : none ∈ cells es := by
  apply free_of_used_lt
  rw [h.wf.len]
  have := Nat.two_pow_pos n
  rcases h.below with g | g <;> omega

theorem loadLimit_toNat (c : BitVec 32) : (loadLimit c).toNat = c.toNat / 2 := by
  rw [loadLimit, BitVec.toNat_ushiftRight, Nat.shiftRight_eq_div_pow]

theorem SInv.get {t : STable} {m : Map} {es : List SEntry} {n : Nat} (h : SInv t m es n) (k : Ptr) (hk : k ≠ 0#64)
    : stableGet t k = some (m k) := by
  obtain ⟨d, hd, hf⟩ := sentryFind_spec es t.capacity n h.cap (by have := h.capLe; omega) k h.wf h.free
  rw [stableGet, h.entries]
  dsimp only
  rw [hf, Option.bind_eq_bind, Option.bind_some]
  rcases hd.stop with ⟨g1, g2⟩ | ⟨v, g1⟩
  · rw [cells_get, Option.map_eq_some_iff] at g1
    obtain ⟨x, g3, g4⟩ := g1
    rw [g3, Option.bind_eq_bind, Option.bind_some, if_pos (view_none _ g4)]
    congr 1
    by_contra hne
    exact g2 (m k) ((h.content k (m k)).2 ⟨hk, Ne.symm hne, rfl⟩)
  · have hm := (h.content k v).1 (List.mem_of_getElem? g1)
    rw [cells_get, Option.map_eq_some_iff] at g1
    obtain ⟨x, g3, g4⟩ := g1
    obtain ⟨rfl, g5⟩ := view_some _ _ _ g4
    rw [g3, Option.bind_eq_bind, Option.bind_some, if_neg g5, hm.2.2]

/-! ## Resizing -/

theorem resizeLoop_spec (c : BitVec 32) (n : Nat) (hc : c.toNat = 2 ^ n) (hn : n ≤ 30) (cap0 : Nat) (home0 : Ptr → Nat)
    (rest : List SEntry) : ∀ (pre new : List SEntry) (count : BitVec 32),
    WF cap0 home0 (cells (pre ++ rest)) → WF (2 ^ n) (homeOf c) (cells new) → used (cells (pre ++ rest)) < 2 ^ n →
    count.toNat = used (cells new) → used (cells new) = used (cells pre) →
    (∀ x, some x ∈ cells new ↔ some x ∈ cells pre) → Clean new →
    ∃ count' new', resizeLoop c rest count new = some (count', new') ∧ WF (2 ^ n) (homeOf c) (cells new') ∧
      count'.toNat = used (cells new') ∧ used (cells new') = used (cells (pre ++ rest)) ∧
      (∀ x, some x ∈ cells new' ↔ some x ∈ cells (pre ++ rest)) ∧ Clean new' := by
  induction rest with
  | nil =>
    intro pre new count h1 h2 h3 h4 h5 h6 h7
    rw [List.append_nil] at *
    exact ⟨count, new, rfl, h2, h4, h5, h6, h7⟩
  | cons e rest ih =>
    intro pre new count h1 h2 h3 h4 h5 h6 h7
    have happ : pre ++ e :: rest = (pre ++ [e]) ++ rest := by simp
    rw [resizeLoop]
    by_cases hk : e.key = 0#64
    · rw [if_pos hk]
      have hv : cells (pre ++ [e]) = cells pre ++ [none] := by simp [cells, view, hk]
      have hu : used (cells (pre ++ [e])) = used (cells pre) := by rw [hv, used, List.countP_append]; rfl
      rw [happ] at h1 h3 ⊢
      refine ih (pre ++ [e]) new count h1 h2 h3 h4 (by rw [h5, hu]) ?_ h7
      intro x
      rw [h6, hv]
      simp
    · rw [if_neg hk]
      have hv : cells (pre ++ [e]) = cells pre ++ [some (e.key, e.value)] := by simp [cells, view, hk]
      have hu : used (cells (pre ++ [e])) = used (cells pre) + 1 := by rw [hv, used, List.countP_append]; rfl
      have hule : used (cells (pre ++ [e])) ≤ used (cells (pre ++ e :: rest)) := by
        have : cells (pre ++ e :: rest) = cells (pre ++ [e]) ++ cells rest := by rw [happ, cells, List.map_append]; rfl
        rw [this, used, used, List.countP_append]
        exact Nat.le_add_right _ _
      have hfree : none ∈ cells new := by
        apply free_of_used_lt
        rw [h2.len]; omega
      obtain ⟨d, hd, hf⟩ := sentryFind_spec new c n hc (by omega) e.key h2 hfree
      rw [hf, Option.bind_eq_bind, Option.bind_some]
      have habs : ∀ w, some (e.key, w) ∉ cells new := by
        intro w hw
        rw [h6] at hw
        obtain ⟨i, hi, hin⟩ := List.getElem_of_mem hw
        have hi2 : i < pre.length := by simpa [cells] using hi
        have g1 : (cells (pre ++ e :: rest))[i]? = some (some (e.key, w)) := by
          rw [cells, List.map_append, List.getElem?_append_left (by simpa using hi2)]
          rw [← cells, List.getElem?_eq_getElem hi, hin]
        have g2 : (cells (pre ++ e :: rest))[pre.length]? = some (some (e.key, e.value)) := by
          simp [cells, view, hk]
        have := h1.uniq _ _ _ _ _ g1 g2
        omega
      have hfr : (cells new)[(homeOf c e.key + d) % 2 ^ n]? = some none := by
        rcases hd.stop with ⟨g, -⟩ | ⟨v, g⟩
        · exact g
        · exact absurd (List.mem_of_getElem? g) (habs v)
      have hset : cells (new.set ((homeOf c e.key + d) % 2 ^ n) e) =
          (cells new).set ((homeOf c e.key + d) % 2 ^ n) (some (e.key, e.value)) := cells_set _ _ e.key e.value hk
      have hpow : 2 ^ n ≤ 2 ^ 30 := Nat.pow_le_pow_right (by omega) hn
      have hcnt : (count + 1#32).toNat = used (cells (new.set ((homeOf c e.key + d) % 2 ^ n) e)) := by
        rw [hset, used_fill _ _ _ hfr, BitVec.toNat_add, show (1#32).toNat = 1 from rfl, h4]
        exact Nat.mod_eq_of_lt (by omega)
      rw [happ] at h1 h3 ⊢
      refine ih (pre ++ [e]) _ _ h1 ?_ h3 hcnt ?_ ?_ (h7.set _ _ hk)
      · rw [hset]; exact h2.insert hd hfr habs e.value
      · rw [hset, used_fill _ _ _ hfr, hu, h5]
      · intro x
        rw [hset, mem_fill _ _ _ hfr, h6, hv]
        simp [or_comm]

theorem stableResize_spec (t : STable) (m : Map) (es : List SEntry) (n : Nat) (he : t.entries = some es)
    (hcap : t.capacity.toNat = 2 ^ n) (hn : n ≤ 28) (hw : WF (2 ^ n) (homeOf t.capacity) (cells es))
    (hcontent : ∀ k v, some (k, v) ∈ cells es ↔ k ≠ 0#64 ∧ v ≠ 0#64 ∧ m k = v) (hu : used (cells es) ≤ 2 ^ n) :
    ∃ t' es', stableResize t = some t' ∧ SInv t' m es' (n + 2) ∧ used (cells es') = used (cells es) := by
  have hpow : 2 ^ n ≤ 2 ^ 28 := Nat.pow_le_pow_right (by omega) hn
  have hpos := Nat.two_pow_pos n
  have hne : t.capacity ≠ 0#32 := by
    intro h; rw [h] at hcap; simp at hcap; omega
  have hnew : (t.capacity <<< 2).toNat = 2 ^ (n + 2) := by
    rw [BitVec.toNat_shiftLeft, hcap, Nat.shiftLeft_eq, Nat.pow_add]
    exact Nat.mod_eq_of_lt (by omega)
  have h4 : 2 ^ (n + 2) = 4 * 2 ^ n := by rw [Nat.pow_add]; omega
  have hwe : WF (2 ^ (n + 2)) (homeOf (t.capacity <<< 2)) (cells (emptyEntries (t.capacity <<< 2))) := by
    rw [cells_empty, hnew]
    exact wf_empty _ _ (first_lt _ _ hnew)
  have hue : used (cells (emptyEntries (t.capacity <<< 2))) = 0 := by
    rw [cells_empty, used, List.countP_replicate]; rfl
  obtain ⟨c', new', g1, g2, g3, g4, g5, g6⟩ := resizeLoop_spec (t.capacity <<< 2) (n + 2) hnew (by omega) _ _ es [] _ 0#32 hw hwe
    (by show used (cells es) < _; omega) (by rw [hue]; rfl) (by rw [hue]; rfl) (by
      intro x
      rw [cells_empty]
      simp [cells]) (clean_empty _)
  refine ⟨⟨c', t.capacity <<< 2, loadLimit (t.capacity <<< 2), some new'⟩, new', ?_, ?_, g4⟩
  · rw [stableResize, if_pos (by rw [BitVec.lt_def, hcap]; exact Nat.lt_of_le_of_lt hpow (by decide)), if_pos hne, he]
    dsimp only
    rw [Option.getD_some, show (0 : BitVec 32) = 0#32 from rfl, g1]
    rfl
  · constructor
    · rfl
    · exact hnew
    · omega
    · rw [loadLimit_toNat, hnew]
    · exact g2
    · exact g3
    · left
      rw [g4, List.nil_append]
      omega
    · intro k v
      rw [g5, List.nil_append]
      exact hcontent k v
    · exact g6

/-! ## Setting -/

theorem SInv.set {t : STable} {m : Map} {es : List SEntry} {n : Nat} (h : SInv t m es n) (k v : Ptr) (hk : k ≠ 0#64)
    (hv : v ≠ 0#64) (hbound : used (cells es) + 1 < 2 ^ 28) :
    ∃ t' es' n', stableSet t k v = some (t', m k) ∧ SInv t' (fun x => if x = k then v else m x) es' n' ∧
      used (cells es') ≤ used (cells es) + 1 := by
  obtain ⟨d, hd, hf⟩ := sentryFind_spec es t.capacity n h.cap (by have := h.capLe; omega) k h.wf h.free
  have hpow : 2 ^ n ≤ 2 ^ 30 := Nat.pow_le_pow_right (by omega) h.capLe
  have hpos := Nat.two_pow_pos n
  rw [stableSet, if_neg hv, h.entries, Option.bind_eq_bind, Option.bind_some, hf, Option.bind_eq_bind, Option.bind_some]
  rcases hd.stop with ⟨g1, g2⟩ | ⟨w, g1⟩
  · -- a new key
    have hmk : m k = 0#64 := by
      by_contra hne
      exact g2 (m k) ((h.content k (m k)).2 ⟨hk, hne, rfl⟩)
    have g1' := g1
    rw [cells_get, Option.map_eq_some_iff] at g1'
    obtain ⟨x, g3, g4⟩ := g1'
    have hx0 : x.value = 0#64 := h.clean x (List.mem_of_getElem? g3) (view_none _ g4)
    rw [g3, Option.bind_eq_bind, Option.bind_some, if_neg (by rw [hx0]; exact fun e => hv e.symm), if_pos hx0, hx0, ← hmk]
    have hset := cells_set es ((homeOf t.capacity k + d) % 2 ^ n) k v hk
    have hw' : WF (2 ^ n) (homeOf t.capacity) (cells (es.set ((homeOf t.capacity k + d) % 2 ^ n) ⟨k, v⟩)) := by
      rw [hset]; exact h.wf.insert hd g1 g2 v
    have hu' : used (cells (es.set ((homeOf t.capacity k + d) % 2 ^ n) ⟨k, v⟩)) = used (cells es) + 1 := by
      rw [hset, used_fill _ _ _ g1]
    have hcl : Clean (es.set ((homeOf t.capacity k + d) % 2 ^ n) ⟨k, v⟩) := h.clean.set _ _ hk
    have hct : ∀ k' v', some (k', v') ∈ cells (es.set ((homeOf t.capacity k + d) % 2 ^ n) ⟨k, v⟩) ↔
        k' ≠ 0#64 ∧ v' ≠ 0#64 ∧ (if k' = k then v else m k') = v' := by
      intro k' v'
      rw [hset, mem_fill _ _ _ g1, h.content]
      by_cases hkk : k' = k
      · subst hkk
        rw [if_pos rfl]
        constructor
        · rintro (he | ⟨-, hb, hc⟩)
          · simp only [Prod.mk.injEq] at he
            rw [he.2]; exact ⟨hk, hv, rfl⟩
          · rw [hmk] at hc; exact absurd hc.symm hb
        · rintro ⟨-, -, he⟩
          rw [he]; exact Or.inl rfl
      · rw [if_neg hkk]
        constructor
        · rintro (he | he)
          · simp only [Prod.mk.injEq] at he
            exact absurd he.1 hkk
          · exact he
        · intro he; exact Or.inr he
    have hcnt : (t.count + 1#32).toNat = used (cells es) + 1 := by
      rw [BitVec.toNat_add, show (1#32).toNat = 1 from rfl, h.count]
      exact Nat.mod_eq_of_lt (by omega)
    dsimp only
    by_cases hge : t.count + 1#32 ≥ t.maxLoad
    · rw [if_pos hge]
      have hge' : 2 ^ n / 2 ≤ used (cells es) + 1 := by
        have := BitVec.le_def.1 hge
        rw [h.load, hcnt] at this
        exact this
      have hn28 : n ≤ 28 := by
        by_contra hgt
        have : 2 ^ 29 ≤ 2 ^ n := Nat.pow_le_pow_right (by omega) (by omega)
        omega
      obtain ⟨t', es', r1, r2, r3⟩ := stableResize_spec
        ⟨t.count + 1#32, t.capacity, t.maxLoad, some (es.set ((homeOf t.capacity k + d) % 2 ^ n) ⟨k, v⟩)⟩
        (fun x => if x = k then v else m x) _ n rfl h.cap hn28 hw' hct (by
          rw [hu']
          rcases h.below with g | g <;> omega)
      rw [r1]
      exact ⟨t', es', n + 2, rfl, r2, by rw [r3, hu']⟩
    · rw [if_neg hge]
      refine ⟨_, _, n, rfl, ⟨rfl, h.cap, h.capLe, h.load, hw', by rw [hu', ← hcnt], ?_, hct, hcl⟩, by rw [hu']⟩
      left
      have : ¬ t.maxLoad.toNat ≤ (t.count + 1#32).toNat := fun hh => hge (BitVec.le_def.2 hh)
      rw [h.load, hcnt] at this
      rw [hu']; omega
  · have hm := (h.content k w).1 (List.mem_of_getElem? g1)
    have g1' := g1
    rw [cells_get, Option.map_eq_some_iff] at g1'
    obtain ⟨x, g3, g4⟩ := g1'
    obtain ⟨rfl, g5⟩ := view_some _ _ _ g4
    rw [g3, Option.bind_eq_bind, Option.bind_some, hm.2.2]
    dsimp only
    by_cases hwv : w = v
    · rw [if_pos hwv]
      refine ⟨t, es, n, rfl, ?_, by omega⟩
      have : (fun x => if x = k then v else m x) = m := by
        funext x
        split
        · rename_i hx; rw [hx, hm.2.2, hwv]
        · rfl
      rw [this]
      exact h
    · rw [if_neg hwv, if_neg hm.2.1]
      have hset := cells_set es ((homeOf t.capacity k + d) % 2 ^ n) k v hk
      have hu' : used (cells (es.set ((homeOf t.capacity k + d) % 2 ^ n) ⟨k, v⟩)) = used (cells es) := by
        rw [hset, used_replace _ _ _ _ g1]
      refine ⟨_, _, n, rfl, ⟨rfl, h.cap, h.capLe, h.load, ?_, by rw [hu']; exact h.count, by rw [hu']; exact h.below, ?_,
        h.clean.set _ _ hk⟩, by rw [hu']; omega⟩
      · rw [hset]; exact h.wf.replace g1 v
      · intro k' v'
        rw [hset, h.wf.mem_replace g1, h.content]
        by_cases hkk : k' = k
        · subst hkk
          rw [if_pos rfl]
          constructor
          · rintro (he | ⟨he, -⟩)
            · simp only [Prod.mk.injEq] at he
              rw [he.2]; exact ⟨hk, hv, rfl⟩
            · exact absurd rfl he
          · rintro ⟨-, -, he⟩
            rw [he]; exact Or.inl rfl
        · rw [if_neg hkk]
          constructor
          · rintro (he | ⟨-, he⟩)
            · simp only [Prod.mk.injEq] at he
              exact absurd he.1 hkk
            · exact he
          · intro he; exact Or.inr ⟨hkk, he⟩

theorem sRun_refines (ops : List Op) : ∀ (t : STable) (m : Map) (es : List SEntry) (n : Nat) (rs : List Ptr), SInv t m es n →
    used (cells es) + ops.length < 2 ^ 28 → specRun specStep m ops = some rs → ∃ t', sRun t ops = some (t', rs) := by
  induction ops with
  | nil =>
    intro t m es n rs _ _ h
    simp only [specRun, Option.some.injEq] at h
    subst h
    exact ⟨t, rfl⟩
  | cons op ops ih =>
    intro t m es n rs h hb hs
    rw [specRun, Option.bind_eq_bind, Option.bind_eq_some_iff] at hs
    obtain ⟨⟨m1, r⟩, hs1, hs2⟩ := hs
    dsimp only at hs2
    rw [Option.bind_eq_bind, Option.bind_eq_some_iff] at hs2
    obtain ⟨rs', hs3, hs4⟩ := hs2
    simp only [Option.some.injEq] at hs4
    subst hs4
    rw [List.length_cons] at hb
    cases op with
    | get k =>
      simp only [specStep] at hs1
      split at hs1
      · simp at hs1
      · rename_i hk
        simp only [Option.some.injEq, Prod.mk.injEq] at hs1
        obtain ⟨rfl, rfl⟩ := hs1
        obtain ⟨t', ht⟩ := ih t m es n rs' h (by omega) hs3
        refine ⟨t', ?_⟩
        rw [sRun, sStep, h.get k hk, Option.map_some, Option.bind_eq_bind, Option.bind_some]
        dsimp only
        rw [ht]; rfl
    | set k v =>
      simp only [specStep] at hs1
      split at hs1
      · simp at hs1
      · rename_i hk
        push Not at hk
        simp only [Option.some.injEq, Prod.mk.injEq] at hs1
        obtain ⟨rfl, rfl⟩ := hs1
        obtain ⟨t1, es1, n1, g1, g2, g3⟩ := h.set k v hk.1 hk.2 (by omega)
        obtain ⟨t', ht⟩ := ih t1 _ es1 n1 rs' g2 (by omega) hs3
        refine ⟨t', ?_⟩
        rw [sRun, sStep, g1, Option.bind_eq_bind, Option.bind_some]
        dsimp only
        rw [ht]; rfl

theorem pow2_of_and (c : BitVec 32) (h0 : c ≠ 0#32) (h : c &&& (c - 1#32) = 0#32) : ∃ n, n < 32 ∧ c.toNat = 2 ^ n := by
  have hc0 : c.toNat ≠ 0 := fun e => h0 (BitVec.eq_of_toNat_eq (by simpa using e))
  have hsub : (c - 1#32).toNat = c.toNat - 1 := by
    rw [BitVec.toNat_sub_of_le (by rw [BitVec.le_def]; exact Nat.pos_of_ne_zero hc0)]; rfl
  have hand : c.toNat &&& (c.toNat - 1) = 0 := by
    have := congrArg BitVec.toNat h
    rw [BitVec.toNat_and, hsub] at this
    simpa using this
  have hlog : c.toNat.log2 < 32 := by
    rw [Nat.log2_lt hc0]; exact c.isLt
  refine ⟨c.toNat.log2, hlog, ?_⟩
  have hle : 2 ^ c.toNat.log2 ≤ c.toNat := Nat.log2_self_le hc0
  by_contra hne
  have hlt : c.toNat < 2 ^ (c.toNat.log2 + 1) := by
    rw [← Nat.log2_lt hc0]; omega
  have b1 : c.toNat.testBit c.toNat.log2 = true := Nat.testBit_log2 hc0
  have hl2 : (c.toNat - 1).log2 = c.toNat.log2 := by
    have hne0 : c.toNat - 1 ≠ 0 := by have := Nat.two_pow_pos c.toNat.log2; omega
    have g1 : (c.toNat - 1).log2 < c.toNat.log2 + 1 := by rw [Nat.log2_lt hne0]; omega
    have g2 : ¬ (c.toNat - 1).log2 < c.toNat.log2 := by rw [Nat.log2_lt hne0]; omega
    omega
  have b2 : (c.toNat - 1).testBit c.toNat.log2 = true := by
    have hne0 : c.toNat - 1 ≠ 0 := by have := Nat.two_pow_pos c.toNat.log2; omega
    rw [← hl2]
    exact Nat.testBit_log2 hne0
  have := congrArg (·.testBit c.toNat.log2) hand
  simp [Nat.testBit_and, b1, b2] at this

theorem stableInit_inv (c : BitVec 32) (t : STable) (h : stableInit c = some t) (hc : c.toNat ≤ 2 ^ 30) :
    ∃ es n, SInv t (fun _ => 0#64) es n ∧ used (cells es) = 0 := by
  unfold stableInit at h
  split at h
  · rename_i hp
    obtain ⟨n, hn, hcn⟩ := pow2_of_and c hp.1 hp.2
    simp only [Option.some.injEq] at h
    subst h
    have hu : used (cells (emptyEntries c)) = 0 := by rw [cells_empty, used, List.countP_replicate]; rfl
    refine ⟨emptyEntries c, n, ⟨rfl, hcn, ?_, ?_, ?_, ?_, Or.inr hu, ?_, clean_empty c⟩, hu⟩
    · by_contra hgt
      have : 2 ^ 31 ≤ 2 ^ n := Nat.pow_le_pow_right (by omega) (by omega)
      omega
    · rw [loadLimit_toNat, hcn]
    · rw [cells_empty, hcn]; exact wf_empty _ _ (first_lt c n hcn)
    · rw [hu]; rfl
    · intro k v
      rw [cells_empty]
      constructor
      · intro hm
        exact absurd (List.mem_replicate.1 hm).2 (by simp)
      · rintro ⟨-, h1, h2⟩
        exact absurd h2.symm h1
  · simp at h

end C3.Tables
