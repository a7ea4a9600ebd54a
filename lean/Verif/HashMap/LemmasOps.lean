import Verif.HashMap.Lemmas

/-! # Helper lemmas: the operations keep the representation -/

set_option autoImplicit false

namespace C3.HashMap

variable {K V : Type}

/-- The map represents the pairs `ps`. -/
structure Inv (E : Env K) (h : Heap K V) (m : Map) (chains : List (List Nat)) (ps : List (K × V)) : Prop where
  tab : Tab E h m.table chains
  dom : ∀ a, (h a).isSome = true ↔ a ∈ chains.flatten
  uniq : ∀ a b e e', h a = some e → h b = some e' → E.equals e.key e'.key = true → a = b
  count : m.count = chains.flatten.length
  small : chains.flatten.length < 2 ^ 32
  alive : m.alive = true
  holds : (pairs h chains.flatten).Perm ps

variable {E : Env K} {h : Heap K V} {m : Map} {chains : List (List Nat)} {ps : List (K × V)}

theorem Inv.mem_dom (I : Inv E h m chains ps) {a : Nat} {e : Entry K V} (he : h a = some e) : a ∈ chains.flatten :=
  (I.dom a).1 (by rw [he]; rfl)

theorem Inv.nonnull (I : Inv E h m chains ps) {a : Nat} {e : Entry K V} (he : h a = some e) : a ≠ 0 := (I.tab.mem (I.mem_dom he)).1

theorem Inv.length (I : Inv E h m chains ps) : chains.flatten.length = ps.length := by
  rw [← I.holds.length_eq]
  have : ∀ l : List Nat, (∀ a ∈ l, (h a).isSome = true) → (pairs h l).length = l.length := by
    intro l
    induction l with
    | nil => intro _; rfl
    | cons a l ih =>
      intro hl
      obtain ⟨e, he⟩ := Option.isSome_iff_exists.1 (hl a (by simp))
      have := ih fun x hx => hl x (by simp [hx])
      unfold pairs at this ⊢
      rw [List.filterMap_cons, he]
      simp [this]
  exact (this _ fun a ha => (I.dom a).2 ha).symm

/-- A pair is in the list if an entry has it. -/
theorem Inv.mem_pairs (I : Inv E h m chains ps) (p : K × V) : p ∈ ps ↔ ∃ a e, h a = some e ∧ (e.key, e.value) = p := by
  rw [← I.holds.mem_iff]
  unfold pairs
  rw [List.mem_filterMap]
  constructor
  · rintro ⟨a, ha, hm⟩
    cases he : h a with
    | none => rw [he] at hm; simp at hm
    | some e => rw [he] at hm; exact ⟨a, e, he, by simpa using hm⟩
  · rintro ⟨a, e, he, hp⟩
    exact ⟨a, I.mem_dom he, by rw [he]; simpa using hp⟩

theorem pairs_pairwise (h : Heap K V) (eq : K → K → Bool) : ∀ l : List Nat, l.Nodup →
    (∀ a ∈ l, ∀ b ∈ l, ∀ e e', h a = some e → h b = some e' → eq e.key e'.key = true → a = b) →
    (pairs h l).Pairwise fun p q => eq p.1 q.1 = false := by
  intro l
  induction l with
  | nil => intro _ _; exact .nil
  | cons a l ih =>
    intro hn hu
    have hn := List.nodup_cons.1 hn
    have ih := ih hn.2 fun x hx y hy => hu x (by simp [hx]) y (by simp [hy])
    unfold pairs at ih ⊢
    rw [List.filterMap_cons]
    cases he : h a with
    | none => exact ih
    | some e =>
      simp only [Option.map_some]
      refine List.pairwise_cons.2 ⟨?_, ih⟩
      intro p hp
      obtain ⟨b, hb, hm⟩ := List.mem_filterMap.1 hp
      cases he' : h b with
      | none => rw [he'] at hm; simp at hm
      | some e' =>
        rw [he'] at hm
        simp at hm
        subst hm
        by_contra hc
        have := hu a (by simp) b (by simp [hb]) e e' he he' (by simpa using hc)
        exact hn.1 (this ▸ hb)

theorem Inv.pairwise (I : Inv E h m chains ps) (L : Lawful E) : ps.Pairwise fun p q => E.equals p.1 q.1 = false := by
  have hp := pairs_pairwise h E.equals chains.flatten I.tab.nodup fun a _ b _ e e' => I.uniq a b e e'
  refine (I.holds.pairwise_iff ?_).1 hp
  intro p q hpq
  cases hc : E.equals q.1 p.1 with
  | false => rfl
  | true => rw [L.symm _ _ hc] at hpq; cases hpq

theorem lookup_iff (L : Lawful E) (hp : ps.Pairwise fun p q => E.equals p.1 q.1 = false) (k : K) (v : V) :
    Spec.lookup E.equals ps k = some v ↔ ∃ k', (k', v) ∈ ps ∧ E.equals k k' = true := by
  induction ps with
  | nil => simp [Spec.lookup]
  | cons p ps ih =>
    obtain ⟨h1, h2⟩ := List.pairwise_cons.1 hp
    have ih := ih h2
    unfold Spec.lookup at ih ⊢
    rw [List.find?_cons]
    cases hk : E.equals k p.1 with
    | true =>
      simp only [Option.map_some, Option.some.injEq]
      constructor
      · rintro rfl
        exact ⟨p.1, by simp, hk⟩
      · rintro ⟨k', hm, hk'⟩
        rcases List.mem_cons.1 hm with hm | hm
        · rw [← hm]
        · have := h1 _ hm
          simp only at this
          rw [L.trans _ _ _ (L.symm _ _ hk) hk'] at this
          cases this
    | false =>
      simp only
      rw [ih]
      constructor
      · rintro ⟨k', hm, hk'⟩
        exact ⟨k', by simp [hm], hk'⟩
      · rintro ⟨k', hm, hk'⟩
        rcases List.mem_cons.1 hm with hm | hm
        · rw [← hm] at hk
          simp only at hk
          rw [hk'] at hk
          cases hk
        · exact ⟨k', hm, hk'⟩

theorem Inv.lookup (I : Inv E h m chains ps) (L : Lawful E) (k : K) (v : V) :
    Spec.lookup E.equals ps k = some v ↔ ∃ a e, h a = some e ∧ E.equals k e.key = true ∧ e.value = v := by
  rw [lookup_iff L (I.pairwise L)]
  constructor
  · rintro ⟨k', hm, hk⟩
    obtain ⟨a, e, he, hp⟩ := (I.mem_pairs _).1 hm
    simp only [Prod.mk.injEq] at hp
    exact ⟨a, e, he, by rw [hp.1]; exact hk, hp.2⟩
  · rintro ⟨a, e, he, hk, rfl⟩
    exact ⟨e.key, (I.mem_pairs _).2 ⟨a, e, he, rfl⟩, hk⟩

theorem Inv.lookup_none (I : Inv E h m chains ps) (L : Lawful E) (k : K) :
    Spec.lookup E.equals ps k = none ↔ ∀ a e, h a = some e → E.equals k e.key = false := by
  constructor
  · intro hl a e he
    cases hk : E.equals k e.key with
    | false => rfl
    | true =>
      rw [(I.lookup L k e.value).2 ⟨a, e, he, hk, rfl⟩] at hl
      cases hl
  · intro hl
    cases hk : Spec.lookup E.equals ps k with
    | none => rfl
    | some v =>
      obtain ⟨a, e, he, hk, -⟩ := (I.lookup L k v).1 hk
      rw [hl a e he] at hk
      cases hk

/-! ## Finding -/

theorem find_spec (E : Env K) (h : Heap K V) (hash : BitVec 32) (key : K) : ∀ (l : List Nat) (p : Nat), Seg h p l 0 →
    (find E h hash key p = some 0 ∧ ∀ a ∈ l, ∀ e, h a = some e → e.hash = hash → E.equals key e.key = false) ∨
    ∃ l1 a l2 e, l = l1 ++ a :: l2 ∧ find E h hash key p = some a ∧ a ≠ 0 ∧ h a = some e ∧ e.hash = hash ∧ E.equals key e.key = true ∧
      ∀ b ∈ l1, ∀ e, h b = some e → ¬ (e.hash = hash ∧ E.equals key e.key = true) := by
  intro l
  induction l with
  | nil =>
    intro p hs
    have : p = 0 := hs
    left
    rw [find, if_pos this]
    simp
  | cons a l ih =>
    intro p hs
    obtain ⟨rfl, h2, e, h3, h4⟩ := hs
    rw [find, if_neg h2, h3]
    simp only [Bool.and_eq_true, decide_eq_true_eq]
    by_cases hm : e.hash = hash ∧ E.equals key e.key = true
    · right
      rw [if_pos hm]
      exact ⟨[], p, l, e, rfl, rfl, h2, h3, hm.1, hm.2, by simp⟩
    · rw [if_neg hm]
      rcases ih _ h4 with ⟨r1, r2⟩ | ⟨l1, b, l2, e', rfl, r2, r3, r4, r5, r6, r7⟩
      · left
        refine ⟨r1, ?_⟩
        intro b hb x hx hxh
        rcases List.mem_cons.1 hb with rfl | hb
        · rw [h3] at hx
          simp at hx
          subst hx
          cases hk : E.equals key e.key with
          | false => rfl
          | true => exact absurd ⟨hxh, hk⟩ hm
        · exact r2 b hb x hx hxh
      · right
        refine ⟨p :: l1, b, l2, e', rfl, r2, r3, r4, r5, r6, ?_⟩
        intro c hc x hx
        rcases List.mem_cons.1 hc with rfl | hc
        · rw [h3] at hx
          simp at hx
          subst hx
          exact hm
        · exact r7 c hc x hx

/-- The chain of a key holds all entries of the key. -/
theorem Tab.own {table : List Nat} (T : Tab E h table chains) (L : Lawful E) {key : K} {a : Nat} {e : Entry K V}
    (ha : a ∈ chains.flatten) (he : h a = some e) (hk : E.equals key e.key = true) :
    e.hash = rehash (E.keyHash key) ∧ ∃ l, chains[index_for (rehash (E.keyHash key)) table.length]? = some l ∧ a ∈ l := by
  obtain ⟨l, hl, hal⟩ := List.mem_flatten.1 ha
  obtain ⟨i, hi⟩ := List.mem_iff_getElem?.1 hl
  obtain ⟨h1, h2⟩ := T.bucket i l hi a hal e he
  rw [L.hash _ _ hk]
  rw [h1] at h2
  rw [h2]
  exact ⟨h1, l, hi, hal⟩

/-- The start of a chain and the chain. -/
theorem Tab.at {table : List Nat} (T : Tab E h table chains) (hash : BitVec 32) :
    ∃ p l, table[index_for hash table.length]? = some p ∧ chains[index_for hash table.length]? = some l ∧ Seg h p l 0 := by
  obtain ⟨t1, p, t2, c1, l, c2, e1, e2, h1, h2, hs, -, -⟩ := T.split (T.index_lt hash)
  refine ⟨p, l, ?_, ?_, hs⟩
  · generalize index_for hash table.length = i at *
    rw [e1, ← h1]; simp
  · generalize index_for hash table.length = i at *
    rw [e2, ← h2]; simp

theorem find_key (I : Inv E h m chains ps) (L : Lawful E) (key : K) :
    ∃ p r, m.table[index_for (rehash (E.keyHash key)) m.table.length]? = some p ∧ find E h (rehash (E.keyHash key)) key p = some r ∧
      ((r = 0 ∧ Spec.lookup E.equals ps key = none) ∨
        (r ≠ 0 ∧ ∃ e, h r = some e ∧ E.equals key e.key = true ∧ Spec.lookup E.equals ps key = some e.value)) := by
  obtain ⟨p, l, hp, hl, hs⟩ := I.tab.at (rehash (E.keyHash key))
  rcases find_spec E h (rehash (E.keyHash key)) key l p hs with ⟨r1, r2⟩ | ⟨l1, a, l2, e, rfl, r2, r3, r4, r5, r6, -⟩
  · refine ⟨p, 0, hp, r1, .inl ⟨rfl, ?_⟩⟩
    rw [I.lookup_none L]
    intro a e he
    cases hk : E.equals key e.key with
    | false => rfl
    | true =>
      obtain ⟨h1, l', hl', ha⟩ := I.tab.own L (I.mem_dom he) he hk
      rw [hl] at hl'
      simp at hl'
      subst hl'
      rw [r2 a ha e he h1] at hk
      cases hk
  · exact ⟨p, a, hp, r2, .inr ⟨r3, e, r4, r6, (I.lookup L key _).2 ⟨a, e, r4, r6, rfl⟩⟩⟩

theorem Inv.empty_of_count (I : Inv E h m chains ps) (hc : m.count = 0) : ps = [] := by
  have := I.count
  rw [I.length] at this
  exact List.eq_nil_of_length_eq_zero (by omega)

theorem get_entry_spec (I : Inv E h m chains ps) (L : Lawful E) (key : K) :
    ∃ r, get_entry E h m key = some r ∧ ((r = 0 ∧ Spec.lookup E.equals ps key = none) ∨
        (r ≠ 0 ∧ ∃ e, h r = some e ∧ E.equals key e.key = true ∧ Spec.lookup E.equals ps key = some e.value)) := by
  rw [get_entry]
  by_cases hc : m.count = 0
  · rw [if_pos hc]
    refine ⟨0, rfl, .inl ⟨rfl, ?_⟩⟩
    rw [I.empty_of_count hc]
    rfl
  · rw [if_neg hc]
    obtain ⟨p, r, h1, h2, h3⟩ := find_key I L key
    simp only [h1]
    exact ⟨r, h2, h3⟩

theorem get_spec (I : Inv E h m chains ps) (L : Lawful E) (key : K) : get E h m key = some (Spec.lookup E.equals ps key) := by
  obtain ⟨r, h1, ⟨rfl, h2⟩ | ⟨h2, e, h3, h4, h5⟩⟩ := get_entry_spec I L key
  · rw [get, h1, h2]; rfl
  · rw [get, h1, h5]
    simp [h2, h3]

theorem has_key_spec (I : Inv E h m chains ps) (L : Lawful E) (key : K) :
    has_key E h m key = some (Spec.lookup E.equals ps key).isSome := by
  obtain ⟨r, h1, ⟨rfl, h2⟩ | ⟨h2, e, h3, h4, h5⟩⟩ := get_entry_spec I L key
  · rw [has_key, h1, h2]; rfl
  · rw [has_key, h1, h5]
    simp [h2]

/-! ## Setting -/

theorem setValue_spec (I : Inv E h m chains ps) (L : Lawful E) {key : K} {a : Nat} {e : Entry K V} (he : h a = some e)
    (hk : E.equals key e.key = true) (value : V) :
    setValue h a value = some (h.put a (some { e with value := value })) ∧
    Inv E (h.put a (some { e with value := value })) m chains (Spec.insert E.equals ps key value) := by
  refine ⟨by rw [setValue, he]; rfl, ?_⟩
  have hlook : (Spec.lookup E.equals ps key).isSome = true := by rw [(I.lookup L key _).2 ⟨a, e, he, hk, rfl⟩]; rfl
  have hother : ∀ b, b ≠ a → h.put a (some { e with value := value }) b = h b := fun b hb => put_other _ _ hb
  have hsegs : ∀ (l : List Nat) (p : Nat), Seg h p l 0 → Seg (h.put a (some { e with value := value })) p l 0 := by
    intro l
    induction l with
    | nil => intro p hs; exact hs
    | cons b l ih =>
      rintro p ⟨h1, h2, x, h3, h4⟩
      by_cases hb : b = a
      · subst hb
        rw [he] at h3
        simp at h3
        subst h3
        exact ⟨h1, h2, _, put_same .., ih _ h4⟩
      · exact ⟨h1, h2, x, by rw [hother b hb, h3], ih _ h4⟩
  have hget : ∀ b x, h.put a (some { e with value := value }) b = some x → ∃ y, h b = some y ∧ y.hash = x.hash ∧ y.key = x.key := by
    intro b x hx
    by_cases hb : b = a
    · subst hb
      rw [put_same] at hx
      simp at hx
      subst hx
      exact ⟨e, he, rfl, rfl⟩
    · rw [hother b hb] at hx
      exact ⟨x, hx, rfl, rfl⟩
  refine ⟨⟨?_, I.tab.nodup, ?_, I.tab.cap⟩, ?_, ?_, I.count, I.small, I.alive, ?_⟩
  · exact I.tab.segs.imp fun p l hs => hsegs l p hs
  · intro i l hl b hb x hx
    obtain ⟨y, h1, h2, h3⟩ := hget b x hx
    rw [← h2, ← h3]
    exact I.tab.bucket i l hl b hb y h1
  · intro b
    by_cases hb : b = a
    · subst hb
      rw [put_same]
      simp [← I.dom b, he]
    · rw [hother b hb]; exact I.dom b
  · intro b c x x' hx hx' hq
    obtain ⟨y, h1, -, h3⟩ := hget b x hx
    obtain ⟨y', h1', -, h3'⟩ := hget c x' hx'
    rw [← h3, ← h3'] at hq
    exact I.uniq b c y y' h1 h1' hq
  · rw [Spec.insert, if_pos hlook]
    refine List.Perm.trans ?_ (I.holds.map _)
    have : ∀ l : List Nat, pairs (h.put a (some { e with value := value })) l =
        (pairs h l).map fun p => if E.equals key p.1 then (p.1, value) else p := by
      intro l
      unfold pairs
      rw [List.map_filterMap]
      apply List.filterMap_congr
      intro b _
      by_cases hb : b = a
      · subst hb
        rw [put_same, he]
        simp [hk]
      · rw [hother b hb]
        cases hx : h b with
        | none => rfl
        | some x =>
          simp only [Option.map_some, Option.some.injEq]
          have : E.equals key x.key = false := by
            cases hq : E.equals key x.key with
            | false => rfl
            | true => exact absurd (I.uniq b a x e hx he (L.trans _ _ _ (L.symm _ _ hq) hk)) hb
          rw [this]
          rfl
    rw [this]

theorem Tab.length_pow {table : List Nat} (T : Tab E h table chains) (hmax : table.length ≠ MAXIMUM_CAPACITY) :
    ∃ k ≤ 31, table.length * 2 % 2 ^ 32 = 2 ^ k := by
  obtain ⟨k, hk, e⟩ := T.cap
  rw [e]
  have : k ≠ 31 := by rintro rfl; exact hmax (by rw [e]; rfl)
  refine ⟨k + 1, by omega, ?_⟩
  rw [← Nat.pow_succ, Nat.mod_eq_of_lt (Nat.pow_lt_pow_right (by decide) (by omega))]

theorem resize_spec (I : Inv E h m chains ps) :
    ∃ h' m' chains', resize E h m (m.table.length * 2 % 2 ^ 32) = some (h', m') ∧ Inv E h' m' chains' ps := by
  rw [resize]
  by_cases hm : m.table.length = MAXIMUM_CAPACITY
  · rw [if_pos hm]
    exact ⟨h, _, chains, rfl, ⟨I.tab, I.dom, I.uniq, I.count, I.small, I.alive, I.holds⟩⟩
  · rw [if_neg hm]
    obtain ⟨k, hk, e⟩ := I.tab.length_pow hm
    rw [e]
    obtain ⟨h', t', c', r1, r2, r3, r4, r5⟩ := transfer_spec (E := E) m.table chains (Tab.empty E h hk) I.tab.segs I.tab.nodup
      (by simp) (by
        intro b hb e he
        obtain ⟨l, hl, hbl⟩ := List.mem_flatten.1 hb
        obtain ⟨i, hi⟩ := List.mem_iff_getElem?.1 hl
        exact (I.tab.bucket i l hi b hbl e he).1)
    rw [r1]
    have r3 : c'.flatten.Perm chains.flatten := by simpa using r3
    have hsome : ∀ a, (h' a).isSome = (h a).isSome := by
      intro a
      have := congrArg Option.isSome (r4 a)
      simpa [core] using this
    have hcore : ∀ a e, h' a = some e → ∃ e', h a = some e' ∧ e'.key = e.key := by
      intro a e he
      have := r4 a
      rw [core, he, core] at this
      cases hx : h a with
      | none => rw [hx] at this; simp at this
      | some x => rw [hx] at this; simp at this; exact ⟨x, rfl, this.2.1.symm⟩
    refine ⟨h', _, c', rfl, ⟨r2, ?_, ?_, ?_, ?_, I.alive, ?_⟩⟩
    · intro a
      rw [hsome, r3.mem_iff]
      exact I.dom a
    · intro a b x x' hx hx' hq
      obtain ⟨y, h1, h2⟩ := hcore a x hx
      obtain ⟨y', h1', h2'⟩ := hcore b x' hx'
      rw [← h2, ← h2'] at hq
      exact I.uniq a b y y' h1 h1' hq
    · show m.count = _
      rw [I.count, r3.length_eq]
    · rw [r3.length_eq]; exact I.small
    · refine List.Perm.trans ?_ I.holds
      refine (pairs_perm h' r3).trans ?_
      rw [pairs_congr fun a _ => r4 a]

/-- A new entry, before the table may grow. -/
theorem new_entry (I : Inv E h m chains ps) (L : Lawful E) {key : K} (hl : Spec.lookup E.equals ps key = none) (value : V) {new : Nat}
    (hn0 : new ≠ 0) (hnew : h new = none) (hsmall : ps.length + 1 < 2 ^ 32) :
    ∃ p chains', m.table[index_for (rehash (E.keyHash key)) m.table.length]? = some p ∧
      Inv E (h.put new (some ⟨rehash (E.keyHash key), key, value, p⟩))
        { m with table := m.table.set (index_for (rehash (E.keyHash key)) m.table.length) new, count := (m.count + 1) % 2 ^ 32 } chains'
        ((key, value) :: ps) := by
  have hnm : new ∉ chains.flatten := fun hx => by
    have := (I.dom new).2 hx
    rw [hnew] at this
    cases this
  obtain ⟨p, c', hp, T', hperm⟩ := I.tab.push hnm hn0 key value rfl
  have hlen := I.length
  have hother : ∀ b, b ≠ new → (h.put new (some ⟨rehash (E.keyHash key), key, value, p⟩)) b = h b := fun b hb => put_other _ _ hb
  have hno := (I.lookup_none L key).1 hl
  refine ⟨p, c', hp, ⟨T', ?_, ?_, ?_, ?_, I.alive, ?_⟩⟩
  · intro a
    rw [hperm.mem_iff, List.mem_cons]
    by_cases ha : a = new
    · subst ha; simp [put_same]
    · rw [hother a ha, I.dom a]; simp [ha]
  · intro a b x x' hx hx' hq
    by_cases ha : a = new
    · by_cases hb : b = new
      · rw [ha, hb]
      · subst ha
        rw [put_same] at hx
        rw [hother b hb] at hx'
        simp at hx
        subst hx
        have := hno b x' hx'
        simp only at hq
        rw [hq] at this
        cases this
    · rw [hother a ha] at hx
      by_cases hb : b = new
      · subst hb
        rw [put_same] at hx'
        simp at hx'
        subst hx'
        have := hno a x hx
        simp only at hq
        rw [L.symm _ _ hq] at this
        cases this
      · rw [hother b hb] at hx'
        exact I.uniq a b x x' hx hx' hq
  · show (m.count + 1) % 2 ^ 32 = _
    rw [hperm.length_eq, List.length_cons, I.count, Nat.mod_eq_of_lt (by omega)]
  · rw [hperm.length_eq, List.length_cons]; omega
  · refine (pairs_perm _ hperm).trans ?_
    have e1 : pairs (h.put new (some ⟨rehash (E.keyHash key), key, value, p⟩)) (new :: chains.flatten) =
        (key, value) :: pairs (h.put new (some ⟨rehash (E.keyHash key), key, value, p⟩)) chains.flatten := by
      unfold pairs
      rw [List.filterMap_cons, put_same]
      rfl
    rw [e1]
    refine List.Perm.cons _ ?_
    rw [pairs_congr (h' := h) fun a ha => by
      unfold core
      rw [hother a (fun e => hnm (e ▸ ha))]]
    exact I.holds

theorem add_entry_spec (I : Inv E h m chains ps) (L : Lawful E) {key : K} (hl : Spec.lookup E.equals ps key = none) (value : V) {new : Nat}
    (hn0 : new ≠ 0) (hnew : h new = none) (hsmall : ps.length + 1 < 2 ^ 32) :
    ∃ h' m' chains', add_entry E h m (rehash (E.keyHash key)) key value (index_for (rehash (E.keyHash key)) m.table.length) new = some (h', m') ∧
      Inv E h' m' chains' ((key, value) :: ps) := by
  obtain ⟨p, c', hp, I'⟩ := new_entry I L hl value hn0 hnew hsmall
  rw [add_entry, hp]
  simp only
  by_cases ht : m.count ≥ m.threshold
  · rw [if_pos ht]
    obtain ⟨h', m', c'', r1, r2⟩ := resize_spec I'
    exact ⟨h', m', c'', r1, r2⟩
  · rw [if_neg ht]
    exact ⟨_, _, c', rfl, I'⟩

theorem insert_new {eq : K → K → Bool} {ps : List (K × V)} {key : K} (hl : Spec.lookup eq ps key = none) (value : V) :
    Spec.insert eq ps key value = (key, value) :: ps := by
  rw [Spec.insert, hl]; rfl

theorem set_spec (I : Inv E h m chains ps) (L : Lawful E) (key : K) (value : V) {new : Nat} (hn0 : new ≠ 0) (hnew : h new = none)
    (hsmall : ps.length + 1 < 2 ^ 32) :
    ∃ h' m' chains', set E h m key value new = some (h', m', (Spec.lookup E.equals ps key).isSome) ∧
      Inv E h' m' chains' (Spec.insert E.equals ps key value) := by
  obtain ⟨p, r, h1, h2, h3⟩ := find_key I L key
  rw [set, I.alive]
  simp only [if_true, Option.bind_eq_bind, Option.bind_some, h1, h2]
  rcases h3 with ⟨rfl, hl⟩ | ⟨hr, e, he, hk, hl⟩
  · obtain ⟨h', m', c', r1, r2⟩ := add_entry_spec I L hl value hn0 hnew hsmall
    rw [if_neg (by simp), r1, hl]
    exact ⟨h', m', c', rfl, by rw [insert_new hl]; exact r2⟩
  · obtain ⟨r1, r2⟩ := setValue_spec I L he hk value
    rw [if_pos hr, r1, hl]
    exact ⟨_, m, chains, rfl, r2⟩

theorem get_or_set_spec (I : Inv E h m chains ps) (L : Lawful E) (key : K) (value : V) {new : Nat} (hn0 : new ≠ 0) (hnew : h new = none)
    (hsmall : ps.length + 1 < 2 ^ 32) :
    ∃ h' m' chains', get_or_set E h m key value new = some (h', m', (Spec.lookup E.equals ps key).getD value) ∧
      Inv E h' m' chains' (if (Spec.lookup E.equals ps key).isSome then ps else (key, value) :: ps) := by
  rw [get_or_set]
  by_cases hc : m.count = 0
  · rw [if_pos hc]
    obtain ⟨h', m', c', r1, r2⟩ := set_spec I L key value hn0 hnew hsmall
    have hl : Spec.lookup E.equals ps key = none := by rw [I.empty_of_count hc]; rfl
    rw [r1, hl]
    rw [insert_new hl] at r2
    exact ⟨h', m', c', rfl, by simpa using r2⟩
  · rw [if_neg hc]
    obtain ⟨p, r, h1, h2, h3⟩ := find_key I L key
    simp only [Option.bind_eq_bind, Option.bind_some, h1, h2]
    rcases h3 with ⟨rfl, hl⟩ | ⟨hr, e, he, hk, hl⟩
    · obtain ⟨h', m', c', r1, r2⟩ := add_entry_spec I L hl value hn0 hnew hsmall
      rw [if_neg (by simp), r1, hl]
      exact ⟨h', m', c', rfl, by simpa using r2⟩
    · rw [if_pos hr, he, hl]
      exact ⟨h, m, chains, rfl, by simpa using I⟩

/-! ## Removing -/

theorem filter_unique {eq : K → K → Bool} {ps qs : List (K × V)} {key k : K} {v : V} (hp : ps.Perm ((k, v) :: qs)) (hk : eq key k = true)
    (hq : ∀ p ∈ qs, eq key p.1 = false) : qs.Perm (ps.filter fun p => !eq key p.1) := by
  refine List.Perm.symm ((hp.filter _).trans ?_)
  rw [List.filter_cons, if_neg (by simp [hk]), List.filter_eq_self.2]
  intro p hp
  simp [hq p hp]

/-- The loop from an entry in the middle of its chain on. -/
theorem removeLoop_skip (E : Env K) (h : Heap K V) (m : Map) (hash : BitVec 32) (key : K) (i : Nat) {e prev : Nat} {x : Entry K V} (hx : h e = some x)
    (h0 : e ≠ 0) (hm : ¬ (x.hash = hash ∧ E.equals key x.key = true)) :
    removeLoop E h m hash key i prev e = removeLoop E h m hash key i e x.next := by
  rw [removeLoop, if_neg h0, hx]
  simp only [Bool.and_eq_true, decide_eq_true_eq]
  rw [if_neg hm]

theorem removeLoop_none (E : Env K) (h : Heap K V) (m : Map) (hash : BitVec 32) (key : K) (i : Nat) : ∀ (l : List Nat) (prev p : Nat), Seg h p l 0 →
    (∀ b ∈ l, ∀ e, h b = some e → ¬ (e.hash = hash ∧ E.equals key e.key = true)) →
    removeLoop E h m hash key i prev p = some (h, m, false) := by
  intro l
  induction l with
  | nil =>
    intro prev p hs _
    have : p = 0 := hs
    rw [removeLoop, if_pos this]
  | cons b l ih =>
    rintro prev p ⟨rfl, h2, e, h3, h4⟩ hno
    rw [removeLoop_skip E h m hash key i h3 h2 (hno p (by simp) e h3)]
    exact ih _ _ h4 fun b hb => hno b (by simp [hb])

/-- The entry before the one that is removed gets its successor. -/
theorem removeLoop_mid (E : Env K) (h : Heap K V) (m : Map) (hash : BitVec 32) (key : K) (i : Nat) : ∀ (l1 : List Nat) (prev p : Nat) (c a : Nat) (l2 : List Nat),
    Seg h p (l1 ++ c :: a :: l2) 0 → (l1 ++ c :: a :: l2).Nodup →
    (∀ b ∈ l1 ++ [c], ∀ e, h b = some e → ¬ (e.hash = hash ∧ E.equals key e.key = true)) →
    ∀ x y, h a = some x → h c = some y → x.hash = hash → E.equals key x.key = true →
    removeLoop E h m hash key i prev p =
      some ((h.put c (some { y with next := x.next })).put a none, { m with count := (m.count + 2 ^ 32 - 1) % 2 ^ 32 }, true) := by
  intro l1
  induction l1 with
  | nil =>
    intro prev p c a l2 hs hn hno x y hx hy hxh hk
    obtain ⟨rfl, h2, y', h3, h4⟩ := hs
    rw [hy] at h3
    simp at h3
    subst h3
    rw [removeLoop_skip E h m hash key i hy h2 (hno p (by simp) y hy)]
    obtain ⟨h5, h6, x', h7, h8⟩ := h4
    rw [hx] at h7
    simp at h7
    subst h7
    rw [h5, removeLoop, if_neg h6, hx]
    simp only [Bool.and_eq_true, decide_eq_true_eq]
    have hne : p ≠ a := by
      intro e
      simp [e] at hn
    rw [if_pos ⟨hxh, hk⟩, if_neg hne, hy]
    simp only [Option.bind_eq_bind, Option.bind_some, Heap.free]
    rw [put_other _ _ (Ne.symm hne), hx]
    rfl
  | cons b l1 ih =>
    intro prev p c a l2 hs hn hno x y hx hy hxh hk
    obtain ⟨rfl, h2, e, h3, h4⟩ := hs
    rw [removeLoop_skip E h m hash key i h3 h2 (hno p (by simp) e h3)]
    exact ih _ _ c a l2 h4 (List.nodup_cons.1 hn).2 (fun b hb => hno b (by simp only [List.cons_append, List.mem_cons]; exact .inr hb))
      x y hx hy hxh hk

theorem removeLoop_first (E : Env K) (h : Heap K V) (m : Map) (hash : BitVec 32) (key : K) (i : Nat) {a : Nat} (h0 : a ≠ 0) {x : Entry K V} (hx : h a = some x)
    (hxh : x.hash = hash) (hk : E.equals key x.key = true) :
    removeLoop E h m hash key i a a =
      some (h.put a none, { m with count := (m.count + 2 ^ 32 - 1) % 2 ^ 32, table := m.table.set i x.next }, true) := by
  rw [removeLoop, if_neg h0, hx]
  simp only [Bool.and_eq_true, decide_eq_true_eq]
  rw [if_pos ⟨hxh, hk⟩]
  simp only [if_true, Option.bind_eq_bind, Heap.free, hx]
  rfl

/-- What removing an entry from its chain does to the representation, whatever was done to the chain. -/
theorem removed (I : Inv E h m chains ps) (L : Lawful E) {key : K} {a : Nat} {x : Entry K V} (hx : h a = some x) (hk : E.equals key x.key = true)
    {t1 t2 : List Nat} {c1 c2 : List (List Nat)} {p p' : Nat} {l l' : List Nat} {h' : Heap K V}
    (e1 : m.table = t1 ++ p :: t2) (e2 : chains = c1 ++ l :: c2) (hlen : t1.length = c1.length)
    (hs1 : List.Forall₂ (fun p l => Seg h p l 0) t1 c1) (hs2 : List.Forall₂ (fun p l => Seg h p l 0) t2 c2)
    (hl : l.Perm (a :: l')) (hseg : Seg h' p' l' 0) (ha : h' a = none) (hcore : ∀ b, b ≠ a → core h' b = core h b)
    (hsame : ∀ b, b ∉ l → h' b = h b) :
    Inv E h' { m with count := (m.count + 2 ^ 32 - 1) % 2 ^ 32, table := t1 ++ p' :: t2 } (c1 ++ l' :: c2) (ps.filter fun p => !E.equals key p.1) := by
  have hperm : chains.flatten.Perm (a :: (c1 ++ l' :: c2).flatten) := by
    rw [e2]
    simp only [List.flatten_append, List.flatten_cons]
    refine List.Perm.trans (List.Perm.append_left _ (List.Perm.append_right _ hl)) ?_
    simp only [List.cons_append]
    exact List.perm_middle
  have hnd := hperm.nodup_iff.1 I.tab.nodup
  obtain ⟨hna, hnd'⟩ := List.nodup_cons.1 hnd
  have hnd0 := I.tab.nodup
  rw [e2] at hnd0
  simp only [List.flatten_append, List.flatten_cons] at hnd0
  obtain ⟨-, hnb, hnc⟩ := List.nodup_append.1 hnd0
  obtain ⟨-, -, hnd2⟩ := List.nodup_append.1 hnb
  have hget : ∀ b e, h' b = some e → b ≠ a ∧ ∃ e', h b = some e' ∧ e'.hash = e.hash ∧ e'.key = e.key := by
    intro b e he
    have hba : b ≠ a := by rintro rfl; rw [ha] at he; cases he
    refine ⟨hba, ?_⟩
    have := hcore b hba
    rw [core, he, core] at this
    cases hy : h b with
    | none => rw [hy] at this; simp at this
    | some y => rw [hy] at this; simp at this; exact ⟨y, rfl, this.1.symm, this.2.1.symm⟩
  have hlen' : (t1 ++ p' :: t2).length = m.table.length := by rw [e1]; simp
  have hcount : 0 < chains.flatten.length := by rw [hperm.length_eq]; simp
  have hl1 := hperm.length_eq
  rw [List.length_cons] at hl1
  refine ⟨⟨?_, hnd', ?_, ?_⟩, ?_, ?_, ?_, ?_, I.alive, ?_⟩
  · refine List.rel_append (forall2_congr hs1 fun b hb => hsame b ?_) (.cons hseg (forall2_congr hs2 fun b hb => hsame b ?_))
    · intro hbl
      exact hnc b hb b (by simp [hbl]) rfl
    · intro hbl
      exact hnd2 b hbl b hb rfl
  · intro i li hi b hb e he
    obtain ⟨-, y, hy, hy1, hy2⟩ := hget b e he
    rw [hlen', ← hy1, ← hy2]
    by_cases hic : i = c1.length
    · subst hic
      simp at hi
      subst hi
      exact I.tab.bucket c1.length l (by rw [e2]; simp) b (hl.mem_iff.2 (by simp [hb])) y hy
    · refine I.tab.bucket i li ?_ b hb y hy
      rw [e2]
      rw [List.getElem?_append] at hi ⊢
      split
      · rw [if_pos (by assumption)] at hi; exact hi
      · rw [if_neg (by assumption)] at hi
        have : i - c1.length = (i - c1.length - 1) + 1 := by omega
        rw [this, List.getElem?_cons_succ] at hi ⊢
        exact hi
  · show ∃ k ≤ 31, (t1 ++ p' :: t2).length = 2 ^ k
    rw [hlen']; exact I.tab.cap
  · intro b
    by_cases hb : b = a
    · subst hb
      rw [ha]
      exact Iff.intro (fun h => (nomatch h)) (fun h => absurd h hna)
    · have h1 := congrArg Option.isSome (hcore b hb)
      have h1 : (h' b).isSome = (h b).isSome := by simpa [core] using h1
      rw [h1, I.dom b, hperm.mem_iff]
      simp [hb]
  · intro b c e e' he he' hq
    obtain ⟨-, y, hy, -, hy2⟩ := hget b e he
    obtain ⟨-, y', hy', -, hy2'⟩ := hget c e' he'
    rw [← hy2, ← hy2'] at hq
    exact I.uniq b c y y' hy hy' hq
  · show (m.count + 2 ^ 32 - 1) % 2 ^ 32 = _
    have := I.count
    have := I.small
    have e : m.count + 2 ^ 32 - 1 = (c1 ++ l' :: c2).flatten.length + 2 ^ 32 := by omega
    rw [e, Nat.add_mod_right, Nat.mod_eq_of_lt (by omega)]
  · have := I.small
    omega
  · have hps : ps.Perm ((x.key, x.value) :: pairs h (c1 ++ l' :: c2).flatten) := by
      refine I.holds.symm.trans ((pairs_perm h hperm).trans ?_)
      have : pairs h (a :: (c1 ++ l' :: c2).flatten) = (x.key, x.value) :: pairs h (c1 ++ l' :: c2).flatten := by
        unfold pairs
        rw [List.filterMap_cons, hx]
        rfl
      rw [this]
    rw [pairs_congr (h' := h) fun b hb => hcore b (fun e => hna (e ▸ hb))]
    refine filter_unique hps hk ?_
    intro q hq
    obtain ⟨b, hb, hm⟩ := List.mem_filterMap.1 hq
    cases hy : h b with
    | none => rw [hy] at hm; simp at hm
    | some y =>
      rw [hy] at hm
      simp at hm
      subst hm
      cases hc : E.equals key y.key with
      | false => rfl
      | true =>
        have := I.uniq b a y x hy hx (L.trans _ _ _ (L.symm _ _ hc) hk)
        exact absurd (this ▸ hb) hna

theorem remove_spec (I : Inv E h m chains ps) (L : Lawful E) (key : K) :
    ∃ h' m' chains', remove E h m key = some (h', m', (Spec.lookup E.equals ps key).isSome) ∧
      Inv E h' m' chains' (ps.filter fun p => !E.equals key p.1) := by
  have hsame : Spec.lookup E.equals ps key = none → (ps.filter fun p => !E.equals key p.1) = ps := by
    intro hl
    refine List.filter_eq_self.2 fun p hp => ?_
    obtain ⟨a, e, he, rfl⟩ := (I.mem_pairs p).1 hp
    simp [(I.lookup_none L key).1 hl a e he]
  rw [remove]
  by_cases hc : m.count = 0
  · rw [if_pos hc]
    have hl : Spec.lookup E.equals ps key = none := by rw [I.empty_of_count hc]; rfl
    rw [hsame hl, hl]
    exact ⟨h, m, chains, rfl, I⟩
  · rw [if_neg hc]
    have hi := I.tab.index_lt (rehash (E.keyHash key))
    have hown := fun a e (ha : a ∈ chains.flatten) (he : h a = some e) hk => I.tab.own L (key := key) ha he hk
    generalize hidx : index_for (rehash (E.keyHash key)) m.table.length = i at hi hown
    obtain ⟨t1, p, t2, c1, l, c2, e1, e2, h1, h2, hs, hs1, hs2⟩ := I.tab.split hi
    have hp : m.table[i]? = some p := by rw [e1, ← h1]; simp
    have hli : chains[i]? = some l := by rw [e2, ← h2]; simp
    simp only [hidx, hp]
    have hnl : l.Nodup := by
      have := I.tab.nodup
      rw [e2] at this
      simp only [List.flatten_append, List.flatten_cons] at this
      exact (List.nodup_append.1 (List.nodup_append.1 this).2.1).1
    rcases find_spec E h (rehash (E.keyHash key)) key l p hs with ⟨-, r2⟩ | ⟨l1, a, l2, x, rfl, -, r3, r4, r5, r6, r7⟩
    · have hl : Spec.lookup E.equals ps key = none := by
        rw [I.lookup_none L]
        intro a e he
        cases hk : E.equals key e.key with
        | false => rfl
        | true =>
          obtain ⟨h1, l', hl', ha⟩ := hown a e (I.mem_dom he) he hk
          rw [hli] at hl'
          simp at hl'
          subst hl'
          rw [r2 a ha e he h1] at hk
          cases hk
      rw [removeLoop_none E h m _ key i l p p hs (fun b hb e he hm => by rw [r2 b hb e he hm.1] at hm; cases hm.2), hsame hl, hl]
      exact ⟨h, m, chains, rfl, I⟩
    · have hl : Spec.lookup E.equals ps key = some x.value := (I.lookup L key _).2 ⟨a, x, r4, r6, rfl⟩
      rw [hl]
      rcases List.eq_nil_or_concat l1 with rfl | ⟨l1', c, rfl⟩
      · obtain ⟨rfl, -, x', hx', hs'⟩ := hs
        rw [r4] at hx'
        simp at hx'
        subst hx'
        rw [removeLoop_first E h m _ key i r3 r4 r5 r6]
        have hset : m.table.set i x.next = t1 ++ x.next :: t2 := by rw [e1, ← h1]; simp
        rw [hset]
        have hpl : p ∉ l2 := (List.nodup_cons.1 hnl).1
        refine ⟨_, _, c1 ++ l2 :: c2, rfl, removed I L r4 r6 e1 e2 (by omega) hs1 hs2 (List.Perm.refl _)
          (seg_congr (fun b hb => put_other _ _ (fun e => hpl (e ▸ hb))) hs') (put_same ..) ?_ ?_⟩
        · intro b hb; simp [core, put_other _ _ hb]
        · intro b hb; exact put_other _ _ (fun e => hb (by simp [e]))
      · rw [List.concat_eq_append, List.append_assoc] at hs hnl e2
        simp only [List.singleton_append] at hs hnl e2
        obtain ⟨r, hsa, rfl, hc0, y, hy, ra, -, x', hx', hsb⟩ := seg_append.1 hs
        rw [r4] at hx'
        simp at hx'
        subst hx'
        rw [removeLoop_mid E h m _ key i l1' p p r a l2 hs hnl (by rw [← List.concat_eq_append]; exact r7) x y r4 hy r5 r6]
        have hra : a ≠ r := by
          rintro rfl
          have := (List.nodup_append.1 hnl).2.1
          simp at this
        have hn1 : ∀ b ∈ l1', b ≠ r ∧ b ≠ a := by
          intro b hb
          have := (List.nodup_append.1 hnl).2.2 b hb
          exact ⟨this r (by simp), this a (by simp)⟩
        have hn2 : ∀ b ∈ l2, b ≠ r ∧ b ≠ a := by
          intro b hb
          have := (List.nodup_append.1 hnl).2.1
          simp only [List.nodup_cons, List.mem_cons, not_or] at this
          exact ⟨fun e => this.1.2 (e ▸ hb), fun e => this.2.1 (e ▸ hb)⟩
        have hrest : ∀ b, b ≠ r → b ≠ a → ((h.put r (some { y with next := x.next })).put a none) b = h b := by
          intro b h1 h2
          rw [put_other _ _ h2, put_other _ _ h1]
        refine ⟨_, _, c1 ++ (l1' ++ r :: l2) :: c2, rfl, ?_⟩
        have := removed I L r4 r6 (h' := (h.put r (some { y with next := x.next })).put a none) (p' := p) (l' := l1' ++ r :: l2) e1 e2 (by omega) hs1 hs2
          (by
            have : (l1' ++ r :: a :: l2) = (l1' ++ [r]) ++ a :: l2 := by simp
            rw [this]
            refine List.perm_middle.trans ?_
            simp)
          (seg_append.2 ⟨r, seg_congr (fun b hb => hrest b (hn1 b hb).1 (hn1 b hb).2) hsa, rfl, hc0, { y with next := x.next },
            by rw [put_other _ _ (Ne.symm hra), put_same], seg_congr (fun b hb => hrest b (hn2 b hb).1 (hn2 b hb).2) hsb⟩)
          (put_same ..)
          (by
            intro b hb
            by_cases hbr : b = r
            · subst hbr
              simp [core, put_other _ _ hb, put_same, hy]
            · simp [core, hrest b hbr hb])
          (by
            intro b hb
            exact hrest b (fun e => hb (by simp [e])) (fun e => hb (by simp [e])))
        rw [← e1] at this
        exact this

end C3.HashMap
