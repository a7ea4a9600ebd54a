import Verif.HashMap.LemmasOps

/-! # Helper lemmas: initializing, clearing, walking, iterating, copying -/

set_option autoImplicit false

namespace C3.HashMap

variable {K V : Type} {E : Env K} {h : Heap K V} {m : Map} {chains : List (List Nat)} {ps : List (K × V)}

/-! ## Initializing -/

theorem nextPower_spec {x : Nat} (hx : x ≤ 2 ^ 31) : ∀ n k, n + k = 31 → ∃ j ≤ 31, nextPower x (2 ^ k) = some (2 ^ j) ∧ k ≤ j := by
  intro n
  induction n with
  | zero =>
    intro k hk
    have : k = 31 := by omega
    subst this
    refine ⟨31, Nat.le_refl _, ?_, Nat.le_refl _⟩
    rw [nextPower, if_neg (by omega)]
  | succ n ih =>
    intro k hk
    rw [nextPower]
    by_cases hlt : 2 ^ k < x
    · rw [if_pos hlt]
      have e : (2 ^ k + 2 ^ k) % 2 ^ 32 = 2 ^ (k + 1) := by
        have : 2 ^ (k + 1) < 2 ^ 32 := Nat.pow_lt_pow_right (by decide) (by omega)
        rw [Nat.pow_succ] at this ⊢
        rw [Nat.mod_eq_of_lt (by omega)]
        omega
      rw [e]
      obtain ⟨j, h1, h2, h3⟩ := ih (k + 1) (by omega)
      exact ⟨j, h1, h2, by omega⟩
    · rw [if_neg hlt]
      exact ⟨k, by omega, rfl, Nat.le_refl _⟩

theorem init_spec (E : Env K) {capacity : Nat} (hc : capacity ≤ 2 ^ 31) :
    ∃ m chains, init E capacity = some m ∧ Inv E (noHeap : Heap K V) m chains [] := by
  obtain ⟨j, hj, e, -⟩ := nextPower_spec hc 31 0 rfl
  rw [init]
  have e : nextPower capacity 1 = some (2 ^ j) := e
  rw [e]
  refine ⟨_, List.replicate (2 ^ j) [], rfl, ⟨Tab.empty E noHeap hj, ?_, ?_, ?_, ?_, rfl, ?_⟩⟩
  · intro a
    simp [noHeap]
  · intro a b e e' he
    simp [noHeap] at he
  · simp
  · simp
  · simp [pairs]

/-! ## Clearing -/

theorem clearChain_spec : ∀ (l : List Nat) (h : Heap K V) (p : Nat), Seg h p l 0 → l.Nodup →
    ∃ h', clearChain h p = some h' ∧ (∀ a ∈ l, h' a = none) ∧ ∀ a ∉ l, h' a = h a := by
  intro l
  induction l with
  | nil =>
    intro h p hs _
    have : p = 0 := hs
    exact ⟨h, by rw [clearChain, if_pos this], by simp, fun _ _ => rfl⟩
  | cons b l ih =>
    rintro h p ⟨rfl, h2, e, h3, h4⟩ hn
    obtain ⟨hn1, hn2⟩ := List.nodup_cons.1 hn
    have hp : h.free p = some (h.put p none) := by rw [Heap.free, h3]; rfl
    obtain ⟨h', r1, r2, r3⟩ := ih (h.put p none) e.next (seg_congr (fun a ha => put_other _ _ (fun e => hn1 (e ▸ ha))) h4) hn2
    refine ⟨h', ?_, ?_, ?_⟩
    · rw [clearChain, if_neg h2, h3]
      simp only [hp]
      exact r1
    · intro a ha
      rcases List.mem_cons.1 ha with rfl | ha
      · rw [r3 a hn1, put_same]
      · exact r2 a ha
    · intro a ha
      simp only [List.mem_cons, not_or] at ha
      rw [r3 a ha.2, put_other _ _ ha.1]

theorem clearTable_spec : ∀ (t : List Nat) (c : List (List Nat)) (h : Heap K V), List.Forall₂ (fun p l => Seg h p l 0) t c → c.flatten.Nodup →
    ∃ h', clearTable h t = some (h', List.replicate t.length 0) ∧ (∀ a ∈ c.flatten, h' a = none) ∧ ∀ a ∉ c.flatten, h' a = h a := by
  intro t
  induction t with
  | nil =>
    intro c h hs _
    cases hs
    exact ⟨h, rfl, by simp, fun _ _ => rfl⟩
  | cons p t ih =>
    intro c h hs hn
    cases hs with
    | @cons _ l _ c hp hs =>
      rw [List.flatten_cons] at hn
      obtain ⟨hn1, hn2, hn3⟩ := List.nodup_append.1 hn
      by_cases hp0 : p = 0
      · subst hp0
        have := seg_null hp
        subst this
        obtain ⟨h', r1, r2, r3⟩ := ih c h hs hn2
        refine ⟨h', ?_, by simpa using r2, by simpa using r3⟩
        rw [clearTable, if_pos rfl, r1]
        simp [List.replicate_succ]
      · obtain ⟨l', rfl⟩ := seg_nonnull hp hp0
        obtain ⟨-, -, x, hx, hseg⟩ := hp
        obtain ⟨hm1, hm2⟩ := List.nodup_cons.1 hn1
        obtain ⟨h1, s1, s2, s3⟩ := clearChain_spec l' h x.next hseg hm2
        have hf : h1.free p = some (h1.put p none) := by rw [Heap.free, s3 p hm1, hx]; rfl
        have hsame : ∀ a ∈ c.flatten, (h1.put p none) a = h a := by
          intro a ha
          have : a ∉ p :: l' := fun hm => hn3 a hm a ha rfl
          simp only [List.mem_cons, not_or] at this
          rw [put_other _ _ this.1, s3 a this.2]
        obtain ⟨h', r1, r2, r3⟩ := ih c (h1.put p none) (forall2_congr hs hsame) hn2
        refine ⟨h', ?_, ?_, ?_⟩
        · rw [clearTable, if_neg hp0, hx]
          simp only [Option.bind_eq_bind, Option.bind_some, s1, hf, r1]
          simp [List.replicate_succ]
        · intro a ha
          rw [List.flatten_cons] at ha
          by_cases hc : a ∈ c.flatten
          · exact r2 a hc
          · rw [r3 a hc]
            rcases List.mem_append.1 ha with ha | ha
            · by_cases hap : a = p
              · rw [hap, put_same]
              · rw [put_other _ _ hap, s2 a (by simpa [hap] using ha)]
            · exact absurd ha hc
        · intro a ha
          rw [List.flatten_cons] at ha
          simp only [List.mem_append, List.mem_cons, not_or] at ha
          rw [r3 a ha.2, put_other _ _ ha.1.1, s3 a ha.1.2]

theorem clear_spec (I : Inv E h m chains ps) :
    ∃ m' chains', clear h m = some (noHeap, m') ∧ Inv E (noHeap : Heap K V) m' chains' [] := by
  rw [clear]
  by_cases hc : m.count = 0
  · rw [if_pos hc]
    have hcount := I.count
    have hnil : chains.flatten = [] := List.eq_nil_of_length_eq_zero (by omega)
    have hh : h = noHeap := by
      funext a
      have := I.dom a
      rw [hnil] at this
      cases hx : h a with
      | none => rfl
      | some x => rw [hx] at this; simp at this
    have hps := I.empty_of_count hc
    subst hps
    subst hh
    exact ⟨m, chains, rfl, I⟩
  · rw [if_neg hc]
    obtain ⟨h', r1, r2, r3⟩ := clearTable_spec m.table chains h I.tab.segs I.tab.nodup
    have hh : h' = noHeap := by
      funext a
      by_cases ha : a ∈ chains.flatten
      · exact r2 a ha
      · rw [r3 a ha]
        cases hx : h a with
        | none => rfl
        | some x => exact absurd (I.mem_dom hx) ha
    subst hh
    rw [r1]
    obtain ⟨k, hk, e⟩ := I.tab.cap
    rw [e]
    refine ⟨_, List.replicate (2 ^ k) [], rfl, ⟨Tab.empty E noHeap hk, ?_, ?_, ?_, ?_, I.alive, ?_⟩⟩
    · intro a
      simp [noHeap]
    · intro a b e e' he
      simp [noHeap] at he
    · simp
    · simp
    · simp [pairs]

/-! ## Walking -/

/-- The entries at the addresses. -/
def entries (h : Heap K V) : List Nat → List (Entry K V)
  | [] => []
  | a :: l => (h a).toList ++ entries h l

theorem entries_append (h : Heap K V) (a b : List Nat) : entries h (a ++ b) = entries h a ++ entries h b := by
  induction a with
  | nil => rfl
  | cons x a ih => simp [entries, ih]

theorem entries_pairs (h : Heap K V) (l : List Nat) : (entries h l).map (fun e => (e.key, e.value)) = pairs h l := by
  induction l with
  | nil => rfl
  | cons a l ih =>
    unfold pairs at ih ⊢
    rw [List.filterMap_cons, ← ih, entries]
    cases h a <;> simp

theorem walk_spec : ∀ (l : List Nat) (p : Nat), Seg h p l 0 → walk h p = some (entries h l) := by
  intro l
  induction l with
  | nil =>
    intro p hs
    have : p = 0 := hs
    rw [walk, if_pos this]
    rfl
  | cons a l ih =>
    rintro p ⟨rfl, h2, e, h3, h4⟩
    rw [walk, if_neg h2, h3]
    simp only [Option.bind_eq_bind, ih _ h4, Option.bind_some, entries, h3]
    rfl

theorem walkTable_spec : ∀ (t : List Nat) (c : List (List Nat)), List.Forall₂ (fun p l => Seg h p l 0) t c →
    walkTable h t = some (entries h c.flatten) := by
  intro t
  induction t with
  | nil =>
    intro c hs
    cases hs
    rfl
  | cons p t ih =>
    intro c hs
    cases hs with
    | @cons _ l _ c hp hs =>
      rw [walkTable, walk_spec l p hp, Option.bind_eq_bind, Option.bind_some, ih c hs]
      simp [entries_append]

/-- The entries in the order of the table. -/
theorem each_spec (I : Inv E h m chains ps) :
    ∃ es, each_entry h m = some es ∧ es = entries h chains.flatten ∧ (es.map fun e => (e.key, e.value)).Perm ps ∧
      keys h m = some (es.map (·.key)) ∧ values h m = some (es.map (·.value)) := by
  have hw := walkTable_spec m.table chains I.tab.segs
  have hpairs : (entries h chains.flatten).map (fun e => (e.key, e.value)) = pairs h chains.flatten := entries_pairs h _
  have hlen : (entries h chains.flatten).length = m.count := by
    have := congrArg List.length hpairs
    rw [List.length_map, I.holds.length_eq, ← I.length, ← I.count] at this
    exact this
  refine ⟨_, ?_, rfl, ?_, ?_, ?_⟩
  · rw [each_entry]
    by_cases hc : m.count = 0
    · rw [if_pos hc]
      rw [hc] at hlen
      rw [List.eq_nil_of_length_eq_zero hlen]
    · rw [if_neg hc, hw]
  · rw [hpairs]; exact I.holds
  · rw [keys]
    by_cases hc : m.count = 0
    · rw [if_pos hc]
      rw [hc] at hlen
      rw [List.eq_nil_of_length_eq_zero hlen]
      rfl
    · rw [if_neg hc, hw]
      simp only [Option.bind_some, store]
      rw [if_pos (by rw [List.length_map, hlen])]
  · rw [values]
    by_cases hc : m.count = 0
    · rw [if_pos hc]
      rw [hc] at hlen
      rw [List.eq_nil_of_length_eq_zero hlen]
      rfl
    · rw [if_neg hc, hw]
      simp only [Option.bind_some, store]
      rw [if_pos (by rw [List.length_map, hlen])]

/-! ## Iterating -/

/-- Where an iterator stands: `D` was passed, the current entry is the first of `L`. -/
def At (h : Heap K V) (chains : List (List Nat)) (it : Iter) (D L : List Nat) : Prop :=
  it.top_index ≤ chains.length ∧ (chains.take it.top_index).flatten = D ++ L ∧ Seg h it.current L 0 ∧
    it.index = (D.length : Int) + (if L = [] then 0 else 1) - 1

/-- Between two calls: at the start, or at an entry. -/
def Rest (h : Heap K V) (chains : List (List Nat)) (it : Iter) : Prop :=
  it = iter ∨ ∃ D L, At h chains it D L ∧ L ≠ []

theorem iterLoop_spec (T : Tab E h m.table chains) {idx : Nat} (hidx : idx < chains.flatten.length) : ∀ (n : Nat) (it : Iter) (D L : List Nat),
    (chains.length - it.top_index) + (chains.flatten.length - D.length) ≤ n → At h chains it D L →
    (it.index < idx ∨ (it.index = idx ∧ L ≠ [])) →
    ∃ it' D' L', iterLoop h m.table idx it = some it' ∧ At h chains it' D' L' ∧ L' ≠ [] ∧ it'.index = idx := by
  intro n
  induction n with
  | zero =>
    intro it D L hn hat hor
    obtain ⟨h1, h2, h3, h4⟩ := hat
    rcases hor with hlt | ⟨he, hl⟩
    · exfalso
      have : (D ++ L).length ≤ chains.flatten.length := by
        rw [← h2]
        have : chains.flatten = (chains.take it.top_index).flatten ++ (chains.drop it.top_index).flatten := by
          rw [← List.flatten_append, List.take_append_drop]
        rw [this]; simp
      rw [List.length_append] at this
      have hL : L = [] := List.eq_nil_of_length_eq_zero (by omega)
      rw [hL, if_pos rfl] at h4
      omega
    · exact ⟨it, D, L, by rw [iterLoop, if_neg (by simpa using he)], ⟨h1, h2, h3, h4⟩, hl, he⟩
  | succ n ih =>
    intro it D L hn hat hor
    obtain ⟨h1, h2, h3, h4⟩ := hat
    rcases hor with hlt | ⟨he, hl⟩
    · rw [iterLoop, if_pos (by omega)]
      have hsub : chains.flatten = (chains.take it.top_index).flatten ++ (chains.drop it.top_index).flatten := by
        rw [← List.flatten_append, List.take_append_drop]
      have hle : (D ++ L).length ≤ chains.flatten.length := by
        rw [← h2, hsub]; simp
      rw [List.length_append] at hle
      by_cases hc : it.current = 0
      · rw [hc] at h3
        have hL := seg_null h3
        subst hL
        rw [if_neg (by simpa using hc)]
        rw [if_pos rfl] at h4
        rw [List.append_nil] at h2
        have htop : it.top_index < chains.length := by
          by_contra hcon
          have e : it.top_index = chains.length := by omega
          rw [e, List.take_length] at h2
          rw [h2] at hidx
          omega
        have hlen := T.length
        have htt : m.table[it.top_index]? = some (m.table[it.top_index]'(by omega)) := List.getElem?_eq_getElem _
        rw [htt]
        simp only
        have hseg : Seg h (m.table[it.top_index]'(by omega)) (chains[it.top_index]) 0 := T.segs.get (by omega) htop
        have htake : (chains.take (it.top_index + 1)).flatten = D ++ chains[it.top_index] := by
          rw [List.take_add_one, List.getElem?_eq_getElem htop, List.flatten_append, h2]
          simp
        by_cases he0 : m.table[it.top_index]'(by omega) = 0
        · rw [if_neg (by simpa using he0)]
          rw [he0] at hseg ⊢
          have hnil := seg_null hseg
          rw [hnil] at htake
          refine ih _ D [] ?_ ⟨htop, htake, by simp [Seg], by simp [h4]⟩ (.inl hlt)
          simp only; omega
        · rw [if_pos he0]
          obtain ⟨l', hl'⟩ := seg_nonnull hseg he0
          refine ih _ D (chains[it.top_index]) ?_ ⟨htop, htake, hseg, ?_⟩ ?_
          · simp only; omega
          · rw [hl', if_neg (by simp)]
            simp only
            omega
          · by_cases hlast : it.index + 1 = idx
            · exact .inr ⟨hlast, by rw [hl']; simp⟩
            · left
              show it.index + 1 < idx
              omega
      · rw [if_pos hc]
        obtain ⟨L', rfl⟩ := seg_nonnull h3 hc
        obtain ⟨-, -, x, hx, hseg⟩ := h3
        rw [hx]
        simp only
        rw [if_neg (by simp)] at h4
        have hlen : (D ++ [it.current]).length = D.length + 1 := by simp
        rw [List.length_cons] at hle
        by_cases hn0 : x.next = 0
        · rw [if_neg (by simpa using hn0)]
          rw [hn0] at hseg ⊢
          have hnil := seg_null hseg
          subst hnil
          refine ih _ (D ++ [it.current]) [] ?_ ⟨h1, by simpa using h2, by simp [Seg], ?_⟩ (.inl hlt)
          · rw [hlen]; simp only; omega
          · rw [if_pos rfl, hlen]; simp only; omega
        · rw [if_pos hn0]
          obtain ⟨l', rfl⟩ := seg_nonnull hseg hn0
          refine ih _ (D ++ [it.current]) _ ?_ ⟨h1, by simpa using h2, hseg, ?_⟩ ?_
          · rw [hlen]; simp only; omega
          · rw [if_neg (by simp), hlen]; simp only; omega
          · by_cases hlast : it.index + 1 = idx
            · exact .inr ⟨hlast, by simp⟩
            · left
              show it.index + 1 < idx
              omega
    · exact ⟨it, D, L, by rw [iterLoop, if_neg (by simpa using he)], ⟨h1, h2, h3, h4⟩, hl, he⟩

theorem iterGet_spec (T : Tab E h m.table chains) {idx : Nat} {it : Iter} (hr : Rest h chains it) {e : Entry K V}
    (he : (entries h chains.flatten)[idx]? = some e) :
    ∃ it', iterGet h m it idx = some (it', e) ∧ Rest h chains it' := by
  have hall : ∀ l : List Nat, (∀ a ∈ l, a ∈ chains.flatten) → ∀ i : Nat, (entries h l)[i]? = (l[i]?).bind (fun a => h a) := by
    intro l
    induction l with
    | nil => intro _ i; simp [entries]
    | cons a l ih =>
      intro hl i
      obtain ⟨-, x, hx⟩ := T.mem (hl a (by simp))
      rw [entries, hx]
      cases i with
      | zero => simp [hx]
      | succ i => simpa using ih (fun b hb => hl b (by simp [hb])) i
  rw [hall _ (fun a ha => ha)] at he
  have hidx : idx < chains.flatten.length := by
    by_contra hc
    rw [List.getElem?_eq_none (by omega)] at he
    cases he
  have hstart : At h chains iter [] [] := ⟨by simp [iter], by simp [iter], rfl, by simp [iter]⟩
  have hbegin : ∃ D L, At h chains (if (idx : Int) < it.index then iter else it) D L ∧
      ((if (idx : Int) < it.index then iter else it).index < idx ∨ ((if (idx : Int) < it.index then iter else it).index = idx ∧ L ≠ [])) := by
    by_cases hlt : (idx : Int) < it.index
    · rw [if_pos hlt]
      exact ⟨[], [], hstart, .inl (by show (-1 : Int) < _; omega)⟩
    · rw [if_neg hlt]
      rcases hr with rfl | ⟨D, L, hat, hl⟩
      · exact ⟨[], [], hstart, .inl (by show (-1 : Int) < _; omega)⟩
      · refine ⟨D, L, hat, ?_⟩
        by_cases heq : it.index = idx
        · exact .inr ⟨heq, hl⟩
        · exact .inl (by omega)
  obtain ⟨D, L, hat, hor⟩ := hbegin
  obtain ⟨it', D', L', r1, r2, r3, r4⟩ := iterLoop_spec T hidx _ _ D L (Nat.le_refl _) hat hor
  obtain ⟨s1, s2, s3, s4⟩ := r2
  rw [if_neg r3] at s4
  obtain ⟨a, L'', rfl⟩ := List.exists_cons_of_ne_nil r3
  have hcur : it'.current = a := s3.1
  have hD : D'.length = idx := by omega
  have hget : chains.flatten[idx]? = some a := by
    have hsub : chains.flatten = (chains.take it'.top_index).flatten ++ (chains.drop it'.top_index).flatten := by
      rw [← List.flatten_append, List.take_append_drop]
    rw [hsub, s2, ← hD]
    simp
  rw [hget] at he
  have he : h a = some e := he
  refine ⟨it', ?_, .inr ⟨D', _, ⟨s1, s2, s3, by rw [if_neg r3]; omega⟩, r3⟩⟩
  rw [iterGet]
  simp only [Option.bind_eq_bind, r1, Option.bind_some, hcur, he]

/-! ## Copying -/

theorem put_for_create_spec (I : Inv E h m chains ps) (L : Lawful E) {key : K} (hl : Spec.lookup E.equals ps key = none) (value : V) {new : Nat}
    (hn0 : new ≠ 0) (hnew : h new = none) (hsmall : ps.length + 1 < 2 ^ 32) :
    ∃ h' m' chains', put_for_create E h m key value new = some (h', m') ∧ (∀ a, a ≠ new → h' a = h a) ∧
      Inv E h' m' chains' ((key, value) :: ps) := by
  obtain ⟨p, c', hp, I'⟩ := new_entry I L hl value hn0 hnew hsmall
  obtain ⟨p', r, h1, h2, h3⟩ := find_key I L key
  rw [hp] at h1
  simp at h1
  subst h1
  rcases h3 with ⟨rfl, -⟩ | ⟨-, e, -, -, hl'⟩
  · rw [put_for_create]
    simp only [Option.bind_eq_bind, Option.bind_some, hp, h2]
    rw [if_neg (by simp), create_entry, hp]
    exact ⟨_, _, c', rfl, fun a ha => put_other _ _ ha, I'⟩
  · rw [hl] at hl'
    cases hl'

theorem putAll_spec (L : Lawful E) : ∀ (es : List (Entry K V)) (news : List Nat) {h : Heap K V} {m : Map} {chains : List (List Nat)} {ps : List (K × V)},
    Inv E h m chains ps → es.length ≤ news.length → news.Nodup → (∀ a ∈ news, a ≠ 0 ∧ h a = none) → ps.length + es.length < 2 ^ 32 →
    es.Pairwise (fun e e' => E.equals e.key e'.key = false) → (∀ e ∈ es, Spec.lookup E.equals ps e.key = none) →
    ∃ h' m' chains', putAll E h m es news = some (h', m') ∧ Inv E h' m' chains' (((es.map fun e => (e.key, e.value)).reverse) ++ ps) := by
  intro es
  induction es with
  | nil =>
    intro news h m chains ps I _ _ _ _ _ _
    exact ⟨h, m, chains, by rw [putAll], by simpa using I⟩
  | cons e es ih =>
    intro news h m chains ps I hlen hnd hfree hsmall hpw hlook
    obtain ⟨new, news, rfl⟩ : ∃ a b, news = a :: b := by
      cases news with
      | nil => simp at hlen
      | cons a b => exact ⟨a, b, rfl⟩
    obtain ⟨hn1, hn2⟩ := List.nodup_cons.1 hnd
    obtain ⟨hp1, hp2⟩ := List.pairwise_cons.1 hpw
    obtain ⟨h', m', c', r1, r2, r3⟩ := put_for_create_spec I L (hlook e (by simp)) e.value (hfree new (by simp)).1 (hfree new (by simp)).2
      (by simp at hsmall; omega)
    rw [putAll, r1]
    simp only [Option.bind_eq_bind, Option.bind_some]
    obtain ⟨h'', m'', c'', s1, s2⟩ := ih news r3 (by simpa using hlen) hn2 (by
      intro a ha
      rw [r2 a (fun e => hn1 (e ▸ ha))]
      exact hfree a (by simp [ha])) (by simp at hsmall ⊢; omega) hp2 (by
      intro x hx
      have h1 := hlook x (by simp [hx])
      have h2 := hp1 x hx
      unfold Spec.lookup at h1 ⊢
      rw [List.find?_cons]
      have : E.equals x.key e.key = false := by
        cases hc : E.equals x.key e.key with
        | false => rfl
        | true => rw [L.symm _ _ hc] at h2; cases h2
      rw [this]
      exact h1)
    exact ⟨h'', m'', c'', s1, by simpa using s2⟩

theorem init_from_map_spec (I : Inv E h m chains ps) (L : Lawful E) (E' : Env K) (hE : E'.keyHash = E.keyHash ∧ E'.equals = E.equals) {news : List Nat} (hlen : m.count ≤ news.length)
    (hnd : news.Nodup) (h0 : 0 ∉ news) :
    ∃ h' m' chains' qs, init_from_map E' h m news = some (h', m') ∧ Inv E' h' m' chains' qs ∧ qs.Perm ps := by
  have L' : Lawful E' := by
    constructor
    · rw [hE.2]; exact L.refl
    · rw [hE.2]; exact L.symm
    · rw [hE.2]; exact L.trans
    · rw [hE.2, hE.1]; exact L.hash
  obtain ⟨k, hk, ek⟩ := I.tab.cap
  obtain ⟨m0, c0, r1, I0⟩ := init_spec (V := V) E' (capacity := m.table.length) (by rw [ek]; exact Nat.pow_le_pow_right (by decide) hk)
  obtain ⟨es, q1, rfl, q3, -, -⟩ := each_spec I
  rw [init_from_map, r1]
  simp only [Option.bind_eq_bind, Option.bind_some, q1]
  have hcount : (entries h chains.flatten).length = m.count := by
    have := q3.length_eq
    rw [List.length_map] at this
    rw [this, I.count, I.length]
  have hpw : (entries h chains.flatten).Pairwise (fun e e' => E'.equals e.key e'.key = false) := by
    have h1 : ((entries h chains.flatten).map fun e => (e.key, e.value)).Pairwise fun p q => E.equals p.1 q.1 = false := by
      refine (q3.pairwise_iff ?_).2 (I.pairwise L)
      intro p q hpq
      cases hc : E.equals q.1 p.1 with
      | false => rfl
      | true => rw [L.symm _ _ hc] at hpq; cases hpq
    rw [List.pairwise_map] at h1
    rw [hE.2]
    exact h1
  obtain ⟨h', m', c', s1, s2⟩ := putAll_spec L' (entries h chains.flatten) news I0 (by omega) hnd
    (fun a ha => ⟨fun e => h0 (e ▸ ha), rfl⟩)
    (by rw [hcount, I.count]; simpa using I.small) hpw (by intro e he; rfl)
  refine ⟨h', m', c', _, s1, s2, ?_⟩
  rw [List.append_nil]
  exact (List.reverse_perm _).trans q3

end C3.HashMap
