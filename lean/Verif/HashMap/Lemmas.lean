import Verif.HashMap.Spec
import Mathlib.Data.List.Forall2
import Mathlib.Data.List.Perm.Basic

/-! # Helper lemmas: chains in the heap and the table over them -/

set_option autoImplicit false

namespace C3.HashMap

variable {K V : Type}

/-! ## The heap -/

theorem put_same (h : Heap K V) (p : Nat) (e : Option (Entry K V)) : h.put p e p = e := by simp [Heap.put]
theorem put_other (h : Heap K V) {p a : Nat} (e : Option (Entry K V)) (hne : a ≠ p) : h.put p e a = h a := by simp [Heap.put, hne]

/-- What a move of an entry to another chain keeps. -/
def core (h : Heap K V) (a : Nat) : Option (BitVec 32 × K × V) := (h a).map fun e => (e.hash, e.key, e.value)

/-- The pairs of the entries at these addresses. -/
def pairs (h : Heap K V) (l : List Nat) : List (K × V) := l.filterMap fun a => (h a).map fun e => (e.key, e.value)

theorem pairs_congr {h h' : Heap K V} {l : List Nat} (hc : ∀ a ∈ l, core h a = core h' a) : pairs h l = pairs h' l := by
  unfold pairs
  apply List.filterMap_congr
  intro a ha
  have := hc a ha
  unfold core at this
  cases h1 : h a <;> cases h2 : h' a <;> rw [h1, h2] at this <;> simp at this ⊢
  exact ⟨this.2.1, this.2.2⟩

theorem pairs_perm (h : Heap K V) {l l' : List Nat} (hp : l.Perm l') : (pairs h l).Perm (pairs h l') := hp.filterMap _

/-! ## Chains -/

/-- From `p` the entries `l` follow each other, and `q` follows them. -/
def Seg (h : Heap K V) : Nat → List Nat → Nat → Prop
  | p, [], q => p = q
  | p, a :: l, q => p = a ∧ a ≠ 0 ∧ ∃ e, h a = some e ∧ Seg h e.next l q

theorem seg_append {h : Heap K V} {l1 l2 : List Nat} {p q : Nat} : Seg h p (l1 ++ l2) q ↔ ∃ r, Seg h p l1 r ∧ Seg h r l2 q := by
  induction l1 generalizing p with
  | nil => simp [Seg]
  | cons a l1 ih =>
    simp only [List.cons_append, Seg]
    constructor
    · rintro ⟨h1, h2, e, h3, h4⟩
      obtain ⟨r, h5, h6⟩ := ih.1 h4
      exact ⟨r, ⟨h1, h2, e, h3, h5⟩, h6⟩
    · rintro ⟨r, ⟨h1, h2, e, h3, h4⟩, h5⟩
      exact ⟨h1, h2, e, h3, ih.2 ⟨r, h4, h5⟩⟩

theorem seg_congr {h h' : Heap K V} {l : List Nat} {p q : Nat} (hc : ∀ a ∈ l, h' a = h a) (hs : Seg h p l q) : Seg h' p l q := by
  induction l generalizing p with
  | nil => exact hs
  | cons a l ih =>
    obtain ⟨h1, h2, e, h3, h4⟩ := hs
    exact ⟨h1, h2, e, by rw [hc a (by simp), h3], ih (fun x hx => hc x (by simp [hx])) h4⟩

theorem seg_mem {h : Heap K V} {l : List Nat} {p q : Nat} (hs : Seg h p l q) {a : Nat} (ha : a ∈ l) : a ≠ 0 ∧ ∃ e, h a = some e := by
  induction l generalizing p with
  | nil => simp at ha
  | cons b l ih =>
    obtain ⟨h1, h2, e, h3, h4⟩ := hs
    rcases List.mem_cons.1 ha with rfl | ha
    · exact ⟨h2, e, h3⟩
    · exact ih h4 ha

theorem seg_null {h : Heap K V} {l : List Nat} {q : Nat} (hs : Seg h 0 l q) : l = [] := by
  cases l with
  | nil => rfl
  | cons a l => exact absurd hs.1.symm hs.2.1

theorem seg_nonnull {h : Heap K V} {l : List Nat} {p : Nat} (hs : Seg h p l 0) (hp : p ≠ 0) : ∃ l', l = p :: l' := by
  cases l with
  | nil => exact absurd hs hp
  | cons a l => exact ⟨l, by rw [hs.1]⟩

/-! ## Buckets -/

theorem index_for_eq (hash : BitVec 32) {k : Nat} (hk : k ≤ 31) : index_for hash (2 ^ k) = hash.toNat % 2 ^ k := by
  have hlt : 2 ^ k < 2 ^ 32 := Nat.pow_lt_pow_right (by decide) (by omega)
  have hpos : 0 < 2 ^ k := Nat.two_pow_pos k
  have e : (BitVec.ofNat 32 (2 ^ k) - 1#32).toNat = 2 ^ k - 1 := by
    rw [BitVec.toNat_sub, BitVec.toNat_ofNat, BitVec.toNat_ofNat, Nat.mod_eq_of_lt hlt]
    have : (2 ^ 32 - 1 % 2 ^ 32 + 2 ^ k) = (2 ^ k - 1) + 2 ^ 32 := by omega
    rw [this, Nat.add_mod_right, Nat.mod_eq_of_lt (by omega)]
  rw [index_for, BitVec.toNat_and, e, Nat.and_two_pow_sub_one_eq_mod]

theorem index_for_lt (hash : BitVec 32) {n k : Nat} (hk : k ≤ 31) (hn : n = 2 ^ k) : index_for hash n < n := by
  subst hn
  rw [index_for_eq hash hk]
  exact Nat.mod_lt _ (Nat.two_pow_pos k)

/-- The table and its chains. -/
structure Tab (E : Env K) (h : Heap K V) (table : List Nat) (chains : List (List Nat)) : Prop where
  segs : List.Forall₂ (fun p l => Seg h p l 0) table chains
  nodup : chains.flatten.Nodup
  bucket : ∀ i l, chains[i]? = some l → ∀ a ∈ l, ∀ e, h a = some e →
    e.hash = rehash (E.keyHash e.key) ∧ index_for e.hash table.length = i
  cap : ∃ k ≤ 31, table.length = 2 ^ k

variable {E : Env K} {h : Heap K V} {table : List Nat} {chains : List (List Nat)}

theorem Tab.length (T : Tab E h table chains) : table.length = chains.length := T.segs.length_eq

theorem Tab.index_lt (T : Tab E h table chains) (hash : BitVec 32) : index_for hash table.length < table.length := by
  obtain ⟨k, hk, e⟩ := T.cap
  exact index_for_lt hash hk e

/-- The table and the chains taken apart at a bucket. -/
theorem Tab.split (T : Tab E h table chains) {i : Nat} (hi : i < table.length) :
    ∃ t1 p t2 c1 l c2, table = t1 ++ p :: t2 ∧ chains = c1 ++ l :: c2 ∧ t1.length = i ∧ c1.length = i ∧ Seg h p l 0 ∧
      List.Forall₂ (fun p l => Seg h p l 0) t1 c1 ∧ List.Forall₂ (fun p l => Seg h p l 0) t2 c2 := by
  have hlen := T.length
  have hi' : i < chains.length := by omega
  have e1 : table = table.take i ++ table[i] :: table.drop (i + 1) := by simp
  have e2 : chains = chains.take i ++ chains[i] :: chains.drop (i + 1) := by simp
  have hs := T.segs
  have hsi : Seg h table[i] chains[i] 0 := hs.get hi hi'
  exact ⟨_, _, _, _, _, _, e1, e2, by simp; omega, by simp; omega, hsi, List.forall₂_take i hs, List.forall₂_drop (i + 1) hs⟩

theorem forall2_congr {h h' : Heap K V} {t : List Nat} {c : List (List Nat)} (hs : List.Forall₂ (fun p l => Seg h p l 0) t c)
    (hc : ∀ a ∈ c.flatten, h' a = h a) : List.Forall₂ (fun p l => Seg h' p l 0) t c := by
  induction hs with
  | nil => exact .nil
  | cons hd _ ih =>
    refine .cons (seg_congr (fun a ha => hc a (by simp [ha])) hd) (ih fun a ha => hc a ?_)
    simp only [List.flatten_cons, List.mem_append]
    exact .inr ha

theorem Tab.congr {h' : Heap K V} (T : Tab E h table chains) (hc : ∀ a ∈ chains.flatten, h' a = h a) : Tab E h' table chains where
  segs := forall2_congr T.segs hc
  nodup := T.nodup
  bucket := fun i l hl a ha e he => T.bucket i l hl a ha e (by
    rw [← hc a (List.mem_flatten.2 ⟨l, List.mem_of_getElem? hl, ha⟩), he])
  cap := T.cap

theorem Tab.mem (T : Tab E h table chains) {a : Nat} (ha : a ∈ chains.flatten) : a ≠ 0 ∧ ∃ e, h a = some e := by
  obtain ⟨l, hl, hal⟩ := List.mem_flatten.1 ha
  obtain ⟨i, hi, rfl⟩ := List.mem_iff_getElem.1 hl
  have hlen := T.length
  exact seg_mem (T.segs.get (by omega) hi) hal

/-- A new entry at the head of its bucket. -/
theorem Tab.push (T : Tab E h table chains) {a : Nat} (ha : a ∉ chains.flatten) (ha0 : a ≠ 0) (key : K) (value : V) {hash : BitVec 32}
    (hh : hash = rehash (E.keyHash key)) :
    ∃ p chains', table[index_for hash table.length]? = some p ∧
      Tab E (h.put a (some ⟨hash, key, value, p⟩)) (table.set (index_for hash table.length) a) chains' ∧
      chains'.flatten.Perm (a :: chains.flatten) := by
  have hi := T.index_lt hash
  generalize hidx : index_for hash table.length = i at hi ⊢
  obtain ⟨t1, p, t2, c1, l, c2, e1, e2, h1, h2, hs, hs1, hs2⟩ := T.split hi
  have hperm : (c1 ++ (a :: l) :: c2).flatten.Perm (a :: chains.flatten) := by
    rw [e2]
    simp only [List.flatten_append, List.flatten_cons, List.cons_append]
    exact List.perm_middle
  have hout : ∀ b ∈ chains.flatten, h.put a (some ⟨hash, key, value, p⟩) b = h b := fun b hb =>
    put_other _ _ (fun e => ha (e ▸ hb))
  have hset : table.set i a = t1 ++ a :: t2 := by
    rw [e1, ← h1]
    simp
  refine ⟨p, c1 ++ (a :: l) :: c2, ?_, ?_, hperm⟩
  · rw [e1, ← h1]; simp
  · have hmem : ∀ x, x ∈ c1.flatten ∨ x ∈ l ∨ x ∈ c2.flatten → x ∈ chains.flatten := by
      intro x hx
      rw [e2]
      simp only [List.flatten_append, List.flatten_cons, List.mem_append]
      exact hx
    constructor
    · rw [hset]
      refine List.rel_append (forall2_congr hs1 fun b hb => hout b (hmem b (.inl hb))) (.cons ⟨rfl, ha0, _, put_same .., ?_⟩
        (forall2_congr hs2 fun b hb => hout b (hmem b (.inr (.inr hb)))))
      exact seg_congr (fun b hb => hout b (hmem b (.inr (.inl hb)))) hs
    · exact hperm.nodup_iff.2 (List.nodup_cons.2 ⟨ha, T.nodup⟩)
    · intro j lj hj b hb e he
      rw [List.length_set]
      by_cases hba : b = a
      · subst hba
        rw [put_same] at he
        simp only [Option.some.injEq] at he
        subst he
        refine ⟨hh, ?_⟩
        show index_for hash table.length = j
        rw [hidx]
        -- `b` stands only in bucket `i`
        by_cases hij : j = i
        · exact hij.symm
        · exfalso
          have : chains[j]? = some lj := by
            rw [e2]
            rw [← h2] at hij
            rw [List.getElem?_append] at hj ⊢
            split
            · rw [if_pos (by assumption)] at hj; exact hj
            · rw [if_neg (by assumption)] at hj
              have : j - c1.length = (j - c1.length - 1) + 1 := by omega
              rw [this, List.getElem?_cons_succ] at hj ⊢
              exact hj
          exact ha (List.mem_flatten.2 ⟨lj, List.mem_of_getElem? this, hb⟩)
      · rw [put_other _ _ hba] at he
        by_cases hij : j = i
        · subst hij
          rw [← h2] at hj
          simp at hj
          subst hj
          have hbl : b ∈ l := by
            rcases List.mem_cons.1 hb with rfl | hb
            · exact absurd rfl hba
            · exact hb
          exact T.bucket j l (by rw [e2, ← h2]; simp) b hbl e he
        · have : chains[j]? = some lj := by
            rw [e2]
            rw [← h2] at hij
            rw [List.getElem?_append] at hj ⊢
            split
            · rw [if_pos (by assumption)] at hj; exact hj
            · rw [if_neg (by assumption)] at hj
              have : j - c1.length = (j - c1.length - 1) + 1 := by omega
              rw [this, List.getElem?_cons_succ] at hj ⊢
              exact hj
          exact T.bucket j lj this b hb e he
    · rw [List.length_set]; exact T.cap

/-- An empty table. -/
theorem Tab.empty (E : Env K) (h : Heap K V) {k : Nat} (hk : k ≤ 31) : Tab E h (List.replicate (2 ^ k) 0) (List.replicate (2 ^ k) []) where
  segs := by
    rw [List.forall₂_iff_get]
    refine ⟨by simp, ?_⟩
    intro i h1 h2
    simp [Seg]
  nodup := by simp
  bucket := by
    intro i l hl a ha
    have := List.eq_of_mem_replicate (List.mem_of_getElem? hl)
    rw [this] at ha
    simp at ha
  cap := ⟨k, hk, by simp⟩

/-! ## Moving to a larger table -/

theorem transferChain_spec (T : Tab E h table chains) (a : Nat) (l : List Nat) (hs : Seg h a (a :: l) 0)
    (hn : (a :: l).Nodup) (hd : ∀ b ∈ a :: l, b ∉ chains.flatten)
    (hh : ∀ b ∈ a :: l, ∀ e, h b = some e → e.hash = rehash (E.keyHash e.key)) :
    ∃ h' table' chains', transferChain h table a = some (h', table') ∧ Tab E h' table' chains' ∧
      chains'.flatten.Perm ((a :: l) ++ chains.flatten) ∧ (∀ b, core h' b = core h b) ∧ (∀ b ∉ a :: l, b ∉ chains.flatten → h' b = h b) ∧
      table'.length = table.length := by
  induction l generalizing h table chains a with
  | nil =>
    obtain ⟨-, h2, e, h3, h4⟩ := hs
    obtain ⟨p, chains', hp, T', hperm⟩ := T.push (hd a (by simp)) h2 e.key e.value (hh a (by simp) e h3)
    rw [transferChain, h3]
    simp only [hp]
    rw [if_neg (by simpa [Seg] using h4)]
    refine ⟨_, _, chains', rfl, T', by simpa using hperm, ?_, ?_, by simp⟩
    · intro b
      by_cases hb : b = a
      · subst hb; simp [core, put_same, h3]
      · simp [core, put_other _ _ hb]
    · intro b hb _
      exact put_other _ _ (by simpa using hb)
  | cons c l ih =>
    obtain ⟨-, h2, e, h3, h4⟩ := hs
    obtain ⟨p, chains', hp, T', hperm⟩ := T.push (hd a (by simp)) h2 e.key e.value (hh a (by simp) e h3)
    have hcn : e.next = c := h4.1
    have hc0 : c ≠ 0 := h4.2.1
    rw [transferChain, h3]
    simp only [hp]
    rw [if_pos (by rw [hcn]; exact hc0), hcn]
    rw [hcn] at h4
    have hna : ∀ b ∈ c :: l, b ≠ a := by
      rintro b hb rfl
      exact (List.nodup_cons.1 hn).1 hb
    have hh' : ∀ b ∈ c :: l, (h.put a (some { e with next := p })) b = h b := fun b hb => put_other _ _ (hna b hb)
    obtain ⟨h', table', chains'', r1, r2, r3, r4, r5, r6⟩ := ih (h := h.put a (some { e with next := p })) T' c
      (seg_congr hh' h4) (List.nodup_cons.1 hn).2
      (by
        intro b hb hm
        rcases List.mem_cons.1 (hperm.mem_iff.1 hm) with hx | hx
        · exact hna b hb hx
        · exact hd b (by simp only [List.mem_cons] at hb ⊢; exact .inr hb) hx)
      (by
        intro b hb x hx
        rw [hh' b hb] at hx
        exact hh b (by simp only [List.mem_cons] at hb ⊢; exact .inr hb) x hx)
    refine ⟨h', table', chains'', r1, r2, ?_, ?_, ?_, by rw [r6]; simp⟩
    · refine r3.trans ?_
      refine (List.Perm.append_left _ hperm).trans ?_
      exact List.perm_middle
    · intro b
      rw [r4]
      by_cases hb : b = a
      · subst hb; simp [core, put_same, h3]
      · simp [core, put_other _ _ hb]
    · intro b hb hb2
      have hba : b ≠ a := fun hx => hb (by simp [hx])
      rw [r5 b (fun hx => hb (by simp only [List.mem_cons] at hx ⊢; exact .inr hx)) ?_, put_other _ _ hba]
      intro hx
      rcases List.mem_cons.1 (hperm.mem_iff.1 hx) with hx | hx
      · exact hba hx
      · exact hb2 hx

theorem transfer_spec (src : List Nat) : ∀ {h : Heap K V} {table : List Nat} {chains : List (List Nat)} (sc : List (List Nat)),
    Tab E h table chains → List.Forall₂ (fun p l => Seg h p l 0) src sc → sc.flatten.Nodup → (∀ b ∈ sc.flatten, b ∉ chains.flatten) →
    (∀ b ∈ sc.flatten, ∀ e, h b = some e → e.hash = rehash (E.keyHash e.key)) →
    ∃ h' table' chains', transfer h table src = some (h', table') ∧ Tab E h' table' chains' ∧
      chains'.flatten.Perm (sc.flatten ++ chains.flatten) ∧ (∀ b, core h' b = core h b) ∧ table'.length = table.length := by
  induction src with
  | nil =>
    intro h table chains sc T hs hn hd hh
    cases hs
    exact ⟨h, table, chains, rfl, T, by simp, fun _ => rfl, rfl⟩
  | cons p src ih =>
    intro h table chains sc T hs hn hd hh
    cases hs with
    | @cons _ l _ sc' hp hs' =>
      rw [transfer]
      by_cases hp0 : p = 0
      · rw [if_pos hp0]
        subst hp0
        have := seg_null hp
        subst this
        exact ih sc' T hs' (by simpa using hn) (by simpa using hd) (by simpa using hh)
      · rw [if_neg hp0]
        obtain ⟨l', rfl⟩ := seg_nonnull hp hp0
        rw [List.flatten_cons] at hn hd hh
        obtain ⟨hn1, hn2, hn3⟩ := List.nodup_append.1 hn
        obtain ⟨h', table', chains', r1, r2, r3, r4, r5, r6⟩ := transferChain_spec T p l' hp hn1
          (fun b hb => hd b (List.mem_append.2 (.inl hb))) (fun b hb => hh b (List.mem_append.2 (.inl hb)))
        rw [r1]
        simp only
        have hsame : ∀ b ∈ sc'.flatten, h' b = h b := by
          intro b hb
          apply r5 b
          · intro hx
            exact hn3 b hx b hb rfl
          · exact hd b (List.mem_append.2 (.inr hb))
        obtain ⟨h'', table'', chains'', s1, s2, s3, s4, s5⟩ := ih sc' r2 (forall2_congr hs' hsame) hn2
          (by
            intro b hb hx
            rcases List.mem_append.1 (r3.mem_iff.1 hx) with hx | hx
            · exact hn3 b hx b hb rfl
            · exact hd b (List.mem_append.2 (.inr hb)) hx)
          (by
            intro b hb e he
            rw [hsame b hb] at he
            exact hh b (List.mem_append.2 (.inr hb)) e he)
        refine ⟨h'', table'', chains'', s1, s2, ?_, fun b => by rw [s4, r4], by rw [s5, r6]⟩
        refine s3.trans ?_
        refine (List.Perm.append_left _ r3).trans ?_
        rw [List.flatten_cons, ← List.append_assoc]
        exact List.Perm.append_right _ List.perm_append_comm

end C3.HashMap
