import Verif.Symtab.Spec
import Mathlib.Data.List.Nodup
import Mathlib.Order.Basic

/-! # Lemmas about the identifier table -/

set_option autoImplicit false

namespace C3.Symtab

/-! ## Rounding up to a power of two -/

/-- Bits `m-k+1 .. m` of `y` are set and none above `m`. -/
private def Smear (m k y : Nat) : Prop :=
  (∀ i, i ≤ m → m < i + k → y.testBit i = true) ∧ (∀ i, m < i → y.testBit i = false)

private theorem smear_step (m k y : Nat) (h : Smear m k y) : Smear m (k + k) (y ||| y >>> k) := by
  constructor
  · intro i h1 h2
    rw [Nat.testBit_or, Nat.testBit_shiftRight]
    by_cases hk : m < i + k
    · rw [h.1 i h1 hk]; rfl
    · rw [h.1 (k + i) (by omega) (by omega), Bool.or_true]
  · intro i h1
    rw [Nat.testBit_or, Nat.testBit_shiftRight, h.2 i h1, h.2 (k + i) (by omega)]; rfl

/-- The result for values in range: the least power of two that is at least the argument. -/
theorem nextPow2_eq (v : BitVec 32) (h1 : 2 ≤ v.toNat) (h2 : v.toNat ≤ 2 ^ 31) :
    (nextHighestPowerOf2 v).toNat = 2 ^ ((v.toNat - 1).log2 + 1) := by
  have hv : (v - 1#32).toNat = v.toNat - 1 := by
    rw [BitVec.toNat_sub_of_le (by rw [BitVec.le_def]; simpa using (show 1 ≤ v.toNat by omega))]; rfl
  obtain ⟨x, hx⟩ : ∃ x, x = v.toNat - 1 := ⟨_, rfl⟩
  have hx0 : x ≠ 0 := by omega
  have hs0 : Smear x.log2 1 x := by
    constructor
    · intro i hi1 hi2
      have : i = x.log2 := by omega
      subst this
      exact Nat.testBit_log2 hx0
    · intro i hi
      apply Nat.testBit_lt_two_pow
      exact Nat.log2_lt hx0 |>.1 hi
  have hs1 := smear_step _ _ _ hs0
  have hs2 := smear_step _ _ _ hs1
  have hs3 := smear_step _ _ _ hs2
  have hs4 := smear_step _ _ _ hs3
  have hs5 := smear_step _ _ _ hs4
  simp only [Nat.reduceAdd] at hs1 hs2 hs3 hs4 hs5
  have hlog : x.log2 < 31 := by
    rw [Nat.log2_lt hx0]; omega
  have hyv : ∀ y, Smear x.log2 32 y → y = 2 ^ (x.log2 + 1) - 1 := by
    intro y hs
    apply Nat.eq_of_testBit_eq
    intro i
    rw [Nat.testBit_two_pow_sub_one]
    by_cases hi : i ≤ x.log2
    · rw [hs.1 i hi (by omega)]; simp; omega
    · rw [hs.2 i (by omega)]; simp; omega
  have hle : 2 ^ (x.log2 + 1) ≤ 2 ^ 31 := Nat.pow_le_pow_right (by omega) (by omega)
  have hpos : 0 < 2 ^ (x.log2 + 1) := Nat.two_pow_pos _
  unfold nextHighestPowerOf2
  simp only [BitVec.toNat_add, BitVec.toNat_or, BitVec.toNat_ushiftRight, hv, ← hx]
  rw [hyv _ hs5]
  rw [show (1#32).toNat = 1 from rfl]
  omega

theorem init_some (capacity : BitVec 32) (h1 : 0x100 ≤ capacity.toNat) (h2 : capacity.toNat ≤ 2 ^ 31) :
    ∃ t, init capacity = some t ∧ t.heap = [] ∧ t.mask.toNat < t.bucket.length ∧ ∀ c ∈ t.bucket, c = [] := by
  refine ⟨⟨List.replicate (nextHighestPowerOf2 capacity).toNat [], (nextHighestPowerOf2 capacity - 1#32).setWidth 64, []⟩,
    ?_, rfl, ?_, ?_⟩
  · rw [init, if_neg (by rw [BitVec.lt_def]; simpa using h1)]
  · have := nextPow2_eq capacity (by omega) h2
    have hlog : (capacity.toNat - 1).log2 < 31 := by
      rw [Nat.log2_lt (by omega)]; omega
    have hle : 2 ^ ((capacity.toNat - 1).log2 + 1) ≤ 2 ^ 31 := Nat.pow_le_pow_right (by omega) (by omega)
    have hpos : 0 < 2 ^ ((capacity.toNat - 1).log2 + 1) := Nat.two_pow_pos _
    dsimp only
    rw [List.length_replicate, BitVec.toNat_setWidth,
      BitVec.toNat_sub_of_le (by rw [BitVec.le_def, this]; exact hpos)]
    rw [this, show (1#32).toNat = 1 from rfl]
    omega
  · intro c hc
    exact (List.mem_replicate.1 hc).2

/-! ## Chains -/

/-- The entry `e` is the one for position `e.symbol` of the registry. -/
def Valid (hash : List Byte → BitVec 32) (reg : Registry) (e : Entry) (text : List Byte) : Prop :=
  reg[e.symbol]? = some (text, e.type) ∧ e.keyLen.toNat = text.length ∧ e.index = hash text

theorem memcmpEq_same (a b : List Byte) (h : a.length = b.length) : memcmpEq a b = some (a == b) := by
  rw [memcmpEq, if_pos (by omega), h, List.take_left']
  rfl

theorem search_spec (hash : List Byte → BitVec 32) (reg : Registry) (data : List Byte) (chain : List Entry)
    (hv : ∀ e ∈ chain, ∃ text, Valid hash reg e text) :
    (∃ e ∈ chain, Valid hash reg e data ∧ search (reg.map (·.1)) data (hash data) chain = some (some e)) ∨
    ((∀ e ∈ chain, ¬ Valid hash reg e data) ∧ search (reg.map (·.1)) data (hash data) chain = some none) := by
  induction chain with
  | nil => right; exact ⟨by simp, rfl⟩
  | cons e rest ih =>
    obtain ⟨text, h1, h2, h3⟩ := hv e (by simp)
    rw [search]
    have ih := ih (fun e' he' => hv e' (by simp [he']))
    have lift : ∀ o : Option (Option Entry), o = search (reg.map (·.1)) data (hash data) rest → ¬ Valid hash reg e data →
        (∃ e' ∈ e :: rest, Valid hash reg e' data ∧ o = some (some e')) ∨
        ((∀ e' ∈ e :: rest, ¬ Valid hash reg e' data) ∧ o = some none) := by
      rintro o rfl hne
      rcases ih with ⟨e', g1, g2, g3⟩ | ⟨g1, g2⟩
      · exact Or.inl ⟨e', by simp [g1], g2, g3⟩
      · refine Or.inr ⟨?_, g2⟩
        intro e' he'
        rcases List.mem_cons.1 he' with rfl | he'
        · exact hne
        · exact g1 e' he'
    by_cases hc : e.index = hash data ∧ data.length = e.keyLen.toNat
    · rw [if_pos hc]
      have hs : (reg.map (·.1))[e.symbol]? = some text := by rw [List.getElem?_map, h1]; rfl
      rw [hs, Option.bind_eq_bind, Option.bind_some, memcmpEq_same _ _ (by rw [hc.2, h2]), Option.bind_eq_bind,
        Option.bind_some]
      by_cases hd : data = text
      · subst hd
        rw [if_pos (by simp)]
        exact Or.inl ⟨e, by simp, ⟨h1, h2, h3⟩, rfl⟩
      · rw [if_neg (by simpa using hd)]
        refine lift _ rfl ?_
        rintro ⟨g1, -, -⟩
        rw [h1] at g1
        simp at g1
        exact hd g1.symm
    · rw [if_neg hc]
      refine lift _ rfl ?_
      rintro ⟨g1, g2, g3⟩
      exact hc ⟨g3, g2.symm⟩

/-! ## The invariant -/

/-- Where a text's chain is. -/
def home (hash : List Byte → BitVec 32) (t : SymTab) (text : List Byte) : Nat :=
  ((hash text).setWidth 64 &&& t.mask).toNat

structure Rep (hash : List Byte → BitVec 32) (t : SymTab) (reg : Registry) : Prop where
  heap : t.heap = reg.map (·.1)
  mask : t.mask.toNat < t.bucket.length
  valid : ∀ (p : Nat) chain, t.bucket[p]? = some chain → ∀ e ∈ chain, ∃ text, Valid hash reg e text
  there : ∀ (i : Nat) text ty, reg[i]? = some (text, ty) →
    ∃ chain, t.bucket[home hash t text]? = some chain ∧ ∃ e ∈ chain, e.symbol = i ∧ Valid hash reg e text
  nodup : (reg.map (·.1)).Nodup

theorem home_lt (hash : List Byte → BitVec 32) (t : SymTab) (h : t.mask.toNat < t.bucket.length) (text : List Byte) :
    home hash t text < t.bucket.length := by
  unfold home
  rw [BitVec.toNat_and]
  exact Nat.lt_of_le_of_lt Nat.and_le_right h

theorem get_some (reg : Registry) (text : List Byte) (hn : (reg.map (·.1)).Nodup) (i ty : Nat) :
    reg.get text = some (i, ty) ↔ reg[i]? = some (text, ty) := by
  unfold Registry.get
  constructor
  · intro h
    rw [Option.bind_eq_bind, Option.bind_eq_some_iff] at h
    obtain ⟨j, h1, h2⟩ := h
    rw [Option.bind_eq_bind, Option.bind_eq_some_iff] at h2
    obtain ⟨e, h2, h3⟩ := h2
    simp only [Option.some.injEq, Prod.mk.injEq] at h3
    rw [List.findIdx?_eq_some_iff_getElem] at h1
    obtain ⟨hl, h4, -⟩ := h1
    rw [List.getElem?_eq_getElem hl, Option.some.injEq] at h2
    rw [← h3.1, List.getElem?_eq_getElem hl, h2, ← h3.2]
    rw [h2] at h4
    have h4 : e.1 = text := by simpa using h4
    rw [← h4]
  · intro h
    obtain ⟨hl, he⟩ := List.getElem?_eq_some_iff.1 h
    have : reg.findIdx? (·.1 == text) = some i := by
      rw [List.findIdx?_eq_some_iff_getElem]
      refine ⟨hl, by simp [he], ?_⟩
      intro j hj
      simp only [beq_iff_eq]
      intro hjt
      have := (List.nodup_iff_injective_getElem.1 hn) (a₁ := ⟨j, by simp; omega⟩) (a₂ := ⟨i, by simpa using hl⟩)
        (by simp [he, hjt])
      simp at this
      omega
    rw [this, Option.bind_eq_bind, Option.bind_some, h]
    rfl

theorem get_none (reg : Registry) (text : List Byte) : reg.get text = none ↔ text ∉ reg.map (·.1) := by
  unfold Registry.get
  cases h : reg.findIdx? (·.1 == text) with
  | none =>
    rw [List.findIdx?_eq_none_iff] at h
    simp at h
    simp only [Option.bind_eq_bind, Option.bind_none, true_iff]
    intro hm
    obtain ⟨e, he, hx⟩ := List.mem_map.1 hm
    exact h e.1 e.2 he hx
  | some i =>
    rw [List.findIdx?_eq_some_iff_getElem] at h
    obtain ⟨hl, h4, -⟩ := h
    rw [Option.bind_eq_bind, Option.bind_some, List.getElem?_eq_getElem hl]
    simp only [Option.bind_eq_bind, Option.bind_some, reduceCtorEq, false_iff, not_not]
    exact List.mem_map.2 ⟨reg[i], List.getElem_mem hl, by simpa using h4⟩

theorem lookup_spec (hash : List Byte → BitVec 32) (t : SymTab) (reg : Registry) (h : Rep hash t reg) (data : List Byte) :
    ∃ chain, t.bucket[home hash t data]? = some chain ∧
      ((∃ e ∈ chain, Valid hash reg e data ∧ search t.heap data (hash data) chain = some (some e) ∧
          reg.get data = some (e.symbol, e.type)) ∨
        (search t.heap data (hash data) chain = some none ∧ reg.get data = none)) := by
  have hl := home_lt hash t h.mask data
  refine ⟨_, List.getElem?_eq_getElem hl, ?_⟩
  rw [h.heap]
  rcases search_spec hash reg data _ (h.valid _ _ (List.getElem?_eq_getElem hl)) with ⟨e, g1, g2, g3⟩ | ⟨g1, g2⟩
  · exact Or.inl ⟨e, g1, g2, g3, (get_some _ _ h.nodup _ _).2 g2.1⟩
  · refine Or.inr ⟨g2, ?_⟩
    rw [get_none]
    intro hm
    obtain ⟨i, hi, hx⟩ := List.getElem_of_mem hm
    have hi' : i < reg.length := by simpa using hi
    have hri : reg[i]? = some (data, reg[i].2) := by
      rw [List.getElem?_eq_getElem hi']
      simp at hx
      rw [← hx]
    obtain ⟨chain, c1, e, c2, c3, c4⟩ := h.there i data _ hri
    rw [List.getElem?_eq_getElem hl, Option.some.injEq] at c1
    subst c1
    exact g1 e c2 c4

theorem step_refines (hash : List Byte → BitVec 32) (t : SymTab) (reg : Registry) (op : Op) (h : Rep hash t reg)
    (hlen : op.text.length < 65536) :
    ∃ t', step hash t op = some (t', (specStep reg op).2) ∧ Rep hash t' (specStep reg op).1 := by
  cases op with
  | find text =>
    obtain ⟨chain, hc, hr⟩ := lookup_spec hash t reg h text
    refine ⟨t, ?_, h⟩
    unfold step specStep find
    unfold home at hc
    dsimp only
    rw [hc, Option.bind_eq_bind, Option.bind_some]
    rcases hr with ⟨e, g1, g2, g3, g4⟩ | ⟨g1, g2⟩
    · rw [g3, g4]; rfl
    · rw [g1, g2]; rfl
  | add text type =>
    obtain ⟨chain, hc, hr⟩ := lookup_spec hash t reg h text
    unfold step specStep add
    have hc' := hc
    unfold home at hc'
    dsimp only
    rw [hc', Option.bind_eq_bind, Option.bind_some]
    rcases hr with ⟨e, g1, g2, g3, g4⟩ | ⟨g1, g2⟩
    · rw [g3, g4]
      exact ⟨t, rfl, h⟩
    · rw [g1, g2]
      refine ⟨⟨t.bucket.set (home hash t text) (⟨t.heap.length, BitVec.ofNat 16 text.length, type, hash text⟩ :: chain),
        t.mask, t.heap ++ [text]⟩, ?_, ?_⟩
      · rw [h.heap, List.length_map]
        rfl
      · have hl := home_lt hash t h.mask text
        have hgrow : ∀ e x, Valid hash reg e x → Valid hash (reg ++ [(text, type)]) e x := by
          rintro e x ⟨a, b, c⟩
          refine ⟨?_, b, c⟩
          rw [List.getElem?_append_left (List.getElem?_eq_some_iff.1 a).1]
          exact a
        have hnew : Valid hash (reg ++ [(text, type)]) ⟨t.heap.length, BitVec.ofNat 16 text.length, type, hash text⟩ text := by
          refine ⟨?_, ?_, rfl⟩
          · rw [h.heap, List.length_map]
            simp
          · rw [BitVec.toNat_ofNat]
            exact Nat.mod_eq_of_lt hlen
        constructor
        · simp [h.heap]
        · simpa using h.mask
        · intro p ch hp e he
          dsimp only at hp
          rw [List.getElem?_set] at hp
          split at hp
          · rw [Option.some.injEq] at hp
            subst hp
            rcases List.mem_cons.1 he with rfl | he
            · exact ⟨text, hnew⟩
            · obtain ⟨x, hx⟩ := h.valid _ _ hc e he
              exact ⟨x, hgrow _ _ hx⟩
          · obtain ⟨x, hx⟩ := h.valid _ _ hp e he
            exact ⟨x, hgrow _ _ hx⟩
        · intro i x ty hi
          show ∃ ch, (t.bucket.set _ _)[home hash t x]? = some ch ∧ _
          by_cases hil : i < reg.length
          · rw [List.getElem?_append_left hil] at hi
            obtain ⟨ch, c1, e, c2, c3, c4⟩ := h.there i x ty hi
            by_cases hh : home hash t text = home hash t x
            · rw [← hh] at c1 ⊢
              rw [hc, Option.some.injEq] at c1
              subst c1
              refine ⟨_, List.getElem?_set_self hl, e, by simp [c2], c3, hgrow _ _ c4⟩
            · refine ⟨ch, by rw [List.getElem?_set_ne hh, c1], e, c2, c3, hgrow _ _ c4⟩
          · have hi2 : i = reg.length := by
              have := (List.getElem?_eq_some_iff.1 hi).1
              simp at this
              omega
            subst hi2
            simp at hi
            obtain ⟨rfl, rfl⟩ := hi
            exact ⟨_, List.getElem?_set_self hl, _, List.mem_cons_self, by simp [h.heap], hnew⟩
        · rw [List.map_append, List.map_singleton, List.nodup_append]
          refine ⟨h.nodup, by simp, ?_⟩
          intro a ha b hb
          rw [List.mem_singleton] at hb
          subst hb
          intro hab
          subst hab
          exact (get_none _ _).1 g2 ha

theorem run_refines (hash : List Byte → BitVec 32) (ops : List Op) : ∀ (t : SymTab) (reg : Registry), Rep hash t reg →
    (∀ op ∈ ops, op.text.length < 65536) →
    ∃ t', run hash t ops = some (t', (specRun reg ops).2) ∧ Rep hash t' (specRun reg ops).1 := by
  induction ops with
  | nil => intro t reg h _; exact ⟨t, rfl, h⟩
  | cons op ops ih =>
    intro t reg h hl
    obtain ⟨t1, h1, h2⟩ := step_refines hash t reg op h (hl op (by simp))
    obtain ⟨t2, h3, h4⟩ := ih t1 _ h2 (fun o ho => hl o (by simp [ho]))
    refine ⟨t2, ?_, h4⟩
    rw [run, h1, Option.bind_eq_bind, Option.bind_some]
    dsimp only
    rw [h3]
    rfl

theorem rep_init (hash : List Byte → BitVec 32) (t : SymTab) (h1 : t.heap = []) (h2 : t.mask.toNat < t.bucket.length)
    (h3 : ∀ c ∈ t.bucket, c = []) : Rep hash t [] := by
  constructor
  · simpa using h1
  · exact h2
  · intro p chain hp e he
    rw [h3 chain (List.mem_of_getElem? hp)] at he
    simp at he
  · intro i text ty hi; simp at hi
  · simp

/-! ## What the registry says -/

/-- `k` is the token kind of the first registration of `text`. -/
def FirstKind (ops : List Op) (text : List Byte) (k : Nat) : Prop :=
  ∃ pre post, ops = pre ++ Op.add text k :: post ∧ ∀ k', Op.add text k' ∉ pre

theorem specRun_prefix (ops : List Op) : ∀ reg : Registry, reg <+: (specRun reg ops).1 := by
  induction ops with
  | nil => intro reg; exact List.prefix_refl _
  | cons op ops ih =>
    intro reg
    refine List.IsPrefix.trans ?_ (ih (specStep reg op).1)
    cases op with
    | find text => exact List.prefix_refl _
    | add text type =>
      simp only [specStep]
      split
      · exact List.prefix_refl _
      · exact List.prefix_append _ _

theorem specStep_some (reg : Registry) (text : List Byte) (type : Nat) (r : Nat × Nat) (h : reg.get text = some r) :
    specStep reg (.add text type) = (reg, some r) := by simp only [specStep, h]

theorem specStep_none (reg : Registry) (text : List Byte) (type : Nat) (h : reg.get text = none) :
    specStep reg (.add text type) = (reg ++ [(text, type)], some (reg.length, type)) := by simp only [specStep, h]

theorem specStep_nodup (reg : Registry) (op : Op) (h : (reg.map (·.1)).Nodup) : ((specStep reg op).1.map (·.1)).Nodup := by
  cases op with
  | find text => exact h
  | add text type =>
    cases hg : reg.get text with
    | some r => rw [specStep_some _ _ _ _ hg]; exact h
    | none =>
      rw [specStep_none _ _ _ hg]
      rw [List.map_append, List.map_singleton, List.nodup_append]
      refine ⟨h, by simp, ?_⟩
      intro a ha b hb
      rw [List.mem_singleton] at hb
      subst hb
      rintro rfl
      exact (get_none _ _).1 hg ha

theorem specRun_nodup (ops : List Op) : ∀ (reg : Registry), (reg.map (·.1)).Nodup → ((specRun reg ops).1.map (·.1)).Nodup := by
  induction ops with
  | nil => intro reg h; exact h
  | cons op ops ih => intro reg h; exact ih _ (specStep_nodup reg op h)

theorem specStep_result (reg : Registry) (op : Op) (h : (reg.map (·.1)).Nodup) (p k : Nat)
    (hr : (specStep reg op).2 = some (p, k)) : (specStep reg op).1[p]? = some (op.text, k) := by
  cases op with
  | find text => exact (get_some _ _ h _ _).1 hr
  | add text type =>
    cases hg : reg.get text with
    | some r =>
      rw [specStep_some _ _ _ _ hg] at hr ⊢
      simp only [Option.some.injEq] at hr
      subst hr
      exact (get_some _ _ h _ _).1 hg
    | none =>
      rw [specStep_none _ _ _ hg] at hr ⊢
      simp only [Option.some.injEq, Prod.mk.injEq] at hr
      obtain ⟨rfl, rfl⟩ := hr
      simp [Op.text]

theorem specRun_result (ops : List Op) : ∀ (reg : Registry), (reg.map (·.1)).Nodup → ∀ (i : Nat) (op : Op) (p k : Nat),
    ops[i]? = some op → (specRun reg ops).2[i]? = some (some (p, k)) → (specRun reg ops).1[p]? = some (op.text, k) := by
  induction ops with
  | nil => intro reg _ i op p k h; simp at h
  | cons o ops ih =>
    intro reg h i op p k hi hr
    cases i with
    | zero =>
      simp only [List.getElem?_cons_zero, Option.some.injEq] at hi
      subst hi
      have hr : (specStep reg o).2 = some (p, k) := by simpa [specRun] using hr
      have := specStep_result reg o h p k hr
      obtain ⟨tl, htl⟩ := specRun_prefix ops (specStep reg o).1
      show (specRun (specStep reg o).1 ops).1[p]? = _
      rw [← htl, List.getElem?_append_left (List.getElem?_eq_some_iff.1 this).1, this]
    | succ i =>
      exact ih (specStep reg o).1 (specStep_nodup reg o h) i op p k (by simpa using hi) (by simpa [specRun] using hr)

/-- Entries of the registry after a history were there before or are first registrations. -/
theorem specRun_kind (ops : List Op) : ∀ (reg : Registry), ∀ text k, (text, k) ∈ (specRun reg ops).1 →
    (text, k) ∈ reg ∨ (text ∉ reg.map (·.1) ∧ FirstKind ops text k) := by
  induction ops with
  | nil => intro reg text k h; exact Or.inl h
  | cons op ops ih =>
    intro reg text k h
    cases op with
    | find x =>
      rcases ih _ text k h with h1 | ⟨h0, pre, post, h1, h2⟩
      · exact Or.inl h1
      · exact Or.inr ⟨h0, .find x :: pre, post, by simp [h1], by simpa using h2⟩
    | add x ty =>
      have h := ih (specStep reg (.add x ty)).1 text k h
      cases hg : reg.get x with
      | some r =>
        rw [specStep_some _ _ _ _ hg] at h
        rcases h with h1 | ⟨h0, pre, post, h1, h2⟩
        · exact Or.inl h1
        · refine Or.inr ⟨h0, .add x ty :: pre, post, by simp [h1], ?_⟩
          intro k' hk
          rcases List.mem_cons.1 hk with hk | hk
          · simp only [Op.add.injEq] at hk
            rw [hk.1, ← get_none, hg] at h0
            simp at h0
          · exact h2 k' hk
      | none =>
        rw [specStep_none _ _ _ hg] at h
        rcases h with h1 | ⟨h0, pre, post, h1, h2⟩
        · rcases List.mem_append.1 h1 with h1 | h1
          · exact Or.inl h1
          · simp at h1
            obtain ⟨rfl, rfl⟩ := h1
            exact Or.inr ⟨(get_none _ _).1 hg, [], ops, rfl, by simp⟩
        · simp only [List.map_append, List.map_cons, List.map_nil, List.mem_append, List.mem_singleton, not_or] at h0
          refine Or.inr ⟨h0.1, .add x ty :: pre, post, by simp [h1], ?_⟩
          intro k' hk
          rcases List.mem_cons.1 hk with hk | hk
          · simp only [Op.add.injEq] at hk
            exact h0.2 hk.1
          · exact h2 k' hk

/-- A look-up finds nothing exactly if the text was not registered before. -/
theorem specRun_miss (ops : List Op) : ∀ (reg : Registry), ∀ (i : Nat) (text : List Byte), ops[i]? = some (.find text) →
    ((specRun reg ops).2[i]? = some none ↔ text ∉ reg.map (·.1) ∧ ∀ k, Op.add text k ∉ ops.take i) := by
  induction ops with
  | nil => intro reg i text h; simp at h
  | cons op ops ih =>
    intro reg i text h
    cases i with
    | zero =>
      simp only [List.getElem?_cons_zero, Option.some.injEq] at h
      subst h
      show (some (reg.get text) = some none ↔ _)
      rw [Option.some.injEq, get_none]
      simp
    | succ i =>
      show ((specRun (specStep reg op).1 ops).2[i]? = some none ↔ _)
      rw [ih (specStep reg op).1 i text (by simpa using h)]
      cases op with
      | find x =>
        show (text ∉ reg.map (·.1) ∧ _ ↔ _)
        simp
      | add x ty =>
        cases hg : reg.get x with
        | some r =>
          rw [specStep_some _ _ _ _ hg]
          simp only [List.take_succ_cons, List.mem_cons, Op.add.injEq, not_or, not_and]
          constructor
          · rintro ⟨h1, h2⟩
            refine ⟨h1, fun k => ⟨?_, h2 k⟩⟩
            rintro rfl
            rw [← get_none, hg] at h1
            simp at h1
          · rintro ⟨h1, h2⟩
            exact ⟨h1, fun k => (h2 k).2⟩
        | none =>
          rw [specStep_none _ _ _ hg]
          simp only [List.map_append, List.map_cons, List.map_nil, List.mem_append, List.take_succ_cons,
            List.not_mem_nil, not_false_eq_true, and_true,
            List.mem_cons, Op.add.injEq, not_or, not_and]
          constructor
          · rintro ⟨⟨h1, h3⟩, h2⟩
            exact ⟨h1, fun k => ⟨fun hx => absurd hx h3, h2 k⟩⟩
          · rintro ⟨h1, h2⟩
            exact ⟨⟨h1, fun hx => (h2 ty).1 hx rfl⟩, fun k => (h2 k).2⟩

end C3.Symtab
