import Verif.ConstInit.LemmasInit
import Verif.ConstInit.SpecConst

/-! # Trees are emitted as constants with their content -/

set_option autoImplicit false

namespace C3.ConstInit

variable {α : Type} {fl : Bool}

/-- For every depth that suffices, the cell is emitted as a constant with `P`. -/
def Emits (h : Heap α) (a : Nat) (P : Const α → Prop) : Prop := ∃ n0, ∀ n, n0 ≤ n → ∃ c, emit n h a = some c ∧ P c

theorem emitAll_spec {h : Heap α} : ∀ (els : List Nat) (P : Nat → Const α → Prop), (∀ (i e : Nat), els[i]? = some e → Emits h e (P i)) →
    ∃ n0, ∀ n, n0 ≤ n → ∃ l, emitAll (emit n h) els = some l ∧ l.length = els.length ∧ ∀ (i : Nat) c, l[i]? = some c → P i c := by
  intro els
  induction els with
  | nil => intro P _; exact ⟨0, fun n _ => ⟨[], by simp [emitAll], rfl, by simp⟩⟩
  | cons e els ih =>
    intro P hP
    obtain ⟨n1, h1⟩ := hP 0 e rfl
    obtain ⟨n2, h2⟩ := ih (fun i => P (i + 1)) fun i e he => hP (i + 1) e (by simpa using he)
    refine ⟨max n1 n2, fun n hn => ?_⟩
    obtain ⟨c, hc, hpc⟩ := h1 n (by omega)
    obtain ⟨l, hl, hll, hpl⟩ := h2 n (by omega)
    refine ⟨c :: l, by simp [emitAll, hc, hl], by simp [hll], ?_⟩
    intro i c' hc'
    cases i with
    | zero => simp at hc'; subst hc'; exact hpc
    | succ i => exact hpl i c' (by simpa using hc')

theorem emitElements_spec {h : Heap α} {C E : Nat → Nat} {T : Nat → Ty} {P : Nat → Const α → Prop} : ∀ (L : List Nat),
    (∀ i, i ∈ L → h[C i]? = some (T i, .arrayValue (E i) i)) → (∀ i, i ∈ L → Emits h (E i) (P i)) →
    ∃ n0, ∀ n, n0 ≤ n → ∃ l, emitElements (emit n h) h (L.map C) = some l ∧ l.map Prod.fst = L ∧ ∀ i c, (i, c) ∈ l → P i c := by
  intro L
  induction L with
  | nil => intro _ _; exact ⟨0, fun n _ => ⟨[], by simp [emitElements], rfl, by simp⟩⟩
  | cons j L ih =>
    intro hC hP
    obtain ⟨n1, h1⟩ := hP j (by simp)
    obtain ⟨n2, h2⟩ := ih (fun i hi => hC i (by simp [hi])) (fun i hi => hP i (by simp [hi]))
    refine ⟨max n1 n2, fun n hn => ?_⟩
    obtain ⟨c, hc, hpc⟩ := h1 n (by omega)
    obtain ⟨l, hl, hll, hpl⟩ := h2 n (by omega)
    refine ⟨(j, c) :: l, by simp [emitElements, hC j (by simp), hc, hl], by simp [hll], ?_⟩
    intro i c' hc'
    rcases List.mem_cons.1 hc' with h3 | h3
    · cases h3; exact hpc
    · exact hpl i c' h3

def Solid (c : Const α) : Prop := ∀ n, c ≠ .zeros n

theorem partAt_solid {c : Const α} (hc : Solid c) (ps : List (Const α)) (i : Nat) :
    partAt (c :: ps) i = if i = 0 then some c else partAt ps (i - 1) := by
  cases c with
  | zeros n => exact absurd rfl (hc n)
  | _ => cases i <;> simp [partAt]

theorem width_solid {c : Const α} (hc : Solid c) (ps : List (Const α)) : width (c :: ps) = 1 + width ps := by
  cases c with
  | zeros n => exact absurd rfl (hc n)
  | _ => simp [width]

theorem Fits.solid {t : Ty} {c : Const α} (f : Fits t c) : Solid c := by
  intro n h; subst h; cases f

theorem arrayParts_width {len : Nat} : ∀ (l : List (Nat × Const α)) (cur : Nat), (l.map Prod.fst).Pairwise (· < ·) →
    (∀ i c, (i, c) ∈ l → cur ≤ i ∧ i < len ∧ Solid c) → cur ≤ len → width (arrayParts len cur l) = len - cur := by
  intro l
  induction l with
  | nil =>
    intro cur _ _ hc
    simp only [arrayParts]
    split
    · simp [width]
    · simp [width]; omega
  | cons ic l ih =>
    intro cur hs hl hc
    obtain ⟨i, c⟩ := ic
    obtain ⟨h1, h2, h3⟩ := hl i c (by simp)
    simp only [List.map_cons, List.pairwise_cons] at hs
    have := ih (i + 1) hs.2 (fun j d hj => ⟨hs.1 j (List.mem_map.2 ⟨_, hj, rfl⟩), (hl j d (by simp [hj])).2⟩) (by omega)
    simp only [arrayParts]
    split
    · simp only [List.cons_append, List.nil_append, width, width_solid h3, this]; omega
    · simp only [List.nil_append, width_solid h3, this]; omega

/-- The element at `i`: the one given, or zero. -/
theorem arrayParts_at {len : Nat} {R : Nat → Option (Const α) → Prop} : ∀ (l : List (Nat × Const α)) (cur : Nat),
    (l.map Prod.fst).Pairwise (· < ·) → (∀ i c, (i, c) ∈ l → cur ≤ i ∧ i < len ∧ Solid c) → cur ≤ len →
    (∀ i c, (i, c) ∈ l → R i (some c)) → (∀ i, cur ≤ i → i ∉ l.map Prod.fst → R i (some .zero)) → (∀ i, len ≤ i → R i none) →
    ∀ k, R (cur + k) (partAt (arrayParts len cur l) k) := by
  intro l
  induction l with
  | nil =>
    intro cur _ _ hc _ h2 h3 k
    simp only [arrayParts]
    split
    · simp only [partAt]
      split
      · exact h2 _ (by omega) (by simp)
      · exact h3 _ (by omega)
    · simp only [partAt]; exact h3 _ (by omega)
  | cons ic l ih =>
    intro cur hs hl hc h1 h2 h3 k
    obtain ⟨i, c⟩ := ic
    obtain ⟨hi1, hi2, hi3⟩ := hl i c (by simp)
    simp only [List.map_cons, List.pairwise_cons] at hs
    have hlt : ∀ j, j ∈ l.map Prod.fst → i < j := hs.1
    -- beyond the first element the rest says what there is
    have rest : ∀ k, R (i + 1 + k) (partAt (arrayParts len (i + 1) l) k) := by
      refine ih (i + 1) hs.2 (fun j d hj => ⟨hs.1 j (List.mem_map.2 ⟨_, hj, rfl⟩), (hl j d (by simp [hj])).2⟩) (by omega)
        (fun j d hj => h1 j d (by simp [hj])) (fun j hj hn => h2 j (by omega) ?_) h3
      intro hm
      rcases List.mem_cons.1 hm with h4 | h4
      · omega
      · exact hn h4
    have tail : ∀ k, R (i + k) (partAt (c :: arrayParts len (i + 1) l) k) := by
      intro k
      rw [partAt_solid hi3]
      cases k with
      | zero => simpa using h1 i c (by simp)
      | succ k =>
        have := rest k
        simp only [Nat.add_one_ne_zero, if_false, Nat.add_sub_cancel]
        rw [show i + (k + 1) = i + 1 + k by omega]; exact this
    simp only [arrayParts]
    split
    · simp only [List.cons_append, List.nil_append, partAt]
      split
      · refine h2 _ (by omega) ?_
        intro hm
        rcases List.mem_cons.1 hm with h4 | h4
        · omega
        · have := hlt _ h4; omega
      · have := tail (k - (i - cur))
        rwa [show i + (k - (i - cur)) = cur + k by omega] at this
    · have := tail k
      rwa [show i + k = cur + k by omega] at this

theorem mem_arrayParts {len : Nat} {p : Const α} : ∀ (l : List (Nat × Const α)) (cur : Nat), p ∈ arrayParts len cur l → Solid p → ∃ i, (i, p) ∈ l := by
  intro l
  induction l with
  | nil =>
    intro cur hp hs
    simp only [arrayParts] at hp
    split at hp
    · simp at hp; exact absurd hp (hs _)
    · cases hp
  | cons ic l ih =>
    intro cur hp hs
    obtain ⟨i, c⟩ := ic
    simp only [arrayParts, List.mem_append, List.mem_cons] at hp
    rcases hp with hp | rfl | hp
    · split at hp
      · simp at hp; exact absurd hp (hs _)
      · cases hp
    · exact ⟨i, by simp⟩
    · obtain ⟨j, hj⟩ := ih _ hp hs
      exact ⟨j, by simp [hj]⟩

theorem read_cons_struct (l : List (Const α)) (i : Nat) (q : List Nat) : read (.struct l) (i :: q) = (l[i]?).bind (read · q) := rfl

theorem read_cons_union (j : Nat) (c : Const α) (i : Nat) (q : List Nat) : read (.union j c) (i :: q) = if i = j then read c q else none := rfl

theorem read_cons_array (l : List (Const α)) (i : Nat) (q : List Nat) : read (.array l) (i :: q) = (partAt l i).bind (read · q) := rfl

theorem read_zero : read (Const.zero : Const α) = zeros := by
  funext q; cases q <;> simp [read, readAt, zeros]

/-- Elements that are all solid. -/
theorem partAt_all {l : List (Const α)} (hl : ∀ c, c ∈ l → Solid c) : ∀ i, partAt l i = l[i]? := by
  induction l with
  | nil => intro i; simp [partAt]
  | cons c l ih =>
    intro i
    rw [partAt_solid (hl c (by simp))]
    cases i with
    | zero => simp
    | succ i => simpa using ih (fun c hc => hl c (by simp [hc])) i

theorem width_all {l : List (Const α)} (hl : ∀ c, c ∈ l → Solid c) : width l = l.length := by
  induction l with
  | nil => rfl
  | cons c l ih => rw [width_solid (hl c (by simp)), ih fun c hc => hl c (by simp [hc])]; simp; omega

theorem Own.emits {h : Heap α} {t : Ty} {a : Nat} {m : Content α} {F : Nat → Prop} (o : Own fl h t a m F) :
    Emits h a fun c => read c = m ∧ Fits t c := by
  induction o with
  | zero ha =>
    refine ⟨1, fun n hn => ?_⟩
    obtain ⟨n, rfl⟩ : ∃ k, n = k + 1 := ⟨n - 1, by omega⟩
    exact ⟨.zero, by simp [emit, ha], read_zero, .zero _⟩
  | @value a x ha =>
    refine ⟨1, fun n hn => ?_⟩
    obtain ⟨n, rfl⟩ : ∃ k, n = k + 1 := ⟨n - 1, by omega⟩
    refine ⟨.value x, by simp [emit, ha], ?_, .value _⟩
    funext q; cases q <;> simp [read, readAt]
  | @struct ms els a M F ha hl kids sep out ih =>
    have key : ∀ (i e : Nat), els[i]? = some e → Emits h e fun c => ∀ t, ms[i]? = some t → read c = M i ∧ Fits t c := by
      intro i e he
      have hi : i < ms.length := hl ▸ (List.getElem?_eq_some_iff.1 he).1
      obtain ⟨n0, h0⟩ := ih i _ e (List.getElem?_eq_getElem hi) he
      refine ⟨n0, fun n hn => ?_⟩
      obtain ⟨c, hc, hp⟩ := h0 n hn
      refine ⟨c, hc, fun t ht => ?_⟩
      rw [List.getElem?_eq_getElem hi] at ht
      cases ht; exact hp
    obtain ⟨n0, h0⟩ := emitAll_spec els _ key
    refine ⟨n0 + 1, fun n hn => ?_⟩
    obtain ⟨n, rfl⟩ : ∃ k, n = k + 1 := ⟨n - 1, by omega⟩
    obtain ⟨l, hl1, hl2, hl3⟩ := h0 n (by omega)
    refine ⟨.struct l, by simp [emit, ha, hl1], ?_, .struct (by omega) fun i t c ht hc => (hl3 i c hc t ht).2⟩
    funext q
    cases q with
    | nil => simp [read, readAt, node]
    | cons i q =>
      simp only [read_cons_struct, read_cons_union, read_cons_array, node]
      cases hc : l[i]? with
      | none =>
        have := List.getElem?_eq_none_iff.1 hc
        rw [out i (by omega)]; rfl
      | some c =>
        have hi := (List.getElem?_eq_some_iff.1 hc).1
        simp only [Option.bind_some]
        rw [(hl3 i c hc _ (List.getElem?_eq_getElem (by omega))).1]
  | @union ms e j a t m F ha ht kid sep ih =>
    obtain ⟨n0, h0⟩ := ih
    refine ⟨n0 + 1, fun n hn => ?_⟩
    obtain ⟨n, rfl⟩ : ∃ k, n = k + 1 := ⟨n - 1, by omega⟩
    obtain ⟨c, hc, hr, hf⟩ := h0 n (by omega)
    refine ⟨.union j c, by simp [emit, ha, hc], ?_, .union ht hf⟩
    funext q
    cases q with
    | nil => simp [read, readAt, node]
    | cons i q =>
      simp only [read_cons_struct, read_cons_union, read_cons_array, node]
      by_cases hij : i = j
      · rw [if_pos hij, if_pos hij, hr]
      · rw [if_neg hij, if_neg hij]; rfl
  | @full hfl len base els a M F ha hl kids sep out ih =>
    obtain ⟨n0, h0⟩ := emitAll_spec els (fun i c => read c = M i ∧ Fits base c) ih
    refine ⟨n0 + 1, fun n hn => ?_⟩
    obtain ⟨n, rfl⟩ : ∃ k, n = k + 1 := ⟨n - 1, by omega⟩
    obtain ⟨l, hl1, hl2, hl3⟩ := h0 n (by omega)
    have hmem : ∀ c, c ∈ l → Fits base c := by
      intro c hc
      obtain ⟨i, hi⟩ := List.getElem?_of_mem hc
      exact (hl3 i c hi).2
    refine ⟨.array l, by simp [emit, ha, hl1], ?_, .array ?_ fun p hp _ => hmem p hp⟩
    · funext q
      cases q with
      | nil => simp [read, readAt, node]
      | cons i q =>
        simp only [read_cons_struct, read_cons_union, read_cons_array, node]
        rw [partAt_all fun c hc => (hmem c hc).solid]
        cases hc : l[i]? with
        | none =>
          have := List.getElem?_eq_none_iff.1 hc
          rw [out i (by omega)]; rfl
        | some c => simp only [Option.bind_some]; rw [(hl3 i c hc).1]
    · rw [width_all fun c hc => (hmem c hc).solid]; omega
  | @array len base L C E T a M F ha sorted cells kids sep out ih =>
    obtain ⟨n0, h0⟩ := emitElements_spec (P := fun i c => read c = M i ∧ Fits base c) L (fun i hi => (cells i hi).1) ih
    refine ⟨n0 + 1, fun n hn => ?_⟩
    obtain ⟨n, rfl⟩ : ∃ k, n = k + 1 := ⟨n - 1, by omega⟩
    obtain ⟨l, hl1, hl2, hl3⟩ := h0 n (by omega)
    have hmemL : ∀ i c, (i, c) ∈ l → i ∈ L := fun i c hc => hl2 ▸ List.mem_map.2 ⟨_, hc, rfl⟩
    have hb : ∀ i c, (i, c) ∈ l → 0 ≤ i ∧ i < len ∧ Solid c := fun i c hc =>
      ⟨by omega, (cells i (hmemL i c hc)).2.2, (hl3 i c hc).2.solid⟩
    refine ⟨.array (arrayParts len 0 l), by simp [emit, ha, hl1], ?_, .array ?_ ?_⟩
    · funext q
      cases q with
      | nil => simp [read, readAt, node]
      | cons i q =>
        have := arrayParts_at (R := fun i o => o.bind (read · q) = M i q) l 0 (hl2.symm ▸ sorted) hb (by omega)
          (fun i c hc => by simp only [Option.bind_some]; rw [(hl3 i c hc).1])
          (fun i _ hi => by rw [hl2] at hi; simp only [Option.bind_some]; rw [out i hi, read_zero])
          (fun i hi => by rw [out i fun h => by have := (cells i h).2.2; omega]; rfl) i
        simp only [read_cons_struct, read_cons_union, read_cons_array, node]
        simpa using this
    · rw [arrayParts_width l 0 (hl2.symm ▸ sorted) hb (by omega)]; omega
    · intro p hp hs
      obtain ⟨i, hi⟩ := mem_arrayParts l 0 hp hs
      exact (hl3 i p hi).2

end C3.ConstInit
