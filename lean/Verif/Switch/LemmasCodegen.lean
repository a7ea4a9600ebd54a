import Verif.Switch.Lemmas

/-! # Lemmas about the code generated for switches -/

set_option autoImplicit false

namespace C3.Switch
open C3.Bigint C3.ConstCompare

/-! ## Blocks -/

theorem runs_step {cases : List Case} {i : Nat} {c : Case} {b : Block} (hc : cases[i]? = some c) (hb : c.body = false)
    (h : RunsAt cases (i + 1) b) : RunsAt cases i b := by
  have key : ∀ (k : Nat) (d : Case), i ≤ k → cases[k]? = some d → (i + 1 ≤ k → d.body = false) → d.body = false := by
    intro k d hk hd hh
    rcases Nat.eq_or_lt_of_le hk with rfl | hlt
    · rw [hc] at hd; cases hd; exact hb
    · exact hh hlt
  cases b with
  | none => exact fun k d hk hd => key k d hk hd fun h' => h k d h' hd
  | some j =>
    obtain ⟨h1, h2, h3⟩ := h
    exact ⟨by omega, h2, fun k d hk hkj hd => key k d hk hd fun h' => h3 k d h' hkj hd⟩

theorem assignBlocks_spec {cases : List Case} {i : Nat} {cs : List Case} (h : cases.drop i = cs) (k : Nat) (b : Block)
    (hk : (assignBlocks i cs)[k]? = some b) : RunsAt cases (i + k) b := by
  induction cs generalizing i k b with
  | nil => simp [assignBlocks] at hk
  | cons c cs ih =>
    have hc : cases[i]? = some c := by
      have := List.getElem?_drop (xs := cases) (i := i) (j := 0)
      rw [h] at this
      simpa using this.symm
    have ht : cases.drop (i + 1) = cs := by
      rw [← List.tail_drop, h]
      rfl
    cases k with
    | succ k =>
      have := ih ht k b (by simpa [assignBlocks] using hk)
      rwa [Nat.add_assoc, Nat.add_comm 1 k] at this
    | zero =>
      simp only [assignBlocks, List.getElem?_cons_zero, Option.some.injEq] at hk
      by_cases hb : c.body = true
      · rw [if_pos hb] at hk
        subst hk
        exact ⟨Nat.le_refl _, ⟨c, hc, hb⟩, fun k d h1 h2 => by omega⟩
      · rw [if_neg hb] at hk
        have hb : c.body = false := by simpa using hb
        refine runs_step hc hb ?_
        cases hr : assignBlocks (i + 1) cs with
        | nil =>
          rw [hr] at hk
          simp only [List.headD_nil] at hk
          subst hk
          have : cs = [] := by
            cases cs with
            | nil => rfl
            | cons d cs => simp [assignBlocks] at hr
          subst this
          intro k d hk' hd
          have := List.drop_eq_nil_iff.1 ht
          rw [List.getElem?_eq_none (by omega)] at hd
          cases hd
        | cons b' r =>
          rw [hr] at hk
          simp only [List.headD_cons] at hk
          subst hk
          exact ih ht 0 b' (by rw [hr]; rfl)

theorem assignBlocks_length (i : Nat) (cs : List Case) : (assignBlocks i cs).length = cs.length := by
  induction cs generalizing i with
  | nil => rfl
  | cons c cs ih => simp [assignBlocks, ih]

theorem withBlocks_mem {cases : List Case} {c : Case} {b : Block} (h : (c, b) ∈ withBlocks cases) :
    ∃ i, cases[i]? = some c ∧ RunsAt cases i b := by
  obtain ⟨i, hi⟩ := List.mem_iff_getElem?.1 h
  rw [withBlocks, List.getElem?_zip_eq_some] at hi
  refine ⟨i, hi.1, ?_⟩
  have := assignBlocks_spec (i := 0) (cases := cases) rfl i b hi.2
  simpa using this

theorem withBlocks_fst (cases : List Case) : (withBlocks cases).map (·.1) = cases := by
  rw [withBlocks, List.map_fst_zip]
  rw [assignBlocks_length]

theorem default_some {cases : List Case} {c : Case} {b : Block} (h : defaultCase (withBlocks cases) = some (c, b)) :
    ∃ i, cases[i]? = some c ∧ c.label = none ∧ RunsAt cases i b := by
  have hm := List.mem_of_find?_eq_some h
  have hp := List.find?_some h
  obtain ⟨i, hi, hr⟩ := withBlocks_mem (List.mem_reverse.1 hm)
  exact ⟨i, hi, by simpa using hp, hr⟩

theorem default_none {cases : List Case} (h : defaultCase (withBlocks cases) = none) : ∀ c ∈ cases, c.label ≠ none := by
  intro c hc hl
  rw [← withBlocks_fst cases] at hc
  obtain ⟨⟨c', b⟩, hm, rfl⟩ := List.mem_map.1 hc
  have := List.find?_eq_none.1 h (c', b) (List.mem_reverse.2 hm)
  have hl : c'.label = none := hl
  simp [hl] at this

/-- Going to the default or the end. -/
theorem target_default {cases : List Case} {x : Int} {b : Block} (hno : ∀ c ∈ cases, ∀ l ∈ c.label, ¬ l.Contains x)
    (hn : defaultCase (withBlocks cases) = none → b = none)
    (hb : ∀ c b', defaultCase (withBlocks cases) = some (c, b') → b = b' ∨ (c.body = false ∧ DefaultEnds cases ∧ b = none)) :
    Target cases x b := by
  refine Or.inr ⟨hno, ?_⟩
  rcases hd : defaultCase (withBlocks cases) with _ | ⟨c, b'⟩
  · exact Or.inr ⟨default_none hd, hn hd⟩
  · obtain ⟨i, h1, h2, h3⟩ := default_some hd
    left
    rcases hb c b' hd with rfl | ⟨g1, g2, rfl⟩
    · exact ⟨i, c, h1, h2, h3⟩
    · exact ⟨i, c, h1, h2, g2 i c h1 h2 g1⟩

theorem target_defaultBlock {cases : List Case} {x : Int} (hno : ∀ c ∈ cases, ∀ l ∈ c.label, ¬ l.Contains x)
    (hd : DefaultEnds cases) : Target cases x (defaultBlock (defaultCase (withBlocks cases))) := by
  apply target_default hno
  · intro e
    rw [e]
    rfl
  · intro c b e
    rw [e]
    by_cases hb : c.body = true
    · exact Or.inl (if_pos hb)
    · exact Or.inr ⟨by simpa using hb, hd, if_neg hb⟩

theorem target_case {cases : List Case} {x : Int} {c : Case} {b : Block} {l : Label} (h : (c, b) ∈ withBlocks cases)
    (hl : c.label = some l) (hx : l.Contains x) : Target cases x b := by
  obtain ⟨i, hi, hr⟩ := withBlocks_mem h
  exact Or.inl ⟨i, c, l, hi, hl, hx, hr⟩

theorem with_mem {cases : List Case} {c : Case} (h : c ∈ cases) : ∃ b, (c, b) ∈ withBlocks cases := by
  rw [← withBlocks_fst cases] at h
  obtain ⟨⟨c', b⟩, hm, rfl⟩ := List.mem_map.1 h
  exact ⟨b, hm⟩

theorem mem_cases {cases : List Case} {c : Case} {b : Block} (h : (c, b) ∈ withBlocks cases) : c ∈ cases := by
  rw [← withBlocks_fst cases]
  exact List.mem_map.2 ⟨(c, b), h, rfl⟩

/-! ## Chain of comparisons -/

theorem hi_eq_lo {l : Label} (h : l.last = none) : l.hi = l.lo := by
  cases l with
  | int a b => cases b with
    | none => rfl
    | some b => cases h
  | enum a b => cases b with
    | none => rfl
    | some b => cases h

theorem equals_spec {t : TypeKind} {n : Option Nat} {l : Label} (h : l.Typed t n) (v : Val t) :
    (match l.last with
      | some _ => llvmLe t (constVal t (labelValues t l).1) v && llvmLe t v (constVal t (labelValues t l).2)
      | none => constVal t (labelValues t l).1 == v) = true ↔ l.Contains (value t v) := by
  obtain ⟨h1, h2, h3, h4, h5, h6⟩ := labelValues_spec t n l h
  have e1 := constVal_value t _ h3 h5
  have e2 := constVal_value t _ h4 h6
  unfold Label.Contains
  rcases hl : l.last with _ | x
  · simp only [beq_iff_eq]
    rw [← value_inj, e1, h1, hi_eq_lo hl]
    omega
  · simp only [Bool.and_eq_true, llvmLe_iff, e1, e2, h1, h2]

theorem ifChain_spec {t : TypeKind} {n : Option Nat} (v : Val t) (dflt : Option (Case × Block)) {cs : List (Case × Block)}
    (h : ∀ c ∈ cs, ∀ l ∈ c.1.label, l.Typed t n) :
    (∃ c ∈ cs, ∃ l ∈ c.1.label, l.Contains (value t v) ∧ ifChain t v dflt cs = c.2) ∨
    (∀ c ∈ cs, ∀ l ∈ c.1.label, ¬ l.Contains (value t v)) ∧
      ifChain t v dflt cs = ifChain t v dflt [] := by
  induction cs with
  | nil => exact Or.inr ⟨by simp, rfl⟩
  | cons c cs ih =>
    have ih := ih fun d hd => h d (List.mem_cons_of_mem _ hd)
    obtain ⟨c, b⟩ := c
    have lift : ifChain t v dflt ((c, b) :: cs) = ifChain t v dflt cs → (∀ l ∈ c.label, ¬ l.Contains (value t v)) →
        (∃ d ∈ (c, b) :: cs, ∃ l ∈ d.1.label, l.Contains (value t v) ∧ ifChain t v dflt ((c, b) :: cs) = d.2) ∨
        (∀ d ∈ (c, b) :: cs, ∀ l ∈ d.1.label, ¬ l.Contains (value t v)) ∧
          ifChain t v dflt ((c, b) :: cs) = ifChain t v dflt [] := by
      intro e hn
      rw [e]
      rcases ih with ⟨d, hd, r⟩ | ⟨h1, h2⟩
      · exact Or.inl ⟨d, List.mem_cons_of_mem _ hd, r⟩
      · refine Or.inr ⟨?_, h2⟩
        intro d hd
        rcases List.mem_cons.1 hd with rfl | hd
        · exact hn
        · exact h1 d hd
    rcases hl : c.label with _ | l
    · refine lift ?_ (by simp [hl])
      rw [ifChain]
      simp only [hl]
    · have hs := equals_spec (h (c, b) (List.mem_cons_self ..) l hl) v
      have e : ifChain t v dflt ((c, b) :: cs) = if (match l.last with
          | some _ => llvmLe t (constVal t (labelValues t l).1) v && llvmLe t v (constVal t (labelValues t l).2)
          | none => constVal t (labelValues t l).1 == v) = true then b else ifChain t v dflt cs := by
        rw [ifChain]
        simp only [hl]
        rfl
      by_cases hx : l.Contains (value t v)
      · rw [if_pos (hs.2 hx)] at e
        exact Or.inl ⟨(c, b), List.mem_cons_self .., l, hl, hx, e⟩
      · rw [if_neg (fun h => hx (hs.1 h))] at e
        refine lift e ?_
        intro m hm
        rw [hl] at hm
        cases hm
        exact hx

/-! ## LLVM's `switch` -/

theorem sub_succ {w : Nat} (a b : BitVec w) (h : a ≠ b) : (b - (a + 1#w)).toNat + 1 = (b - a).toNat := by
  have e : b - (a + 1#w) = (b - a) - 1#w := by grind
  have hne : b - a ≠ 0#w := fun h0 => h (by grind)
  have hpos : 0 < (b - a).toNat := Nat.pos_of_ne_zero fun h0 => hne (BitVec.eq_of_toNat_eq (by simpa using h0))
  have hw : 0 < w := by
    rcases Nat.eq_zero_or_pos w with rfl | h'
    · exact absurd (Subsingleton.elim a b) h
    · exact h'
  rw [e, BitVec.toNat_sub_of_le]
  · rw [BitVec.toNat_one hw]
    omega
  · rw [BitVec.le_def, BitVec.toNat_one hw]
    omega

theorem mem_rangeCases {w : Nat} (a b x : BitVec w) : x ∈ rangeCases a b ↔ (x - a).toNat ≤ (b - a).toNat := by
  rw [rangeCases]
  split
  · rename_i h
    subst h
    rw [List.mem_singleton, BitVec.sub_self]
    constructor
    · rintro rfl
      simp
    · intro h
      have : x - a = 0#w := BitVec.eq_of_toNat_eq (by simpa using h)
      grind
  · rename_i h
    rw [List.mem_cons, mem_rangeCases (a + 1#w) b x]
    have hb := sub_succ a b h
    by_cases hx : x = a
    · subst hx
      simp
    · have := sub_succ a x (fun e => hx e.symm)
      constructor
      · rintro (e | e)
        · exact absurd e hx
        · omega
      · intro e
        exact Or.inr (by omega)
termination_by (b - a).toNat
decreasing_by exact range_measure a b (by assumption)

theorem nodup_rangeCases {w : Nat} (a b : BitVec w) : (rangeCases a b).Nodup := by
  rw [rangeCases]
  split
  · simp
  · rename_i h
    rw [List.nodup_cons]
    refine ⟨?_, nodup_rangeCases (a + 1#w) b⟩
    rw [mem_rangeCases]
    have h1 := sub_succ a b h
    have hlt := (b - a).isLt
    have hw : 0 < w := by
      rcases Nat.eq_zero_or_pos w with rfl | h'
      · exact absurd (Subsingleton.elim a b) h
      · exact h'
    have e : (a - (a + 1#w)).toNat = 2 ^ w - 1 := by
      have : a - (a + 1#w) = -1#w := by grind
      rw [this, BitVec.toNat_neg, BitVec.toNat_one hw]
      exact Nat.mod_eq_of_lt (by have := Nat.two_pow_pos w; omega)
    rw [e]
    omega
termination_by (b - a).toNat
decreasing_by exact range_measure a b (by assumption)

/-- Subtraction in the machine, seen from the values. -/
theorem sub_value (t : TypeKind) (x a : Val t) : ((x - a).toNat : Int) = (value t x - value t a) % 2 ^ type_kind_bitsize t := by
  have e : ∀ v : Val t, ∃ k : Int, value t v = v.toNat + 2 ^ type_kind_bitsize t * k := by
    intro v
    unfold value
    split
    · rw [BitVec.toInt_eq_toNat_cond]
      split
      · exact ⟨0, by simp⟩
      · refine ⟨-1, ?_⟩
        rw [Nat.cast_pow]
        have e : ((2 : Nat) : Int) = 2 := rfl
        rw [e]
        omega
    · exact ⟨0, by simp⟩
  obtain ⟨k, hk⟩ := e x
  obtain ⟨m, hm⟩ := e a
  have : value t x - value t a = (x.toNat - a.toNat) + 2 ^ type_kind_bitsize t * (k - m) := by
    rw [hk, hm, Int.mul_sub]; omega
  rw [this, Int.add_mul_emod_self_left, BitVec.toNat_sub]
  have ha := a.isLt
  have hc : ((2 ^ type_kind_bitsize t : Nat) : Int) = 2 ^ type_kind_bitsize t := by rw [Nat.cast_pow]; rfl
  rw [Int.natCast_emod, hc, Nat.cast_add, Nat.cast_sub (by omega), hc]
  have : (2 ^ type_kind_bitsize t - (a.toNat : Int) + x.toNat) = (x.toNat - a.toNat) + 2 ^ type_kind_bitsize t * 1 := by omega
  rw [this, Int.add_mul_emod_self_left]

theorem span (t : TypeKind) : t.maxVal + 1 = t.minVal + 2 ^ type_kind_bitsize t := by
  cases t <;> decide

/-- The values met counting up in the machine. -/
theorem counting (t : TypeKind) (a b x : Val t) (h : value t a ≤ value t b) :
    (x - a).toNat ≤ (b - a).toNat ↔ value t a ≤ value t x ∧ value t x ≤ value t b := by
  have h1 := sub_value t x a
  have h2 := sub_value t b a
  have ra := value_range t a
  have rb := value_range t b
  have rx := value_range t x
  have hs := span t
  unfold TypeKind.InRange at ra rb rx
  generalize value t a = A at *
  generalize value t b = B at *
  generalize value t x = X at *
  have hp : (0 : Int) < 2 ^ type_kind_bitsize t := Int.pow_pos (by decide)
  generalize (2 : Int) ^ type_kind_bitsize t = N at *
  rw [Int.emod_eq_of_lt (by omega) (by omega)] at h2
  by_cases hx : A ≤ X
  · rw [Int.emod_eq_of_lt (by omega) (by omega)] at h1
    omega
  · have e : (X - A) % N = X - A + N := by
      rw [← Int.add_emod_right, Int.emod_eq_of_lt (by omega) (by omega)]
    rw [e] at h1
    omega

/-- No value is in two of the cases. -/
def Apart (cs : List Case) : Prop :=
  cs.Pairwise fun c d => ∀ l ∈ c.label, ∀ m ∈ d.label, ∀ x, l.Contains x → ¬ m.Contains x

theorem apart_of_disjoint {cases : List Case} (h : Disjoint cases) : Apart cases := by
  rw [Apart, List.pairwise_iff_getElem]
  intro i j hi hj hij l hl m hm x
  exact h i j _ _ l m x hij (List.getElem?_eq_getElem hi) (List.getElem?_eq_getElem hj) hl hm

theorem case_values {t : TypeKind} {n : Option Nat} {l : Label} (h : l.Typed t n) (ho : l.lo ≤ l.hi) (x : Val t) :
    x ∈ caseValues t l ↔ l.Contains (value t x) := by
  unfold caseValues
  obtain ⟨h1, h2, h3, h4, h5, h6⟩ := labelValues_spec t n l h
  have e1 := constVal_value t _ h3 h5
  have e2 := constVal_value t _ h4 h6
  unfold Label.Contains
  rcases hl : l.last with _ | y
  · simp only [List.mem_singleton]
    rw [← value_inj, e1, h1, hi_eq_lo hl]
    omega
  · rw [mem_rangeCases, counting t _ _ _ (by rw [e1, e2, h1, h2]; exact ho), e1, e2, h1, h2]

theorem llvmCases_spec {t : TypeKind} {n : Option Nat} {cs : List (Case × Block)} (h : ∀ c ∈ cs, ∀ l ∈ c.1.label, l.Typed t n)
    (ho : ∀ c ∈ cs, ∀ l ∈ c.1.label, l.lo ≤ l.hi) (ha : Apart (cs.map (·.1))) :
    ((llvmCases t cs).map (·.1)).Nodup ∧
    ∀ x b, (x, b) ∈ llvmCases t cs ↔ ∃ c, (c, b) ∈ cs ∧ ∃ l ∈ c.label, l.Contains (value t x) := by
  induction cs with
  | nil => exact ⟨by simp [llvmCases], by simp [llvmCases]⟩
  | cons c cs ih =>
    obtain ⟨ih1, ih2⟩ := ih (fun d hd => h d (List.mem_cons_of_mem _ hd)) (fun d hd => ho d (List.mem_cons_of_mem _ hd))
      (List.pairwise_cons.1 ha).2
    have hd := (List.pairwise_cons.1 ha).1
    obtain ⟨c, b⟩ := c
    rw [llvmCases]
    rcases hl : c.label with _ | l
    · refine ⟨ih1, fun x b' => ?_⟩
      rw [ih2]
      constructor
      · rintro ⟨d, hd, r⟩
        exact ⟨d, List.mem_cons_of_mem _ hd, r⟩
      · rintro ⟨d, hd, m, hm, hx⟩
        rcases List.mem_cons.1 hd with e | hd
        · cases e
          rw [hl] at hm
          cases hm
        · exact ⟨d, hd, m, hm, hx⟩
    · have hv := case_values (h (c, b) (List.mem_cons_self ..) l hl) (ho (c, b) (List.mem_cons_self ..) l hl)
      have hnd : (caseValues t l).Nodup := by
        unfold caseValues
        split
        · exact nodup_rangeCases _ _
        · simp
      dsimp only
      constructor
      · rw [List.map_append, List.map_map, show ((fun x : Val t × Block => x.1) ∘ fun x => (x, b)) = id from rfl, List.map_id]
        rw [List.nodup_append]
        refine ⟨hnd, ih1, ?_⟩
        rintro x hx y hy rfl
        obtain ⟨⟨x', b'⟩, hm, rfl⟩ := List.mem_map.1 hy
        obtain ⟨d, hd', m, hm', hc⟩ := (ih2 x' b').1 hm
        exact hd d (List.mem_map.2 ⟨_, hd', rfl⟩) l hl m hm' _ ((hv x').1 hx) hc
      · intro x b'
        rw [List.mem_append, List.mem_map, ih2]
        constructor
        · rintro (⟨y, hy, e⟩ | ⟨d, hd, r⟩)
          · cases e
            exact ⟨c, List.mem_cons_self .., l, hl, (hv x).1 hy⟩
          · exact ⟨d, List.mem_cons_of_mem _ hd, r⟩
        · rintro ⟨d, hd', m, hm, hx⟩
          rcases List.mem_cons.1 hd' with e | hd'
          · cases e
            rw [hl] at hm
            cases hm
            exact Or.inl ⟨x, (hv x).2 hx, rfl⟩
          · exact Or.inr ⟨d, hd', m, hm, hx⟩

/-! ## Jump tables -/

theorem fillRefs_spec (block : Block) (refs : List (Option Block)) (j n : Nat) (h : j + n ≤ refs.length) :
    ∃ r, fillRefs block refs j n = some r ∧ r.length = refs.length ∧
      ∀ k, r[k]? = if j ≤ k ∧ k < j + n then some (some block) else refs[k]? := by
  induction n generalizing refs j with
  | zero => exact ⟨refs, rfl, rfl, fun k => by rw [if_neg (by omega)]⟩
  | succ n ih =>
    obtain ⟨r, e, hl, hk⟩ := ih (refs.set j (some block)) (j + 1) (by rw [List.length_set]; omega)
    refine ⟨r, by rw [fillRefs, if_pos (by omega)]; exact e, by rw [hl, List.length_set], fun k => ?_⟩
    rw [hk, List.getElem?_set]
    by_cases h1 : j = k
    · subst h1
      rw [if_neg (show ¬ (j + 1 ≤ j ∧ j < j + 1 + n) by omega), if_pos rfl, if_pos (show j < refs.length by omega),
        if_pos (show j ≤ j ∧ j < j + (n + 1) by omega)]
    · rw [if_neg h1]
      by_cases h2 : j + 1 ≤ k ∧ k < j + 1 + n
      · rw [if_pos h2, if_pos (by omega)]
      · rw [if_neg h2, if_neg (by omega)]

theorem small {c : CInt} (h0 : 0 ≤ c.val) (h1 : c.val < 2 ^ 64) : (c.i.low.toNat : Int) = c.val ∧ c.i.high = 0#64 := by
  have hu : c.val = (c.i.u : Int) := by
    have hlt : c.i.u < 2 ^ 128 := by
      unfold Int128.u
      have := c.i.low.isLt
      have := c.i.high.isLt
      omega
    unfold CInt.val Int128.s at *
    split
    · rename_i hs
      simp only [hs, if_true] at h0 h1
      split
      · rfl
      · rename_i h
        rw [if_neg h] at h0
        omega
    · rfl
  rw [hu] at h1 ⊢
  unfold Int128.u at *
  have := c.i.low.isLt
  have hh : c.i.high.toNat = 0 := by omega
  refine ⟨by omega, BitVec.eq_of_toNat_eq (by simpa using hh)⟩

theorem wraps_eq {t : TypeKind} {x r : Int} (h : Wraps t x r) (hx : t.InRange x) : r = x := by
  obtain ⟨h1, k, hk⟩ := h
  unfold TypeKind.InRange at h1 hx
  have hs := span t
  rw [bits_eq] at hs
  have hp : (0 : Int) < 2 ^ t.bits := Int.pow_pos (by decide)
  generalize (2 : Int) ^ t.bits = N at *
  have : k = 0 := by
    rcases Int.lt_trichotomy k 0 with h | h | h
    · have : N * k ≤ N * (-1) := Int.mul_le_mul_of_nonneg_left (by omega) (by omega)
      omega
    · exact h
    · have : N * 1 ≤ N * k := Int.mul_le_mul_of_nonneg_left (by omega) (by omega)
      omega
  subst this
  omega

/-- A difference that is in the type and fits in a word. -/
theorem diff {t : TypeKind} {a b : CInt} (ha : a.type = t) (hb : b.type = t) (h0 : b.val ≤ a.val)
    (h1 : a.val - b.val ≤ t.maxVal) (h2 : a.val - b.val < 2 ^ 64) :
    ∃ r, int_sub a b = some r ∧ (r.i.low.toNat : Int) = a.val - b.val ∧ r.i.high = 0#64 := by
  obtain ⟨r, e, _, w⟩ := C01_sub a b (by rw [ha, hb])
  rw [ha] at w
  have hm : t.minVal ≤ 0 := by
    unfold TypeKind.minVal
    split
    · have : (0 : Int) < 2 ^ (t.bits - 1) := Int.pow_pos (by decide)
      omega
    · exact Int.le_refl _
  have hr := wraps_eq w ⟨by omega, h1⟩
  obtain ⟨s1, s2⟩ := small (c := r) (by omega) (by omega)
  exact ⟨r, e, by omega, s2⟩

theorem fillTable_spec {t : TypeKind} {n : Option Nat} {min : CInt} (hmin : min.type = t) {cs : List (Case × Block)}
    (refs : List (Option Block)) (dests : List Block)
    (h : ∀ c ∈ cs, ∀ l ∈ c.1.label, l.Typed t n)
    (hr : ∀ c ∈ cs, ∀ l ∈ c.1.label, min.val ≤ l.lo ∧ l.lo ≤ l.hi ∧ l.hi - min.val < refs.length ∧ l.hi - min.val ≤ t.maxVal)
    (hlen : refs.length < 2 ^ 64) (hbody : ∀ c ∈ cs, c.1.label ≠ none → c.1.body = true) (ha : Apart (cs.map (·.1))) :
    ∃ r d, fillTable t min refs dests cs = some (r, d) ∧ r.length = refs.length ∧
      (∀ c b, (c, b) ∈ cs → ∀ l ∈ c.label, ∀ k : Nat, l.Contains (min.val + k) → r[k]? = some (some b)) ∧
      (∀ k : Nat, (∀ c ∈ cs, ∀ l ∈ c.1.label, ¬ l.Contains (min.val + k)) → r[k]? = refs[k]?) ∧
      (∀ b ∈ dests, b ∈ d) ∧ ∀ c b, (c, b) ∈ cs → c.label ≠ none → b ∈ d := by
  induction cs generalizing refs dests with
  | nil => exact ⟨refs, dests, rfl, rfl, by simp, by simp, by simp, by simp⟩
  | cons c cs ih =>
    obtain ⟨c, b⟩ := c
    have ih := fun (refs' : List (Option Block)) (dests' : List Block) (hl : refs'.length = refs.length) => ih refs' dests'
      (fun d hd => h d (List.mem_cons_of_mem _ hd))
      (fun d hd => by rw [hl]; exact hr d (List.mem_cons_of_mem _ hd)) (by rw [hl]; exact hlen)
      (fun d hd => hbody d (List.mem_cons_of_mem _ hd)) (List.pairwise_cons.1 ha).2
    have hd := (List.pairwise_cons.1 ha).1
    rw [fillTable]
    rcases hl : c.label with _ | l
    · obtain ⟨r, d, e, h1, h2, h3, h4, h5⟩ := ih refs dests rfl
      refine ⟨r, d, e, h1, ?_, ?_, h4, ?_⟩
      · intro c' b' hm m hm'
        rcases List.mem_cons.1 hm with e | hm
        · cases e
          rw [hl] at hm'
          cases hm'
        · exact h2 c' b' hm m hm'
      · exact fun k hk => h3 k fun c' hc' => hk c' (List.mem_cons_of_mem _ hc')
      · intro c' b' hm hne
        rcases List.mem_cons.1 hm with e | hm
        · cases e
          exact absurd hl hne
        · exact h5 c' b' hm hne
    · obtain ⟨v1, v2, v3, v4, v5, v6⟩ := labelValues_spec t n l (h (c, b) (List.mem_cons_self ..) l hl)
      obtain ⟨r1, r2, r3, r4⟩ := hr (c, b) (List.mem_cons_self ..) l hl
      obtain ⟨x, ex, lx, _⟩ := diff (a := (labelValues t l).1) v3 hmin (by omega) (by omega) (by omega)
      obtain ⟨y, ey, ly, _⟩ := diff (a := (labelValues t l).2) v4 hmin (by omega) (by omega) (by omega)
      rw [v1] at lx
      rw [v2] at ly
      obtain ⟨q, eq, ql, qk⟩ := fillRefs_spec b refs x.i.low.toNat (y.i.low.toNat + 1 - x.i.low.toNat) (by omega)
      obtain ⟨r, d, e, h1, h2, h3, h4, h5⟩ := ih q (if c.body then b :: dests else dests) ql
      have hb := hbody (c, b) (List.mem_cons_self ..) (by simp [hl])
      have hb : c.body = true := hb
      refine ⟨r, d, ?_, by rw [h1, ql], ?_, ?_, ?_, ?_⟩
      · simp only [ex, ey, eq, e, Option.bind_eq_bind, Option.bind_some]
      · intro c' b' hm m hm' k hk
        rcases List.mem_cons.1 hm with e | hm
        · cases e
          rw [hl] at hm'
          cases hm'
          rw [h3 k, qk, if_pos]
          · unfold Label.Contains at hk
            omega
          · intro c' hc' m hm' hx
            exact hd c'.1 (List.mem_map.2 ⟨_, hc', rfl⟩) l hl m hm' _ hk hx
        · exact h2 c' b' hm m hm' k hk
      · intro k hk
        rw [h3 k fun c' hc' => hk c' (List.mem_cons_of_mem _ hc'), qk, if_neg]
        intro hx
        refine hk (c, b) (List.mem_cons_self ..) l hl ?_
        unfold Label.Contains
        omega
      · intro b' hb'
        refine h4 b' ?_
        rw [if_pos hb]
        exact List.mem_cons_of_mem _ hb'
      · intro c' b' hm hne
        rcases List.mem_cons.1 hm with e | hm
        · cases e
          exact h4 b (by rw [if_pos hb]; exact List.mem_cons_self ..)
        · exact h5 c' b' hm hne

/-- What is known of the bounds found so far. -/
def Found (t : TypeKind) (P : List Case) (min max : CInt) : Prop :=
  (min.type = t ∧ min.WF) ∧ max.type = t ∧ (∀ c ∈ P, ∀ l ∈ c.label, min.val ≤ l.lo ∧ l.lo ≤ l.hi ∧ l.hi ≤ max.val) ∧
  (∃ c ∈ P, ∃ l ∈ c.label, l.lo = min.val) ∧ ∃ c ∈ P, ∃ l ∈ c.label, l.hi = max.val

theorem tableBounds_some {t : TypeKind} {n : Option Nat} {cs : List (Case × Block)} {P : List Case} {min max : CInt}
    (h : ∀ c ∈ cs, ∀ l ∈ c.1.label, l.Typed t n) (ho : ∀ c ∈ cs, ∀ l ∈ c.1.label, l.lo ≤ l.hi)
    (ha : Apart (P ++ cs.map (·.1))) (hf : Found t P min max) :
    ∃ mn mx, tableBounds t (some (min, max)) cs = some (mn, mx) ∧ Found t (P ++ cs.map (·.1)) mn mx := by
  induction cs generalizing P min max with
  | nil => exact ⟨min, max, rfl, by simpa using hf⟩
  | cons c cs ih =>
    obtain ⟨c, b⟩ := c
    have ih := fun (mn mx : CInt) => ih (P := P ++ [c]) (min := mn) (max := mx) (fun d hd => h d (List.mem_cons_of_mem _ hd))
      (fun d hd => ho d (List.mem_cons_of_mem _ hd)) (by simpa using ha)
    have ih' : ∀ mn mx, Found t (P ++ [c]) mn mx → ∃ mn' mx', tableBounds t (some (mn, mx)) cs = some (mn', mx') ∧
        Found t (P ++ ((c, b) :: cs).map (·.1)) mn' mx' := by
      intro mn mx hf
      obtain ⟨a, b, e, f⟩ := ih mn mx hf
      exact ⟨a, b, e, by simpa using f⟩
    obtain ⟨f1, f2, f3, ⟨cA, hcA, A, hA, eA⟩, ⟨cB, hcB, B, hB, eB⟩⟩ := hf
    rw [tableBounds]
    rcases hl : c.label with _ | l
    · refine ih' min max ⟨f1, f2, ?_, ⟨cA, List.mem_append_left _ hcA, A, hA, eA⟩, ⟨cB, List.mem_append_left _ hcB, B, hB, eB⟩⟩
      intro d hd m hm
      rcases List.mem_append.1 hd with hd | hd
      · exact f3 d hd m hm
      · rw [List.mem_singleton.1 hd, hl] at hm
        cases hm
    · obtain ⟨v1, v2, v3, v4, v5, v6⟩ := labelValues_spec t n l (h (c, b) (List.mem_cons_self ..) l hl)
      have hle := ho (c, b) (List.mem_cons_self ..) l hl
      have hapart : ∀ d ∈ P, ∀ m ∈ d.label, ∀ x, m.Contains x → ¬ l.Contains x := by
        intro d hd m hm x
        have := (List.pairwise_append.1 ha).2.2 d hd c (by simp)
        exact this m hm l hl x
      have hc : c ∈ P ++ [c] := List.mem_append_right _ (List.mem_singleton.2 rfl)
      have c1 := C06_compare (labelValues t l).1 min .LT
      have c2 := C06_compare (labelValues t l).2 max .GT
      simp only [CmpOp.holds, v1, v2] at c1 c2
      have cover : ∀ mn mx : CInt, mn.val ≤ min.val → max.val ≤ mx.val → mn.val ≤ l.lo → l.hi ≤ mx.val →
          ∀ d ∈ P ++ [c], ∀ m ∈ d.label, mn.val ≤ m.lo ∧ m.lo ≤ m.hi ∧ m.hi ≤ mx.val := by
        intro mn mx g1 g2 g3 g4 d hd m hm
        rcases List.mem_append.1 hd with hd | hd
        · have := f3 d hd m hm
          omega
        · rw [List.mem_singleton.1 hd, hl] at hm
          cases hm
          exact ⟨g3, hle, g4⟩
      dsimp only
      by_cases h1 : int_comp (labelValues t l).1 min .LT = true
      · rw [if_pos h1]
        have hlt := c1.1 h1
        have hA' := f3 cA hcA A hA
        have : l.hi < A.lo := by
          rcases Int.lt_or_le l.hi A.lo with h | h
          · exact h
          · exact absurd ⟨by omega, h⟩ (hapart cA hcA A hA A.lo ⟨Int.le_refl _, hA'.2.1⟩)
        refine ih' _ max ⟨⟨v3, v5⟩, f2, cover _ _ (by omega) (Int.le_refl _) (by omega) (by omega), ⟨c, hc, l, hl, v1.symm⟩,
          ⟨cB, List.mem_append_left _ hcB, B, hB, eB⟩⟩
      · rw [if_neg h1]
        have hge : min.val ≤ l.lo := Int.not_lt.1 fun h => h1 (c1.2 h)
        by_cases h2 : int_comp (labelValues t l).2 max .GT = true
        · rw [if_pos h2]
          have := c2.1 h2
          exact ih' min _ ⟨f1, v4, cover _ _ (Int.le_refl _) (by omega) hge (by omega),
            ⟨cA, List.mem_append_left _ hcA, A, hA, eA⟩, ⟨c, hc, l, hl, v2.symm⟩⟩
        · rw [if_neg h2]
          have : l.hi ≤ max.val := Int.not_lt.1 fun h => h2 (c2.2 h)
          exact ih' min max ⟨f1, f2, cover _ _ (Int.le_refl _) (Int.le_refl _) hge this,
            ⟨cA, List.mem_append_left _ hcA, A, hA, eA⟩, ⟨cB, List.mem_append_left _ hcB, B, hB, eB⟩⟩

theorem tableBounds_none {t : TypeKind} {n : Option Nat} {cs : List (Case × Block)} {P : List Case}
    (h : ∀ c ∈ cs, ∀ l ∈ c.1.label, l.Typed t n) (ho : ∀ c ∈ cs, ∀ l ∈ c.1.label, l.lo ≤ l.hi)
    (ha : Apart (P ++ cs.map (·.1))) (hP : ∀ c ∈ P, c.label = none) (hne : ∃ c ∈ cs, c.1.label ≠ none) :
    ∃ mn mx, tableBounds t none cs = some (mn, mx) ∧ Found t (P ++ cs.map (·.1)) mn mx := by
  induction cs generalizing P with
  | nil => obtain ⟨c, hc, _⟩ := hne; cases hc
  | cons c cs ih =>
    obtain ⟨c, b⟩ := c
    rw [tableBounds]
    rcases hl : c.label with _ | l
    · obtain ⟨mn, mx, e, f⟩ := ih (P := P ++ [c]) (fun d hd => h d (List.mem_cons_of_mem _ hd))
        (fun d hd => ho d (List.mem_cons_of_mem _ hd)) (by simpa using ha) (by
          intro d hd
          rcases List.mem_append.1 hd with hd | hd
          · exact hP d hd
          · rw [List.mem_singleton.1 hd]; exact hl) (by
          obtain ⟨d, hd, hn⟩ := hne
          rcases List.mem_cons.1 hd with rfl | hd
          · exact absurd hl hn
          · exact ⟨d, hd, hn⟩)
      exact ⟨mn, mx, e, by simpa using f⟩
    · obtain ⟨v1, v2, v3, v4, v5, v6⟩ := labelValues_spec t n l (h (c, b) (List.mem_cons_self ..) l hl)
      have hc : c ∈ P ++ [c] := List.mem_append_right _ (List.mem_singleton.2 rfl)
      obtain ⟨mn, mx, e, f⟩ := tableBounds_some (P := P ++ [c]) (min := (labelValues t l).1) (max := (labelValues t l).2)
        (fun d hd => h d (List.mem_cons_of_mem _ hd)) (fun d hd => ho d (List.mem_cons_of_mem _ hd)) (by simpa using ha) (by
          refine ⟨⟨v3, v5⟩, v4, ?_, ⟨c, hc, l, hl, v1.symm⟩, ⟨c, hc, l, hl, v2.symm⟩⟩
          intro d hd m hm
          rcases List.mem_append.1 hd with hd | hd
          · rw [hP d hd] at hm; cases hm
          · rw [List.mem_singleton.1 hd, hl] at hm
            cases hm
            have := ho (c, b) (List.mem_cons_self ..) l hl
            omega)
      exact ⟨mn, mx, e, by simpa using f⟩

theorem gep_small (t : TypeKind) (v : Val t) (h1 : (v.toNat : Int) ≤ t.maxVal) (h2 : v.toNat < 2 ^ 62) : gepIndex t v = v.toNat := by
  have key : ∀ {w : Nat} (v : BitVec w), v.toNat < 2 ^ (w - 1) → v.toNat < 2 ^ 62 → (v.signExtend 64).toInt = v.toNat := by
    intro w v a b
    have hm : v.msb = false := by
      rw [BitVec.msb_eq_false_iff_two_mul_lt]
      rcases w with _ | w
      · have := v.isLt; omega
      · have : 2 ^ (w + 1) = 2 ^ w * 2 := Nat.pow_succ _ _
        simp only [Nat.add_sub_cancel] at a
        omega
    rw [BitVec.signExtend_eq_setWidth_of_msb_false hm, BitVec.toInt_eq_toNat_of_lt]
    · rw [BitVec.toNat_setWidth, Nat.mod_eq_of_lt (by omega)]
    · rw [BitVec.toNat_setWidth, Nat.mod_eq_of_lt (by omega)]
      omega
  unfold gepIndex
  split
  · rfl
  · rename_i hc
    apply key v _ h2
    clear key
    generalize v.toNat = m at *
    cases t <;> simp [type_kind_is_unsigned, type_kind_bitsize] at hc <;>
      simp only [TypeKind.maxVal, TypeKind.signed, TypeKind.bits, if_true, type_kind_bitsize] at h1 ⊢ <;> omega

theorem jumpTable_spec {t : TypeKind} {n : Option Nat} {cases : List Case} (v : Val t) (h : Typed t n cases)
    (ho : Ordered cases) (ha : Apart cases) (hbody : ∀ c ∈ cases, c.label ≠ none → c.body = true)
    (hne : ∃ c ∈ cases, c.label ≠ none) (hd : DefaultEnds cases)
    (hspan : ∀ c ∈ cases, ∀ l ∈ c.label, ∀ d ∈ cases, ∀ m ∈ d.label, m.hi - l.lo ≤ t.maxVal ∧ m.hi - l.lo < 0x3FFF) :
    ∃ b, jumpTable t v (withBlocks cases) = some b ∧ Target cases (value t v) b := by
  have hT : ∀ c ∈ withBlocks cases, ∀ l ∈ c.1.label, l.Typed t n := fun c hc => h c.1 (mem_cases hc)
  have hO : ∀ c ∈ withBlocks cases, ∀ l ∈ c.1.label, l.lo ≤ l.hi := fun c hc => ho c.1 (mem_cases hc)
  obtain ⟨mn, mx, e1, ⟨f0, f1⟩, f2, f3, ⟨cA, hcA, A, hA, eA⟩, ⟨cB, hcB, B, hB, eB⟩⟩ := tableBounds_none (P := []) hT hO
    (by simpa [withBlocks_fst] using ha) (by simp) (by
      obtain ⟨c, hc, hn⟩ := hne
      obtain ⟨b, hb⟩ := with_mem hc
      exact ⟨_, hb, hn⟩)
  simp only [List.nil_append, withBlocks_fst] at f3 hcA hcB
  have hAB := hspan cA hcA A hA cB hcB B hB
  have hA3 := f3 cA hcA A hA
  rw [eA, eB] at hAB
  obtain ⟨size, e2, s1, s2⟩ := diff (a := mx) (b := mn) f2 f0 (by omega) hAB.1 (by omega)
  have hsz : size.i.low.toNat < 0x3FFF := by omega
  obtain ⟨refs, dests, e3, g1, g2, g3, g4, g5⟩ := fillTable_spec (n := n) (min := mn) f0 (cs := withBlocks cases)
    (List.replicate (size.i.low.toNat + 1) none) [] hT (by
      intro c hc l hl
      have h3 := f3 c.1 (mem_cases hc) l hl
      have h4 := hspan cA hcA A hA c.1 (mem_cases hc) l hl
      rw [List.length_replicate]
      omega) (by rw [List.length_replicate]; omega) (fun c hc => hbody c.1 (mem_cases hc)) (by rw [withBlocks_fst]; exact ha)
  rw [List.length_replicate] at g1
  -- the index
  have hmv := constVal_value t mn f0 f1
  have hidx : (if constVal t mn = 0 then v else v - constVal t mn) = v - constVal t mn := by
    split
    · rename_i h0
      rw [h0]
      exact (BitVec.sub_zero v).symm
    · rfl
  have hsub := sub_value t v (constVal t mn)
  rw [hmv] at hsub
  -- the default
  have hdef : (∀ c ∈ cases, ∀ l ∈ c.label, ¬ l.Contains (value t v)) → Target cases (value t v)
      (defaultBlock (defaultCase (withBlocks cases))) := fun hno => target_defaultBlock hno hd
  unfold jumpTable
  generalize defaultBlock (defaultCase (withBlocks cases)) = dflt at *
  simp only [e1, e2, e3, Option.bind_eq_bind, Option.bind_some, Nat.add_sub_cancel]
  rw [if_neg (by rw [s2]; simp; omega), hidx]
  have hwide : (BitVec.ofNat (type_kind_bitsize t) size.i.low.toNat).toNat = size.i.low.toNat := by
    rw [BitVec.toNat_ofNat]
    apply Nat.mod_eq_of_lt
    have h1 : (size.i.low.toNat : Int) ≤ t.maxVal := by omega
    have h2 : t.maxVal < 2 ^ type_kind_bitsize t := by cases t <;> decide
    have h3 : ((2 ^ type_kind_bitsize t : Nat) : Int) = 2 ^ type_kind_bitsize t := by rw [Nat.cast_pow]; rfl
    omega
  rw [hwide]
  have rv := value_range t v
  have rmx : mx.val ≤ t.maxVal := by
    obtain ⟨v1, v2, v3, v4, v5, v6⟩ := labelValues_spec t n B (h cB hcB B hB)
    have h6 := v6.2
    rw [v4, v2, eB] at h6
    exact h6
  have rmn := f1.1
  rw [f0] at rmn
  have hs := span t
  unfold TypeKind.InRange at rv
  by_cases hgt : (v - constVal t mn).toNat > size.i.low.toNat
  · rw [if_pos hgt]
    refine ⟨_, rfl, hdef ?_⟩
    intro c hc l hl hx
    have := f3 c hc l hl
    unfold Label.Contains at hx
    rw [Int.emod_eq_of_lt (by omega) (by omega)] at hsub
    omega
  · rw [if_neg hgt]
    have hval : value t v = mn.val + (v - constVal t mn).toNat := by
      generalize hN : (2 : Int) ^ type_kind_bitsize t = N at *
      by_cases hx : mn.val ≤ value t v
      · rw [Int.emod_eq_of_lt (by omega) (by omega)] at hsub
        omega
      · rw [← Int.add_emod_right, Int.emod_eq_of_lt (by omega) (by omega)] at hsub
        omega
    generalize hk : (v - constVal t mn).toNat = k at *
    have hg := gep_small t (v - constVal t mn) (by rw [hk]; omega) (by rw [hk]; omega)
    rw [hk] at hg
    rw [hg, if_neg (by omega), Int.toNat_natCast]
    by_cases hno : ∀ c ∈ cases, ∀ l ∈ c.label, ¬ l.Contains (value t v)
    · have hr : refs[k]? = some none := by
        rw [g3 k, List.getElem?_replicate, if_pos (by omega)]
        intro c hc l hl
        rw [← hval]
        exact hno c.1 (mem_cases hc) l hl
      have hall : ¬ refs.all Option.isSome = true := by
        rw [List.all_eq_true]
        intro hh
        have := hh none (List.mem_iff_getElem?.2 ⟨k, hr⟩)
        simp at this
      rw [hr]
      simp only [Option.bind_some, Option.getD_none, if_neg hall, List.mem_cons, true_or, if_true]
      exact ⟨dflt, rfl, hdef hno⟩
    · have : ∃ c ∈ cases, ∃ l ∈ c.label, l.Contains (value t v) := by
        by_contra hc
        exact hno fun c hc' l hl hx => hc ⟨c, hc', l, hl, hx⟩
      obtain ⟨c, hc, l, hl, hx⟩ := this
      obtain ⟨b, hb⟩ := with_mem hc
      have hr : refs[k]? = some (some b) := g2 c b hb l hl k (by rw [← hval]; exact hx)
      have hm : b ∈ dests := g5 c b hb (by rw [hl]; simp)
      rw [hr]
      simp only [Option.bind_some, Option.getD_some]
      have hm' : b ∈ (if refs.all Option.isSome = true then dests else dflt :: dests) := by
        split
        · exact hm
        · exact List.mem_cons_of_mem _ hm
      rw [if_pos hm']
      exact ⟨b, rfl, target_case hb hl hx⟩

end C3.Switch
