import Mathlib.Data.Finset.Card
import Mathlib.Data.Finset.Range
import Mathlib.Data.List.Nodup
import Verif.Switch.LemmasCodegen

/-! # What acceptance of a switch says -/

set_option autoImplicit false

namespace C3.Switch
open C3.Bigint C3.ConstCompare

/-- What acceptance says about the cases. -/
theorem accepted {t : TypeKind} {lim : Limits} {n : Option Nat} {jump : Bool} {cases : List Case} {plan : Plan}
    (h : Typed t n cases) (ha : analyseSwitch lim n jump cases = some (some plan)) :
    ∃ s, checkCases lim ⟨false, 0#64, none, none, false⟩ [] cases = some (some s) ∧
      (n ≠ none → s.hasDefault = true ∨ ∃ m, n = some m ∧ s.actualCases.toNat = m) ∧
      (jump = false → plan = ⟨s.maxRanged, false⟩) ∧
      (jump = true → plan = ⟨false, !(s.hasDefault && cases.length == 1)⟩ ∧
        ∀ low ∈ s.low, ∀ high ∈ s.high, ∀ r, int_sub high low = some r → int_comp r ⟨⟨0#64, lim.jump.setWidth 64⟩, r.type⟩ .GE = false) := by
  obtain ⟨r, e, _⟩ := checkCases_spec lim ⟨false, 0#64, none, none, false⟩ (before := []) (by simp [Typed]) h
  unfold analyseSwitch at ha
  simp only [e, Option.bind_eq_bind, Option.bind_some] at ha
  rcases r with _ | s
  · simp at ha
  · refine ⟨s, e, ?_⟩
    simp only at ha
    generalize hex : exhaustive n s = exh at ha
    by_cases h1 : (n.isSome && !exh) = true
    · rw [if_pos h1] at ha
      simp at ha
    · rw [if_neg h1] at ha
      refine ⟨?_, ?_, ?_⟩
      · intro hn
        rcases n with _ | m
        · exact absurd rfl hn
        · simp only [Option.isSome_some, Bool.true_and, Bool.not_eq_true', Bool.not_eq_false] at h1
          rw [h1, exhaustive, Bool.or_eq_true] at hex
          exact hex.imp id fun h => ⟨m, rfl, by simpa using h⟩
      · rintro rfl
        simp only [Bool.false_eq_true, if_false, Option.some.injEq] at ha
        exact ha.symm
      · rintro rfl
        rw [if_pos rfl] at ha
        rcases hlo : s.low with _ | low <;> rcases hhi : s.high with _ | high <;> rw [hlo, hhi] at ha
        · simp only [Bool.false_eq_true, if_false, Option.some.injEq] at ha
          exact ⟨ha.symm, by simp⟩
        · simp only [Bool.false_eq_true, if_false, Option.some.injEq] at ha
          exact ⟨ha.symm, by simp⟩
        · simp only [Bool.false_eq_true, if_false, Option.some.injEq] at ha
          exact ⟨ha.symm, by simp⟩
        · dsimp only at ha
          rcases hr : int_sub high low with _ | r
          · rw [hr] at ha
            simp at ha
          · rw [hr] at ha
            simp only [Option.bind_some] at ha
            by_cases hc : int_comp r ⟨⟨0#64, lim.jump.setWidth 64⟩, r.type⟩ .GE = true
            · rw [if_pos hc] at ha
              simp at ha
            · rw [if_neg hc] at ha
              simp only [Option.some.injEq] at ha
              refine ⟨ha.symm, ?_⟩
              intro low' h1 high' h2 r' h3
              cases h1
              cases h2
              rw [hr] at h3
              cases h3
              simpa using hc

/-- The values of the cases, listed. -/
def valueList (cs : List Case) : List Nat :=
  cs.flatMap fun c => match c.label with
    | none => []
    | some l => List.range' l.lo.toNat l.size

theorem valueList_spec {t : TypeKind} {n : Nat} {cs : List Case} (h : Typed t (some n) cs) (ho : Ordered cs) (ha : Apart cs) :
    (valueList cs).Nodup ∧ (valueList cs).length = total cs ∧ (∀ x ∈ valueList cs, x < n) ∧
      ∀ x : Nat, x ∈ valueList cs ↔ ∃ c ∈ cs, ∃ l ∈ c.label, l.Contains x := by
  induction cs with
  | nil => exact ⟨by simp [valueList], rfl, by simp [valueList], by simp [valueList]⟩
  | cons c cs ih =>
    obtain ⟨i1, i2, i3, i4⟩ := ih (fun d hd => h d (List.mem_cons_of_mem _ hd)) (fun d hd => ho d (List.mem_cons_of_mem _ hd))
      (List.pairwise_cons.1 ha).2
    have hd := (List.pairwise_cons.1 ha).1
    rcases hl : c.label with _ | l
    · have e : valueList (c :: cs) = valueList cs := by simp [valueList, hl]
      rw [e]
      refine ⟨i1, by rw [i2]; simp [total, hl], i3, fun x => ?_⟩
      rw [i4]
      simp [hl]
    · have e : valueList (c :: cs) = List.range' l.lo.toNat l.size ++ valueList cs := by simp [valueList, hl]
      have hle := ho c (List.mem_cons_self ..) l hl
      have hT := h c (List.mem_cons_self ..) l hl
      have hr : ∀ x : Nat, x ∈ List.range' l.lo.toNat l.size ↔ l.Contains x := by
        intro x
        have h0 : 0 ≤ l.lo := by
          cases l with
          | int a b => exact absurd hT.1 (by simp)
          | enum a b => exact Int.natCast_nonneg _
        rw [List.mem_range'_1, Label.Contains, Label.size]
        omega
      rw [e]
      refine ⟨?_, ?_, ?_, ?_⟩
      · rw [List.nodup_append]
        refine ⟨List.nodup_range' .., i1, ?_⟩
        rintro x hx y hy rfl
        obtain ⟨d, hd', m, hm, hc⟩ := (i4 x).1 hy
        exact hd d hd' l hl m hm _ ((hr x).1 hx) hc
      · rw [List.length_append, List.length_range', i2]
        have : total (c :: cs) = l.size - 1 + 1 + total cs := by simp [total, hl]
        unfold Label.size at *
        omega
      · intro x hx
        rcases List.mem_append.1 hx with hx | hx
        · have hc := (hr x).1 hx
          have hhi : l.hi < n := by
            cases l with
            | int a b => exact absurd hT.1 (by simp)
            | enum a b =>
              obtain ⟨m, hm, _, h1, h2⟩ := hT
              cases hm
              cases b with
              | none => exact Int.ofNat_lt.2 h1
              | some b => exact Int.ofNat_lt.2 (h2 b rfl)
          unfold Label.Contains at hc
          omega
        · exact i3 x hx
      · intro x
        rw [List.mem_append, hr, i4]
        simp [hl]

theorem covers {t : TypeKind} {n : Nat} {cs : List Case} (h : Typed t (some n) cs) (ho : Ordered cs) (ha : Apart cs)
    (hn : n ≤ total cs) (x : Nat) (hx : x < n) : ∃ c ∈ cs, ∃ l ∈ c.label, l.Contains x := by
  obtain ⟨h1, h2, h3, h4⟩ := valueList_spec h ho ha
  rw [← h4]
  have hsub : (valueList cs).toFinset ⊆ Finset.range n := by
    intro y hy
    rw [List.mem_toFinset] at hy
    exact Finset.mem_range.2 (h3 y hy)
  have heq := Finset.eq_of_subset_of_card_le hsub (by rw [Finset.card_range, List.toFinset_card_of_nodup h1, h2]; exact hn)
  rw [← List.mem_toFinset, heq, Finset.mem_range]
  exact hx

theorem total_eq {t : TypeKind} {n : Nat} {cs : List Case} (h : Typed t (some n) cs) (ho : Ordered cs) (ha : Apart cs)
    (hc : ∀ x : Nat, x < n → ∃ c ∈ cs, ∃ l ∈ c.label, l.Contains x) : total cs = n := by
  obtain ⟨h1, h2, h3, h4⟩ := valueList_spec h ho ha
  have heq : (valueList cs).toFinset = Finset.range n := by
    ext y
    rw [List.mem_toFinset, Finset.mem_range]
    exact ⟨h3 y, fun hy => (h4 y).2 (hc y hy)⟩
  rw [← h2, ← List.toFinset_card_of_nodup h1, heq, Finset.card_range]

/-- Without a range above the limit the cases are counted exactly (in a word). -/
theorem checkCases_count {t : TypeKind} {n : Nat} (lim : Limits) {s s' : State} {before cs : List Case} (h : Typed t (some n) cs)
    (hs : s.maxRanged = false) (hsz : ∀ c ∈ cs, ∀ l ∈ c.label, l.size - 1 ≤ lim.range.toNat)
    (e : checkCases lim s before cs = some (some s')) :
    s'.actualCases = s.actualCases + BitVec.ofNat 64 (total cs) := by
  induction cs generalizing s before with
  | nil =>
    cases e
    simp [total]
  | cons c cs ih =>
    have ih := fun s => ih (s := s) (before := before ++ [c]) (fun d hd => h d (List.mem_cons_of_mem _ hd))
    rw [checkCases] at e
    rcases hl : c.label with _ | l
    · rw [hl] at e
      simp only at e
      by_cases hd : s.hasDefault = true
      · rw [if_pos hd] at e
        cases e
      · rw [if_neg hd] at e
        have := ih { s with hasDefault := true } hs (fun d hd => hsz d (List.mem_cons_of_mem _ hd)) e
        rw [this]
        simp [total, hl]
    · rw [hl] at e
      simp only [Option.bind_eq_bind] at e
      rcases hv : checkValueCase lim s before l with _ | _ | s1
      · rw [hv] at e; cases e
      · rw [hv] at e; cases e
      · rw [hv] at e
        simp only [Option.bind_some] at e
        have hsize := hsz c (List.mem_cons_self ..) l hl
        have key : s1.maxRanged = false ∧ s1.actualCases = s.actualCases + BitVec.ofNat 64 (l.size - 1 + 1) := by
          have hT := h c (List.mem_cons_self ..) l hl
          cases l with
          | int a b => exact absurd hT.1 (by simp)
          | enum a b =>
            unfold checkValueCase at hv
            simp only [updateBounds, Option.bind_eq_bind] at hv
            rcases b with _ | b
            · simp only [checkRange, Option.bind_some] at hv
              rcases hf : foundBefore (Label.enum a none).first before with _ | r
              · rw [hf] at hv; cases hv
              · rw [hf] at hv
                simp only [Option.bind_some] at hv
                cases r with
                | true => cases hv
                | false =>
                  cases hv
                  have : (Label.enum a none).size - 1 + 1 = 1 := by
                    simp only [Label.size, Label.hi, Label.lo, Option.getD_none]
                    omega
                  exact ⟨hs, by rw [this]⟩
            · simp only [checkRange, hs, Bool.false_eq_true, if_false] at hv
              by_cases hg : a > b
              · rw [if_pos hg] at hv
                cases hv
              · rw [if_neg hg] at hv
                have hle : a ≤ b := BitVec.not_lt.1 hg
                have hsub := BitVec.toNat_sub_of_le hle
                have hsz' : (Label.enum a (some b)).size - 1 = (b - a).toNat := by
                  rw [hsub]
                  simp only [Label.size, Label.hi, Label.lo, Option.getD_some]
                  omega
                have hnl : ¬ lim.range < b - a := by
                  rw [BitVec.lt_def]
                  omega
                rw [if_neg hnl] at hv
                simp only [Option.bind_some] at hv
                rcases hf : foundBefore (Label.enum a (some b)).first before with _ | r
                · rw [hf] at hv; cases hv
                · rw [hf] at hv
                  simp only [Option.bind_some] at hv
                  cases r with
                  | true => cases hv
                  | false =>
                    cases hv
                    refine ⟨rfl, ?_⟩
                    show s.actualCases + 1#64 + (b - a).setWidth 64 = _
                    rw [hsz']
                    apply BitVec.eq_of_toNat_eq
                    simp only [BitVec.toNat_add, BitVec.toNat_setWidth, BitVec.toNat_ofNat]
                    omega
        have := ih s1 key.1 (fun d hd => hsz d (List.mem_cons_of_mem _ hd)) e
        rw [this, key.2]
        have e2 : total (c :: cs) = l.size - 1 + 1 + total cs := by simp [total, hl]
        rw [e2]
        generalize l.size - 1 + 1 = k
        rw [BitVec.ofNat_add, BitVec.add_assoc]

theorem updateBounds_attained (s : State) (l : Label) :
    (∀ x ∈ (updateBounds s l).low, x ∈ s.low ∨ x.val = l.lo) ∧ ∀ x ∈ (updateBounds s l).high, x ∈ s.high ∨ x.val = l.hi := by
  cases l with
  | enum a b => exact ⟨fun x hx => Or.inl hx, fun x hx => Or.inl hx⟩
  | int a b =>
    constructor
    · intro x hx
      rcases hl : s.low with _ | y
      · simp only [updateBounds, hl, Option.mem_def, Option.some.injEq] at hx
        exact Or.inr (by rw [← hx]; rfl)
      · simp only [updateBounds, hl, Option.mem_def] at hx
        split at hx
        · exact Or.inr (by cases hx; rfl)
        · exact Or.inl hx
    · intro x hx
      rcases hl : s.high with _ | y
      · simp only [updateBounds, hl, Option.mem_def, Option.some.injEq] at hx
        exact Or.inr (by rw [← hx]; rfl)
      · simp only [updateBounds, hl, Option.mem_def] at hx
        split at hx
        · exact Or.inr (by cases hx; rfl)
        · exact Or.inl hx

/-- The bounds are values of the cases. -/
theorem checkCases_attained {t : TypeKind} {n : Option Nat} (lim : Limits) {s s' : State} {before cs : List Case}
    (hb : Typed t n before) (h : Typed t n cs) (e : checkCases lim s before cs = some (some s')) :
    (∀ x ∈ s'.low, x ∈ s.low ∨ ∃ c ∈ cs, ∃ l ∈ c.label, x.val = l.lo) ∧
    ∀ x ∈ s'.high, x ∈ s.high ∨ ∃ c ∈ cs, ∃ l ∈ c.label, x.val = l.hi := by
  induction cs generalizing s before with
  | nil =>
    cases e
    exact ⟨fun x hx => Or.inl hx, fun x hx => Or.inl hx⟩
  | cons c cs ih =>
    have hb' : Typed t n (before ++ [c]) := by
      intro d hd
      rcases List.mem_append.1 hd with hd | hd
      · exact hb d hd
      · rw [List.mem_singleton.1 hd]
        exact h c (List.mem_cons_self ..)
    have ih := fun s => ih (s := s) (before := before ++ [c]) hb' (fun d hd => h d (List.mem_cons_of_mem _ hd))
    rw [checkCases] at e
    rcases hl : c.label with _ | l
    · rw [hl] at e
      simp only at e
      by_cases hd : s.hasDefault = true
      · rw [if_pos hd] at e
        cases e
      · rw [if_neg hd] at e
        obtain ⟨i1, i2⟩ := ih { s with hasDefault := true } e
        refine ⟨fun x hx => (i1 x hx).imp id ?_, fun x hx => (i2 x hx).imp id ?_⟩ <;>
          exact fun ⟨d, hd, r⟩ => ⟨d, List.mem_cons_of_mem _ hd, r⟩
    · rw [hl] at e
      simp only [Option.bind_eq_bind] at e
      rcases hv : checkValueCase lim s before l with _ | _ | s1
      · rw [hv] at e; cases e
      · rw [hv] at e; cases e
      · rw [hv] at e
        simp only [Option.bind_some] at e
        have key : s1.low = (updateBounds { s with actualCases := s.actualCases + 1#64 } l).low ∧
            s1.high = (updateBounds { s with actualCases := s.actualCases + 1#64 } l).high := by
          obtain ⟨r, er, _, hr⟩ := checkRange_spec lim (updateBounds { s with actualCases := s.actualCases + 1#64 } l)
            (h c (List.mem_cons_self ..) l hl)
          unfold checkValueCase at hv
          simp only [er, Option.bind_eq_bind, Option.bind_some] at hv
          rcases r with _ | s2
          · cases hv
          · simp only at hv
            rcases hf : foundBefore l.first before with _ | q
            · rw [hf] at hv; cases hv
            · rw [hf] at hv
              simp only [Option.bind_some] at hv
              cases q with
              | true => cases hv
              | false =>
                cases hv
                exact ⟨(hr s1 rfl).2.1, (hr s1 rfl).2.2.1⟩
        obtain ⟨u1, u2⟩ := updateBounds_attained { s with actualCases := s.actualCases + 1#64 } l
        rw [← key.1] at u1
        rw [← key.2] at u2
        obtain ⟨i1, i2⟩ := ih s1 e
        constructor
        · intro x hx
          rcases i1 x hx with hx | ⟨d, hd, r⟩
          · exact (u1 x hx).imp id fun h => ⟨c, List.mem_cons_self .., l, hl, h⟩
          · exact Or.inr ⟨d, List.mem_cons_of_mem _ hd, r⟩
        · intro x hx
          rcases i2 x hx with hx | ⟨d, hd, r⟩
          · exact (u2 x hx).imp id fun h => ⟨c, List.mem_cons_self .., l, hl, h⟩
          · exact Or.inr ⟨d, List.mem_cons_of_mem _ hd, r⟩

/-- A jump table over integers accepted by the analysis is small. -/
theorem accepted_span {t : TypeKind} {lim : Limits} {cases : List Case} {plan : Plan} (h : Typed t none cases)
    (ha : analyseSwitch lim none true cases = some (some plan))
    (hw : ∀ c ∈ cases, ∀ l ∈ c.label, ∀ d ∈ cases, ∀ m ∈ d.label, m.hi - l.lo ≤ t.maxVal)
    (ho : Ordered cases) :
    ∀ c ∈ cases, ∀ l ∈ c.label, ∀ d ∈ cases, ∀ m ∈ d.label, m.hi - l.lo < lim.jump.toNat := by
  obtain ⟨s, e, _, _, hj⟩ := accepted h ha
  obtain ⟨_, hsmall⟩ := hj rfl
  obtain ⟨r, e', _, hp⟩ := checkCases_spec lim ⟨false, 0#64, none, none, false⟩ (before := []) (by simp [Typed]) h
  rw [e] at e'
  cases e'
  obtain ⟨_, _, _, _, _, _, _, p8⟩ := hp s rfl
  obtain ⟨f1, _, f3⟩ := p8 rfl (by rintro c (hc | hc) <;> cases hc)
  obtain ⟨a1, a2⟩ := checkCases_attained lim (before := []) (by simp [Typed]) h e
  intro c hc l hl d hd m hm
  obtain ⟨⟨lo, hlo, b1⟩, _⟩ := f3 c hc l hl
  obtain ⟨_, ⟨hi, hhi, b2⟩⟩ := f3 d hd m hm
  rcases a1 lo hlo with hx | ⟨c1, hc1, l1, hl1, e1⟩
  · cases hx
  rcases a2 hi hhi with hx | ⟨c2, hc2, l2, hl2, e2⟩
  · cases hx
  have hspan := hw c1 hc1 l1 hl1 c2 hc2 l2 hl2
  have t1 := f1 lo (Or.inl hlo)
  have t2 := f1 hi (Or.inr hhi)
  have hle : lo.val ≤ hi.val := by
    have := ho c hc l hl
    obtain ⟨_, ⟨hi', hhi', b3⟩⟩ := f3 c hc l hl
    rw [hhi] at hhi'
    cases hhi'
    omega
  obtain ⟨r, er, et, ew⟩ := C01_sub hi lo (by rw [t1.1, t2.1])
  have hm0 : t.minVal ≤ 0 := by
    unfold TypeKind.minVal
    split
    · have : (0 : Int) < 2 ^ (t.bits - 1) := Int.pow_pos (by decide)
      omega
    · exact Int.le_refl _
  rw [t2.1] at ew
  have hr := wraps_eq ew ⟨by omega, by omega⟩
  have hc := hsmall lo hlo hi hhi r er
  have hcmp := C06_compare r ⟨⟨0#64, lim.jump.setWidth 64⟩, r.type⟩ .GE
  simp only [CmpOp.holds] at hcmp
  have hv : (⟨⟨0#64, lim.jump.setWidth 64⟩, r.type⟩ : CInt).val = lim.jump.toNat := by
    have hu : (⟨0#64, lim.jump.setWidth 64⟩ : Int128).u = lim.jump.toNat := by
      have := lim.jump.isLt
      simp only [Int128.u, BitVec.toNat_setWidth, BitVec.toNat_ofNat]
      omega
    unfold CInt.val Int128.s
    simp only [hu]
    have := lim.jump.isLt
    split
    · rw [if_pos (by omega)]
    · rfl
  rw [hv] at hcmp
  have hlt : r.val < lim.jump.toNat := by
    rcases Int.lt_or_le r.val lim.jump.toNat with h | h
    · exact h
    · rw [hcmp.2 h] at hc
      cases hc
  omega

end C3.Switch
