import Verif.ConstCompare.Props
import Verif.Switch.Spec

/-! # Lemmas about switches -/

set_option autoImplicit false

namespace C3.Switch
open C3.Bigint C3.ConstCompare

/-! ## Constants and run-time values -/

theorem bits_eq (t : TypeKind) : type_kind_bitsize t = t.bits := by cases t <;> rfl
theorem signed_eq (t : TypeKind) : type_kind_is_signed t = t.signed := by cases t <;> rfl
theorem unsigned_eq (t : TypeKind) : type_kind_is_unsigned t = !t.signed := by cases t <;> rfl
theorem bits_pos (t : TypeKind) : 8 ≤ type_kind_bitsize t ∧ type_kind_bitsize t ≤ 128 := by cases t <;> decide

theorem value_inj (t : TypeKind) (v w : Val t) : value t v = value t w ↔ v = w := by
  unfold value
  split
  · exact BitVec.toInt_inj
  · rw [Int.ofNat_inj, BitVec.toNat_inj]

theorem value_range (t : TypeKind) (v : Val t) : t.InRange (value t v) := by
  unfold value TypeKind.InRange TypeKind.minVal TypeKind.maxVal
  have hp := bits_pos t
  rw [← bits_eq]
  split
  · have h1 := BitVec.le_toInt v
    have h2 := BitVec.toInt_lt (x := v)
    exact ⟨h1, by omega⟩
  · have := v.isLt
    constructor
    · omega
    · have : (v.toNat : Int) < ((2 ^ type_kind_bitsize t : Nat) : Int) := Int.ofNat_lt.2 this
      rw [Nat.cast_pow] at this
      have e : ((2 : Nat) : Int) = 2 := rfl
      rw [e] at this
      omega

/-- Only one number of the type is congruent to a given one. -/
theorem value_unique (t : TypeKind) (v : Val t) (x : Int) (hx : t.InRange x) (h : BitVec.ofInt _ x = v) : value t v = x := by
  subst h
  unfold value
  unfold TypeKind.InRange TypeKind.minVal TypeKind.maxVal at hx
  rw [← bits_eq] at hx
  have hp := bits_pos t
  by_cases hs : t.signed = true
  · rw [if_pos hs]
    simp only [hs, if_true] at hx
    rw [BitVec.toInt_ofInt, Int.bmod_eq_of_le]
    · have e : (((2 ^ type_kind_bitsize t : Nat) : Int)) = 2 ^ (type_kind_bitsize t - 1) * 2 := by
        rw [Nat.cast_pow, ← Int.pow_succ]; congr 1; omega
      rw [e]; omega
    · have e : (((2 ^ type_kind_bitsize t : Nat) : Int)) = 2 ^ (type_kind_bitsize t - 1) * 2 := by
        rw [Nat.cast_pow, ← Int.pow_succ]; congr 1; omega
      rw [e]; omega
  · rw [if_neg hs]
    simp only [hs] at hx
    rw [BitVec.toNat_ofInt]
    have hx2 : x < ((2 ^ type_kind_bitsize t : Nat) : Int) := by
      rw [Nat.cast_pow]
      have e : ((2 : Nat) : Int) = 2 := rfl
      rw [e]
      have := hx.2
      simp only [Bool.false_eq_true, if_false] at this
      omega
    have hx1 : 0 ≤ x := by simpa using hx.1
    rw [Int.emod_eq_of_lt hx1 hx2, Int.toNat_of_nonneg hx1]

theorem constVal_ofInt (t : TypeKind) (c : CInt) : BitVec.ofInt _ c.val = constVal t c := by
  unfold constVal
  apply BitVec.eq_of_toNat_eq
  rw [BitVec.toNat_setWidth, BitVec.toNat_ofInt]
  have hp := bits_pos t
  have hu : (c.i.high ++ c.i.low).toNat = c.i.u := by
    rw [BitVec.toNat_append, Nat.shiftLeft_eq]
    unfold Int128.u
    have := c.i.low.isLt
    rw [Nat.mul_comm c.i.high.toNat, ← Nat.two_pow_add_eq_or_of_lt c.i.low.isLt]
  rw [hu]
  have hdvd : 2 ^ type_kind_bitsize t ∣ 2 ^ 128 := Nat.pow_dvd_pow 2 hp.2
  obtain ⟨k, hk⟩ := hdvd
  have hv : c.val = (c.i.u : Int) ∨ c.val = (c.i.u : Int) - 2 ^ 128 := by
    unfold CInt.val Int128.s
    split
    · split
      · exact Or.inl rfl
      · exact Or.inr rfl
    · exact Or.inl rfl
  have he : c.val % ((2 ^ type_kind_bitsize t : Nat) : Int) = (c.i.u : Int) % ((2 ^ type_kind_bitsize t : Nat) : Int) := by
    rcases hv with h | h
    · rw [h]
    · rw [h]
      have : ((2 : Int) ^ 128) = ((2 ^ type_kind_bitsize t : Nat) : Int) * (k : Int) := by
        rw [← Nat.cast_mul, ← hk]; rfl
      rw [this, Int.sub_mul_emod_self_left]
  rw [he, ← Int.natCast_emod, Int.toNat_natCast]

theorem constVal_value (t : TypeKind) (c : CInt) (ht : c.type = t) (hw : c.WF) : value t (constVal t c) = c.val :=
  value_unique t _ _ (ht ▸ hw) (constVal_ofInt t c)

theorem llvmLe_iff (t : TypeKind) (a b : Val t) : llvmLe t a b = true ↔ value t a ≤ value t b := by
  unfold llvmLe value
  rw [signed_eq]
  cases t.signed
  · simp only [Bool.false_eq_true, if_false, BitVec.ule_iff_le, BitVec.le_def, Int.ofNat_le]
  · simp only [if_true, BitVec.sle_iff_toInt_le]

/-! ## Labels -/

theorem labelValues_spec (t : TypeKind) (n : Option Nat) (l : Label) (h : l.Typed t n) :
    (labelValues t l).1.val = l.lo ∧ (labelValues t l).2.val = l.hi ∧
    (labelValues t l).1.type = t ∧ (labelValues t l).2.type = t ∧
    (labelValues t l).1.WF ∧ (labelValues t l).2.WF := by
  cases l with
  | int a b =>
    obtain ⟨_, h1, h2, h3⟩ := h
    refine ⟨rfl, rfl, h1, ?_, h2, ?_⟩
    · cases b with
      | none => exact h1
      | some b => exact (h3 b rfl).1
    · cases b with
      | none => exact h2
      | some b => exact (h3 b rfl).2
  | enum a b =>
    obtain ⟨n, _, hn, h1, h2⟩ := h
    have key : ∀ x : BitVec 32, x.toNat < n → (⟨⟨0#64, x.setWidth 64⟩, t⟩ : CInt).val = x.toNat ∧ (⟨⟨0#64, x.setWidth 64⟩, t⟩ : CInt).WF := by
      intro x hx
      have e : (⟨⟨0#64, x.setWidth 64⟩, t⟩ : CInt).val = x.toNat := by
        have hu : (⟨0#64, x.setWidth 64⟩ : Int128).u = x.toNat := by
          have := x.isLt
          simp only [Int128.u, BitVec.toNat_setWidth, BitVec.toNat_ofNat]
          omega
        unfold CInt.val Int128.s
        simp only [hu]
        have := x.isLt
        split
        · rw [if_pos (by omega)]
        · rfl
      refine ⟨e, ?_⟩
      unfold CInt.WF
      rw [e]
      refine ⟨?_, ?_⟩
      · show t.minVal ≤ _
        unfold TypeKind.minVal
        split
        · have : (0 : Int) < 2 ^ (t.bits - 1) := Int.pow_pos (by decide)
          omega
        · omega
      · show _ ≤ t.maxVal
        omega
    have hb : (b.getD a).toNat < n := by
      cases b with
      | none => exact h1
      | some b => exact h2 b rfl
    exact ⟨(key a h1).1, (key _ hb).1, rfl, rfl, (key a h1).2, (key _ hb).2⟩

theorem first_holds {t : TypeKind} {n : Option Nat} {l : Label} (h : l.Typed t n) : Denotes t n l.first l.lo := by
  cases l with
  | int a b => exact ⟨h.1, h.2.1, rfl⟩
  | enum a b =>
    obtain ⟨n, rfl, _⟩ := h
    exact ⟨by simp, rfl, rfl⟩

theorem in_range (t : TypeKind) (n : Option Nat) (c : Const) (x : Int) (l : Label) (hc : Denotes t n c x) (h : l.Typed t n) :
    ∃ r, expr_const_in_range noMem c l.first l.last = some r ∧ (r = true ↔ l.Contains x) := by
  cases l with
  | int a b =>
    cases c <;> simp only [Denotes] at hc
    case enum => exact absurd h.1 hc.1
    case integer c =>
      obtain ⟨_, hc, rfl⟩ := hc
      obtain ⟨_, h1, h2, h3⟩ := h
      cases b with
      | none =>
        obtain ⟨r, e, s⟩ := C27_order noMem (.integer c) (.integer a) c.val a.val (.integer _ _) rfl rfl .EQ
        refine ⟨r, by simpa [expr_const_in_range, Label.first, Label.last] using e, ?_⟩
        rw [s]
        simp only [CmpOp.holds, Label.Contains, Label.lo, Label.hi, Option.getD_none]
        omega
      | some b =>
        exact C27_range noMem (.integer c) (.integer a) (.integer b) _ _ _ (.integer _ _) (.integer _ _) rfl rfl rfl
  | enum a b =>
    obtain ⟨n, rfl, _⟩ := h
    cases c <;> simp only [Denotes] at hc
    case integer => simp at hc
    case enum ty c =>
      obtain ⟨_, rfl, rfl⟩ := hc
      cases b with
      | none =>
        obtain ⟨r, e, s⟩ := C27_order noMem (.enum 0#64 c) (.enum 0#64 a) c.toNat a.toNat (.enum _ _ _) rfl rfl .EQ
        refine ⟨r, by simpa [expr_const_in_range, Label.first, Label.last] using e, ?_⟩
        rw [s]
        simp only [CmpOp.holds, Label.Contains, Label.lo, Label.hi, Option.getD_none]
        omega
      | some b =>
        exact C27_range noMem (.enum 0#64 c) (.enum 0#64 a) (.enum 0#64 b) _ _ _ (.enum _ _ _) (.enum _ _ _) rfl rfl rfl

/-! ## Semantic analysis -/

theorem foundBefore_spec {t : TypeKind} {n : Option Nat} {c : Const} {x : Int} {cs : List Case} (hc : Denotes t n c x)
    (h : Typed t n cs) : ∃ r, foundBefore c cs = some r ∧ (r = true ↔ ∃ d ∈ cs, ∃ l ∈ d.label, l.Contains x) := by
  induction cs with
  | nil => exact ⟨false, rfl, by simp⟩
  | cons d cs ih =>
    obtain ⟨r, e, s⟩ := ih fun c hc => h c (List.mem_cons_of_mem _ hc)
    rcases hl : d.label with _ | l
    · refine ⟨r, by rw [foundBefore, hl]; exact e, ?_⟩
      rw [s]
      simp [hl]
    · obtain ⟨q, e', s'⟩ := in_range t n c x l hc (h d (List.mem_cons_self ..) l hl)
      rw [foundBefore, hl]
      simp only [e', Option.bind_eq_bind, Option.bind_some]
      cases q with
      | true => exact ⟨true, rfl, by simpa [hl] using Or.inl (s'.1 rfl)⟩
      | false =>
        refine ⟨r, e, ?_⟩
        rw [s]
        have : ¬ l.Contains x := fun h => by simpa using s'.2 h
        simp [hl, this]

/-- Number of values of a case. -/
def Label.size (l : Label) : Nat := (l.hi - l.lo + 1).toNat

theorem checkRange_spec {t : TypeKind} {n : Option Nat} (lim : Limits) (s : State) {l : Label} (h : l.Typed t n) :
    ∃ r, checkRange lim s l = some r ∧ (r = none → l.hi < l.lo) ∧ ∀ s' ∈ r,
      s'.hasDefault = s.hasDefault ∧ s'.low = s.low ∧ s'.high = s.high ∧ (s.maxRanged = true → s'.maxRanged = true) ∧
      (s.maxRanged = false → l.lo ≤ l.hi) ∧
      (n ≠ none → s'.actualCases.toNat ≤ s.actualCases.toNat + (l.size - 1)) := by
  cases l with
  | int a b =>
    obtain ⟨hn, h1, h2, h3⟩ := h
    cases b with
    | none =>
      exact ⟨some s, rfl, by simp, fun s' hs => by
        cases hs; exact ⟨rfl, rfl, rfl, id, fun _ => Int.le_refl _, fun hh => absurd hn hh⟩⟩
    | some b =>
      obtain ⟨h4, h5⟩ := h3 b rfl
      by_cases hm : s.maxRanged = true
      · refine ⟨some s, by simp [checkRange, hm], by simp, fun s' hs => ?_⟩
        cases hs
        exact ⟨rfl, rfl, rfl, id, by simp [hm], fun hh => absurd hn hh⟩
      · have hc := C06_compare a b .GT
        simp only [CmpOp.holds] at hc
        by_cases hg : int_comp a b .GT = true
        · exact ⟨none, by simp [checkRange, hm, hg], fun _ => hc.1 hg, by simp⟩
        · obtain ⟨r, e, _⟩ := C01_sub b a (by rw [h4, h1])
          refine ⟨_, by simp only [checkRange, hm, hg, e, Option.bind_eq_bind, Option.bind_some]; rfl, by simp, fun s' hs => ?_⟩
          cases hs
          have hle : a.val ≤ b.val := by
            rcases Int.lt_or_le b.val a.val with h | h
            · exact absurd (hc.2 h) hg
            · exact h
          split
          · exact ⟨rfl, rfl, rfl, fun _ => rfl, fun _ => hle, fun hh => absurd hn hh⟩
          · exact ⟨rfl, rfl, rfl, fun h => absurd h hm, fun _ => hle, fun hh => absurd hn hh⟩
  | enum a b =>
    cases b with
    | none =>
      exact ⟨some s, rfl, by simp, fun s' hs => by
        cases hs; exact ⟨rfl, rfl, rfl, id, fun _ => Int.le_refl _, fun _ => Nat.le_add_right ..⟩⟩
    | some b =>
      by_cases hm : s.maxRanged = true
      · refine ⟨some s, by simp [checkRange, hm], by simp, fun s' hs => ?_⟩
        cases hs
        exact ⟨rfl, rfl, rfl, id, by simp [hm], fun _ => Nat.le_add_right ..⟩
      · by_cases hg : a > b
        · refine ⟨none, by simp [checkRange, hm, hg], fun _ => ?_, by simp⟩
          have : b.toNat < a.toNat := hg
          simp only [Label.lo, Label.hi, Option.getD_some]
          omega
        · have hg' : a.toNat ≤ b.toNat := Nat.le_of_not_lt hg
          refine ⟨_, by simp only [checkRange, hm, hg, if_false]; rfl, by simp, fun s' hs => ?_⟩
          cases hs
          have hle : (a.toNat : Int) ≤ b.toNat := by omega
          have hcount : (s.actualCases + (b - a).setWidth 64).toNat ≤ s.actualCases.toNat + ((Label.enum a (some b)).size - 1) := by
            rw [BitVec.toNat_add, BitVec.toNat_setWidth, BitVec.toNat_sub_of_le hg']
            have : (Label.enum a (some b)).size - 1 = b.toNat - a.toNat := by
              simp only [Label.size, Label.hi, Label.lo, Option.getD_some]
              omega
            rw [this]
            refine Nat.le_trans (Nat.mod_le _ _) (Nat.add_le_add_left (Nat.mod_le _ _) _)
          split
          · exact ⟨rfl, rfl, rfl, fun _ => rfl, fun _ => hle, fun _ => hcount⟩
          · exact ⟨rfl, rfl, rfl, fun h => absurd h hm, fun _ => hle, fun _ => hcount⟩

/-- Bounds collected so far hold for a label. -/
def Bounded (s : State) (l : Label) : Prop :=
  (∃ lo ∈ s.low, lo.val ≤ l.lo) ∧ ∃ hi ∈ s.high, l.hi ≤ hi.val

/-- Where the bounds come from. -/
def FromCases (t : TypeKind) (s : State) : Prop :=
  ∀ c, c ∈ s.low ∨ c ∈ s.high → c.type = t ∧ c.WF

theorem updateBounds_spec {t : TypeKind} (s : State) {l : Label} (h : l.Typed t none) (hs : FromCases t s) :
    Bounded (updateBounds s l) l ∧ FromCases t (updateBounds s l) ∧ ∀ m, Bounded s m → Bounded (updateBounds s l) m := by
  cases l with
  | enum a b => obtain ⟨n, h, _⟩ := h; cases h
  | int a b =>
    obtain ⟨_, h1, h2, h3⟩ := h
    have ht : (b.getD a).type = t ∧ (b.getD a).WF := by
      cases b with
      | none => exact ⟨h1, h2⟩
      | some b => exact h3 b rfl
    generalize hb : b.getD a = z at ht
    have hlo : ∃ c, (updateBounds s (.int a b)).low = some c ∧ c.val ≤ a.val ∧ (c.type = t ∧ c.WF) ∧ ∀ x ∈ s.low, c.val ≤ x.val := by
      rcases hl : s.low with _ | x
      · exact ⟨a, by simp [updateBounds, hl], Int.le_refl _, ⟨h1, h2⟩, by simp⟩
      · have hc := C06_compare x a .GT
        simp only [CmpOp.holds] at hc
        by_cases hg : int_comp x a .GT = true
        · refine ⟨a, by simp [updateBounds, hl, hg], Int.le_refl _, ⟨h1, h2⟩, ?_⟩
          intro y hy
          cases hy
          have := hc.1 hg
          omega
        · refine ⟨x, by simp [updateBounds, hl, hg], ?_, hs x (Or.inl hl), ?_⟩
          · exact Int.not_lt.1 fun h => hg (hc.2 h)
          · intro y hy
            cases hy
            exact Int.le_refl _
    have hhi : ∃ c, (updateBounds s (.int a b)).high = some c ∧ z.val ≤ c.val ∧ (c.type = t ∧ c.WF) ∧ ∀ x ∈ s.high, x.val ≤ c.val := by
      rcases hl : s.high with _ | x
      · exact ⟨z, by simp [updateBounds, hl, hb], Int.le_refl _, ht, by simp⟩
      · have hc := C06_compare x z .LT
        simp only [CmpOp.holds] at hc
        by_cases hg : int_comp x z .LT = true
        · refine ⟨z, by simp [updateBounds, hl, hg, hb], Int.le_refl _, ht, ?_⟩
          intro y hy
          cases hy
          have := hc.1 hg
          omega
        · refine ⟨x, by simp [updateBounds, hl, hg, hb], ?_, hs x (Or.inr hl), ?_⟩
          · exact Int.not_lt.1 fun h => hg (hc.2 h)
          · intro y hy
            cases hy
            exact Int.le_refl _
    obtain ⟨c, e1, q1, r1, m1⟩ := hlo
    obtain ⟨d, e2, q2, r2, m2⟩ := hhi
    refine ⟨⟨⟨c, e1, q1⟩, ⟨d, e2, by simpa [Label.hi, hb] using q2⟩⟩, ?_, ?_⟩
    · rintro y (hy | hy)
      · rw [e1] at hy; cases hy; exact r1
      · rw [e2] at hy; cases hy; exact r2
    · rintro m ⟨⟨x, hx, g1⟩, ⟨y, hy, g2⟩⟩
      exact ⟨⟨c, e1, Int.le_trans (m1 x hx) g1⟩, ⟨d, e2, Int.le_trans g2 (m2 y hy)⟩⟩

theorem updateBounds_rest (s : State) (l : Label) : (updateBounds s l).maxRanged = s.maxRanged ∧
    (updateBounds s l).actualCases = s.actualCases ∧ (updateBounds s l).hasDefault = s.hasDefault := by
  cases l <;> exact ⟨rfl, rfl, rfl⟩

theorem checkValueCase_spec {t : TypeKind} {n : Option Nat} (lim : Limits) (s : State) {before : List Case} {l : Label}
    (hb : Typed t n before) (h : l.Typed t n) :
    ∃ r, checkValueCase lim s before l = some r ∧
      (l.lo ≤ l.hi → (∀ d ∈ before, ∀ m ∈ d.label, ¬ m.Contains l.lo) → r ≠ none) ∧
      ∀ s' ∈ r, (∀ d ∈ before, ∀ m ∈ d.label, ¬ m.Contains l.lo) ∧ s'.hasDefault = s.hasDefault ∧
      (s.maxRanged = true → s'.maxRanged = true) ∧ (s'.maxRanged = false → l.lo ≤ l.hi) ∧
      (n ≠ none → s'.actualCases.toNat ≤ s.actualCases.toNat + (l.size - 1 + 1)) ∧
      (n = none → FromCases t s → Bounded s' l ∧ FromCases t s' ∧ ∀ m, Bounded s m → Bounded s' m) := by
  let s1 : State := { s with actualCases := s.actualCases + 1#64 }
  obtain ⟨r1, e1, n1, p1⟩ := checkRange_spec lim (updateBounds s1 l) h
  obtain ⟨r2, e2, p2⟩ := foundBefore_spec (first_holds h) hb
  have hu := updateBounds_rest s1 l
  unfold checkValueCase
  simp only [show { s with actualCases := s.actualCases + 1#64 } = s1 from rfl, e1, Option.bind_eq_bind, Option.bind_some]
  rcases r1 with _ | s2
  · refine ⟨none, rfl, fun hle => ?_, by simp⟩
    have := n1 rfl
    omega
  · simp only [e2, Option.bind_some]
    cases r2 with
    | true =>
      refine ⟨none, rfl, fun _ hno => ?_, by simp⟩
      obtain ⟨d, hd, m, hm, hx⟩ := p2.1 rfl
      exact absurd hx (hno d hd m hm)
    | false =>
      refine ⟨some s2, rfl, by simp, fun s' hs => ?_⟩
      cases hs
      obtain ⟨q1, q2, q3, q4, q5, q6⟩ := p1 s2 rfl
      refine ⟨fun d hd m hm hx => by simpa using p2.2 ⟨d, hd, m, hm, hx⟩, by rw [q1, hu.2.2], fun h => q4 (by rw [hu.1]; exact h), ?_, ?_, ?_⟩
      · intro h
        apply q5
        cases hc : (updateBounds s1 l).maxRanged with
        | false => rfl
        | true => rw [q4 hc] at h; cases h
      · intro hn
        have := q6 hn
        rw [hu.2.1] at this
        have h1 : (s.actualCases + 1#64).toNat ≤ s.actualCases.toNat + 1 := by
          rw [BitVec.toNat_add]
          exact Nat.mod_le _ _
        have h2 : s1.actualCases = s.actualCases + 1#64 := rfl
        rw [h2] at this
        omega
      · rintro rfl hf
        obtain ⟨b1, b2, b3⟩ := updateBounds_spec s1 h hf
        have tr : ∀ m, Bounded (updateBounds s1 l) m → Bounded s2 m := by
          intro m hm
          unfold Bounded
          rw [q2, q3]
          exact hm
        refine ⟨tr _ b1, ?_, fun m hm => tr _ (b3 m hm)⟩
        intro c hc
        rw [q2, q3] at hc
        exact b2 c hc

/-- The number of values of all cases. -/
def total (cs : List Case) : Nat := (cs.map fun c => (c.label.map fun l => l.size - 1 + 1).getD 0).sum

theorem checkCases_spec {t : TypeKind} {n : Option Nat} (lim : Limits) (s : State) {before cs : List Case}
    (hb : Typed t n before) (h : Typed t n cs) :
    ∃ r, checkCases lim s before cs = some r ∧
      (Ordered cs → (s.hasDefault = true → ∀ c ∈ cs, c.label ≠ none) → OneDefault cs →
        (∀ (j : Nat) (c : Case) (l : Label), cs[j]? = some c → c.label = some l →
          ∀ d ∈ before ++ cs.take j, ∀ m ∈ d.label, ¬ m.Contains l.lo) → r ≠ none) ∧
      ∀ s' ∈ r, (s.maxRanged = true → s'.maxRanged = true) ∧ (s'.maxRanged = false → Ordered cs) ∧
      (∀ (j : Nat) (c : Case) (l : Label), cs[j]? = some c → c.label = some l →
          ∀ d ∈ before ++ cs.take j, ∀ m ∈ d.label, ¬ m.Contains l.lo) ∧
      (s.hasDefault = true → ∀ c ∈ cs, c.label ≠ none) ∧ OneDefault cs ∧
      (s'.hasDefault = true ↔ s.hasDefault = true ∨ ∃ c ∈ cs, c.label = none) ∧
      (n ≠ none → s'.actualCases.toNat ≤ s.actualCases.toNat + total cs) ∧
      (n = none → FromCases t s → FromCases t s' ∧ (∀ m, Bounded s m → Bounded s' m) ∧
        ∀ c ∈ cs, ∀ l ∈ c.label, Bounded s' l) := by
  induction cs generalizing s before with
  | nil =>
    refine ⟨some s, rfl, by simp, fun s' hs => ?_⟩
    cases hs
    refine ⟨id, fun _ => by simp [Ordered], by simp, by simp, by simp [OneDefault], by simp, fun _ => Nat.le_add_right .., ?_⟩
    intro _ hf
    exact ⟨hf, fun _ => id, by simp⟩
  | cons c cs ih =>
    have hc : Typed t n cs := fun d hd => h d (List.mem_cons_of_mem _ hd)
    have hb' : Typed t n (before ++ [c]) := by
      intro d hd
      rcases List.mem_append.1 hd with hd | hd
      · exact hb d hd
      · rw [List.mem_singleton.1 hd]
        exact h c (List.mem_cons_self ..)
    have one_tail : OneDefault (c :: cs) → OneDefault cs := by
      intro ho i j d e hi hj hd he
      have := ho (i + 1) (j + 1) d e hi hj hd he
      omega
    have pre_tail : (∀ (j : Nat) (d : Case) (l : Label), (c :: cs)[j]? = some d → d.label = some l →
          ∀ e ∈ before ++ (c :: cs).take j, ∀ m ∈ e.label, ¬ m.Contains l.lo) →
        ∀ (j : Nat) (d : Case) (l : Label), cs[j]? = some d → d.label = some l →
          ∀ e ∈ before ++ [c] ++ cs.take j, ∀ m ∈ e.label, ¬ m.Contains l.lo := by
      intro hp j d l hj hd e he
      exact hp (j + 1) d l hj hd e (by simpa using he)
    rcases hl : c.label with _ | l
    · rw [checkCases]
      simp only [hl]
      by_cases hd : s.hasDefault = true
      · rw [if_pos hd]
        refine ⟨none, rfl, fun _ h2 => ?_, by simp⟩
        exact absurd hl (h2 hd c (List.mem_cons_self ..))
      · rw [if_neg hd]
        obtain ⟨r, e, hn, hp⟩ := ih { s with hasDefault := true } hb' hc
        refine ⟨r, e, ?_, ?_⟩
        · intro ho _ hone hpre
          refine hn (fun d hd => ho d (List.mem_cons_of_mem _ hd)) ?_ (one_tail hone) (pre_tail hpre)
          intro _ d hd hnone
          obtain ⟨j, hj⟩ := List.mem_iff_getElem?.1 hd
          have := hone 0 (j + 1) c d rfl hj hl hnone
          omega
        · intro s' hs
          obtain ⟨p1, p2, p3, p4, p5, p6, p7, p8⟩ := hp s' hs
          refine ⟨p1, ?_, ?_, fun h => absurd h hd, ?_, ?_, ?_, ?_⟩
          · intro hm d hd
            rcases List.mem_cons.1 hd with rfl | hd
            · simp [hl]
            · exact p2 hm d hd
          · intro j d m hj hm
            cases j with
            | zero => cases hj; rw [hl] at hm; cases hm
            | succ j =>
              intro e he
              exact p3 j d m hj hm e (by simpa using he)
          · intro i j d e hi hj hd' he
            have no : ∀ (j : Nat) (d : Case), cs[j]? = some d → d.label = none → False := fun j d hj hd =>
              p4 rfl d (List.mem_iff_getElem?.2 ⟨j, hj⟩) hd
            cases i with
            | zero =>
              cases j with
              | zero => rfl
              | succ j => exact (no j e hj he).elim
            | succ i => exact (no i d hi hd').elim
          · rw [p6]
            simp [hl]
          · intro hn
            have := p7 hn
            simpa [total, hl] using this
          · intro hn hf
            obtain ⟨f1, f2, f3⟩ := p8 hn hf
            refine ⟨f1, f2, ?_⟩
            intro d hd m hm
            rcases List.mem_cons.1 hd with rfl | hd
            · rw [hl] at hm; cases hm
            · exact f3 d hd m hm
    · obtain ⟨r1, e1, n1, v1⟩ := checkValueCase_spec lim s hb (h c (List.mem_cons_self ..) l hl)
      rw [checkCases]
      simp only [hl, e1, Option.bind_eq_bind, Option.bind_some]
      rcases r1 with _ | s1
      · refine ⟨none, rfl, fun ho _ _ hpre => ?_, by simp⟩
        refine absurd rfl (n1 (ho c (List.mem_cons_self ..) l hl) ?_)
        intro d hd
        exact hpre 0 c l rfl hl d (by simpa using hd)
      · obtain ⟨w1, w2, w3, w4, w5, w6⟩ := v1 s1 rfl
        obtain ⟨r, e, hn, hp⟩ := ih s1 hb' hc
        refine ⟨r, e, ?_, ?_⟩
        · intro ho hd hone hpre
          refine hn (fun d hd => ho d (List.mem_cons_of_mem _ hd)) ?_ (one_tail hone) (pre_tail hpre)
          rw [w2]
          exact fun h d hd' => hd h d (List.mem_cons_of_mem _ hd')
        · intro s' hs
          obtain ⟨p1, p2, p3, p4, p5, p6, p7, p8⟩ := hp s' hs
          refine ⟨fun h => p1 (w3 h), ?_, ?_, ?_, ?_, ?_, ?_, ?_⟩
          · intro hm d hd
            rcases List.mem_cons.1 hd with rfl | hd
            · intro m hm'
              rw [hl] at hm'
              cases hm'
              apply w4
              cases hc : s1.maxRanged with
              | false => rfl
              | true => rw [p1 hc] at hm; cases hm
            · exact p2 hm d hd
          · intro j d m hj hm
            cases j with
            | zero =>
              cases hj
              rw [hl] at hm
              cases hm
              intro e he
              exact w1 e (by simpa using he)
            | succ j =>
              intro e he
              exact p3 j d m hj hm e (by simpa using he)
          · intro h d hd
            rcases List.mem_cons.1 hd with rfl | hd
            · rw [hl]; simp
            · exact p4 (by rw [w2]; exact h) d hd
          · intro i j d e hi hj hd' he
            cases i with
            | zero => cases hi; rw [hl] at hd'; cases hd'
            | succ i =>
              cases j with
              | zero => cases hj; rw [hl] at he; cases he
              | succ j => rw [p5 i j d e hi hj hd' he]
          · rw [p6, w2]
            simp [hl]
          · intro hn
            have h7 := p7 hn
            have h5 := w5 hn
            have : total (c :: cs) = l.size - 1 + 1 + total cs := by simp [total, hl]
            omega
          · intro hn hf
            obtain ⟨g1, g2, g3⟩ := w6 hn hf
            obtain ⟨f1, f2, f3⟩ := p8 hn g2
            refine ⟨f1, fun m hm => f2 m (g3 m hm), ?_⟩
            intro d hd m hm
            rcases List.mem_cons.1 hd with rfl | hd
            · rw [hl] at hm
              cases hm
              exact f2 _ g1
            · exact f3 d hd m hm

end C3.Switch
