import Verif.Switch.LemmasAccept

/-!
# C28: switches over integers and enums

The full claim is that a switch is rejected exactly when two cases overlap and that an accepted one sends each
value to the only case containing it.  The first half is false, see `C28_overlap_accepted`.
-/

set_option autoImplicit false

namespace C3.Switch
open C3.Bigint C3.ConstCompare

/-- The limits used by default. -/
def defaults : Limits := ⟨256#32, 0x3FFF#32⟩

/-! ## What is accepted -/

/-- C28, soundness of the check, partly: in an accepted switch no case starts inside an earlier one and there is
at most one default.  Missing: no earlier case starts inside a later one; not checked. -/
theorem C28_check_sound_partial (t : TypeKind) (lim : Limits) (n : Option Nat) (jump : Bool) (cases : List Case) (plan : Plan)
    (h : Typed t n cases) (ha : analyseSwitch lim n jump cases = some (some plan)) :
    OneDefault cases ∧ ∀ (i j : Nat) (c d : Case) (l m : Label), i < j → cases[i]? = some c → cases[j]? = some d →
      c.label = some l → d.label = some m → ¬ l.Contains m.lo := by
  obtain ⟨s, e, _⟩ := accepted h ha
  obtain ⟨r, e', _, hp⟩ := checkCases_spec lim ⟨false, 0#64, none, none, false⟩ (before := []) (by simp [Typed]) h
  rw [e] at e'
  cases e'
  obtain ⟨_, _, p3, _, p5, _⟩ := hp s rfl
  refine ⟨p5, ?_⟩
  intro i j c d l m hij hi hj hl hm
  refine p3 j d m hj hm c ?_ l hl
  rw [List.nil_append, List.mem_iff_getElem?]
  exact ⟨i, by rw [List.getElem?_take_of_lt hij]; exact hi⟩

/-- C28, completeness of the check for integers: a switch with upward ranges, at most one default and no value in
two cases is accepted, and not marked `@jump` the analysis never faults. -/
theorem C28_check_complete (t : TypeKind) (lim : Limits) (cases : List Case) (h : Typed t none cases)
    (ho : Ordered cases) (hone : OneDefault cases) (hd : Disjoint cases) :
    ∃ plan, analyseSwitch lim none false cases = some (some plan) := by
  obtain ⟨r, e, hn, _⟩ := checkCases_spec lim ⟨false, 0#64, none, none, false⟩ (before := []) (by simp [Typed]) h
  have hr : r ≠ none := by
    refine hn ho (by simp) hone ?_
    intro j c l hj hl d hd' m hm hx
    rw [List.nil_append, List.mem_iff_getElem?] at hd'
    obtain ⟨i, hi⟩ := hd'
    have hij : i < j := by
      by_contra hge
      rw [List.getElem?_take_eq_none (by omega)] at hi
      cases hi
    rw [List.getElem?_take_of_lt hij] at hi
    exact hd i j d c m l l.lo hij hi hj hm hl hx ⟨Int.le_refl _, ho c (List.mem_iff_getElem?.2 ⟨j, hj⟩) l hl⟩
  rcases r with _ | s
  · exact absurd rfl hr
  · exact ⟨⟨s.maxRanged, false⟩, by simp [analyseSwitch, e]⟩

/-- C28: whatever the cases, the analysis of a switch that is not marked `@jump` has defined behaviour. -/
theorem C28_check_defined (t : TypeKind) (lim : Limits) (n : Option Nat) (cases : List Case) (h : Typed t n cases) :
    ∃ r, analyseSwitch lim n false cases = some r := by
  obtain ⟨r, e, _⟩ := checkCases_spec lim ⟨false, 0#64, none, none, false⟩ (before := []) (by simp [Typed]) h
  unfold analyseSwitch
  simp only [e, Option.bind_eq_bind, Option.bind_some, Bool.false_eq_true, if_false]
  rcases r with _ | s
  · exact ⟨none, rfl⟩
  · dsimp only
    split <;> exact ⟨_, rfl⟩

/-- The cases of one check of `C28_check_complete`. -/
private def sample : List Case :=
  [⟨some (.int (mk .I8 (-5)) none), false⟩, ⟨some (.int (mk .I8 0) (some (mk .I8 9))), true⟩, ⟨none, true⟩,
    ⟨some (.int (mk .I8 100) (some (mk .I8 127))), true⟩]

example : analyseSwitch defaults none false sample = some (some ⟨false, false⟩) := by decide +kernel
example : Typed .I8 none sample := by
  intro c hc
  simp only [sample, List.mem_cons, List.not_mem_nil, or_false] at hc
  rcases hc with rfl | rfl | rfl | rfl <;> intro l hl <;> cases hl
  · exact ⟨rfl, rfl, by unfold CInt.WF TypeKind.InRange; decide +kernel, by simp⟩
  · exact ⟨rfl, rfl, by unfold CInt.WF TypeKind.InRange; decide +kernel, by
      intro c hc; cases hc; exact ⟨rfl, by unfold CInt.WF TypeKind.InRange; decide +kernel⟩⟩
  · exact ⟨rfl, rfl, by unfold CInt.WF TypeKind.InRange; decide +kernel, by
      intro c hc; cases hc; exact ⟨rfl, by unfold CInt.WF TypeKind.InRange; decide +kernel⟩⟩

/-- C28: an accepted switch over an enum whose cases are disjoint upward ranges handles every value, or has a
default. -/
theorem C28_exhaustive (t : TypeKind) (lim : Limits) (n : Nat) (jump : Bool) (cases : List Case) (plan : Plan)
    (h : Typed t (some n) cases) (ho : Ordered cases) (hd : Disjoint cases)
    (ha : analyseSwitch lim (some n) jump cases = some (some plan)) :
    (∃ c ∈ cases, c.label = none) ∨ ∀ x : Nat, x < n → ∃ c ∈ cases, ∃ l ∈ c.label, l.Contains x := by
  obtain ⟨s, e, hex, _⟩ := accepted h ha
  obtain ⟨r, e', _, hp⟩ := checkCases_spec lim ⟨false, 0#64, none, none, false⟩ (before := []) (by simp [Typed]) h
  rw [e] at e'
  cases e'
  obtain ⟨_, _, _, _, _, p6, p7, _⟩ := hp s rfl
  rcases hex (by simp) with hdef | ⟨m, hm, hc⟩
  · left
    simpa using p6.1 hdef
  · cases hm
    right
    refine fun x hx => covers h ho (apart_of_disjoint hd) ?_ x hx
    have := p7 (by simp)
    rw [hc] at this
    simpa using this

/-- C28: an enum switch with disjoint upward ranges, none of them above the limit, that handles every value or has
a default is accepted. -/
theorem C28_exhaustive_complete (t : TypeKind) (lim : Limits) (n : Nat) (cases : List Case)
    (h : Typed t (some n) cases) (ho : Ordered cases) (hone : OneDefault cases) (hd : Disjoint cases)
    (hsz : ∀ c ∈ cases, ∀ l ∈ c.label, l.hi - l.lo ≤ lim.range.toNat)
    (hc : (∃ c ∈ cases, c.label = none) ∨ ∀ x : Nat, x < n → ∃ c ∈ cases, ∃ l ∈ c.label, l.Contains x) :
    ∃ plan, analyseSwitch lim (some n) false cases = some (some plan) := by
  obtain ⟨r, e, hn, hp⟩ := checkCases_spec lim ⟨false, 0#64, none, none, false⟩ (before := []) (by simp [Typed]) h
  have hr : r ≠ none := by
    refine hn ho (by simp) hone ?_
    intro j c l hj hl d hd' m hm hx
    rw [List.nil_append, List.mem_iff_getElem?] at hd'
    obtain ⟨i, hi⟩ := hd'
    have hij : i < j := by
      by_contra hge
      rw [List.getElem?_take_eq_none (by omega)] at hi
      cases hi
    rw [List.getElem?_take_of_lt hij] at hi
    exact hd i j d c m l l.lo hij hi hj hm hl hx ⟨Int.le_refl _, ho c (List.mem_iff_getElem?.2 ⟨j, hj⟩) l hl⟩
  rcases r with _ | s
  · exact absurd rfl hr
  · have hex : exhaustive (some n) s = true := by
      rw [exhaustive, Bool.or_eq_true]
      rcases hc with hc | hc
      · exact Or.inl ((hp s rfl).2.2.2.2.2.1.2 (Or.inr hc))
      · right
        have ht := total_eq h ho (apart_of_disjoint hd) hc
        have hcount := checkCases_count lim h rfl (fun c hc l hl => by
          have := hsz c hc l hl
          unfold Label.size
          omega) e
        have hn : n ≤ 2 ^ 32 := by
          by_contra hgt
          obtain ⟨c, hc', l, hl, hx⟩ := hc (2 ^ 32) (by omega)
          have hT := h c hc' l hl
          cases l with
          | int a b => exact absurd hT.1 (by simp)
          | enum a b =>
            have := (b.getD a).isLt
            have h2 : ((2 ^ 32 : Nat) : Int) ≤ (b.getD a).toNat := hx.2
            omega
        rw [hcount, ht]
        simp only [BitVec.zero_add, BitVec.toNat_ofNat, beq_iff_eq]
        omega
    refine ⟨⟨s.maxRanged, false⟩, ?_⟩
    simp [analyseSwitch, e, hex]

/-- Seven enum values in four cases. -/
private def days : List Case :=
  [⟨some (.enum 6#32 none), true⟩, ⟨some (.enum 1#32 (some 4#32)), true⟩, ⟨some (.enum 0#32 none), false⟩, ⟨some (.enum 5#32 none), true⟩]
example : analyseSwitch defaults (some 7) false days = some (some ⟨false, false⟩) := by decide +kernel
example : analyseSwitch defaults (some 8) false days = some none := by decide +kernel

/-! ## Where values go -/

/-- The target of a value is the only one, so that the theorems below say where it goes. -/
theorem C28_target_unique (cases : List Case) (x : Int) (a b : Block) (hd : Disjoint cases) (hone : OneDefault cases)
    (ha : Target cases x a) (hb : Target cases x b) : a = b := by
  have runs : ∀ i, RunsAt cases i a → RunsAt cases i b → a = b := by
    intro i ha hb
    cases a with
    | none =>
      cases b with
      | none => rfl
      | some j =>
        obtain ⟨h1, ⟨c, hc, hbd⟩, _⟩ := hb
        rw [ha j c h1 hc] at hbd
        cases hbd
    | some j =>
      obtain ⟨h1, ⟨c, hc, hbd⟩, h3⟩ := ha
      cases b with
      | none =>
        rw [hb j c h1 hc] at hbd
        cases hbd
      | some k =>
        obtain ⟨g1, ⟨d, hd, gbd⟩, g3⟩ := hb
        rcases Nat.lt_trichotomy j k with h | h | h
        · rw [g3 j c h1 h hc] at hbd; cases hbd
        · rw [h]
        · rw [h3 k d g1 h hd] at gbd; cases gbd
  have mem : ∀ {i : Nat} {c : Case}, cases[i]? = some c → c ∈ cases := fun h => List.mem_iff_getElem?.2 ⟨_, h⟩
  rcases ha with ⟨i, c, l, h1, h2, h3, h4⟩ | ⟨hno, h⟩
  · rcases hb with ⟨j, d, m, g1, g2, g3, g4⟩ | ⟨gno, g⟩
    · rcases Nat.lt_trichotomy i j with h | h | h
      · exact absurd g3 (hd i j c d l m x h h1 g1 h2 g2 h3)
      · subst h; exact runs i h4 g4
      · exact absurd h3 (hd j i d c m l x h g1 h1 g2 h2 g3)
    · exact absurd h3 (gno c (mem h1) l h2)
  · rcases hb with ⟨j, d, m, g1, g2, g3, g4⟩ | ⟨gno, g⟩
    · exact absurd g3 (hno d (mem g1) m g2)
    · rcases h with ⟨i, c, h1, h2, h3⟩ | ⟨h1, h2⟩
      · rcases g with ⟨j, d, g1, g2, g3⟩ | ⟨g1, g2⟩
        · have := hone i j c d h1 g1 h2 g2
          subst this
          exact runs i h3 g3
        · exact absurd h2 (g1 c (mem h1))
      · rcases g with ⟨j, d, g1, g2, g3⟩ | ⟨g1, g2⟩
        · exact absurd g2 (h1 d (mem g1))
        · rw [h2, g2]

/-- C28, dispatch, partly: in an accepted switch with disjoint cases, generated as LLVM switch or as chain of
comparisons, every value runs the case containing it, else the default, else nothing.  Missing: that accepted
switches have disjoint cases (false, see below); and in a chain a default without body must not have a body
after it. -/
theorem C28_dispatch_partial (t : TypeKind) (lim : Limits) (n : Option Nat) (cases : List Case) (plan : Plan) (v : Val t)
    (h : Typed t n cases) (hd : Disjoint cases) (ha : analyseSwitch lim n false cases = some (some plan))
    (hde : plan.ifChain = true → DefaultEnds cases) :
    ∃ b, emitSwitch t plan cases v = some b ∧ Target cases (value t v) b := by
  obtain ⟨s, e, _, hplan, _⟩ := accepted h ha
  obtain rfl := hplan rfl
  obtain ⟨r, e', _, hp⟩ := checkCases_spec lim ⟨false, 0#64, none, none, false⟩ (before := []) (by simp [Typed]) h
  rw [e] at e'
  cases e'
  obtain ⟨_, p2, _⟩ := hp s rfl
  have hT : ∀ c ∈ withBlocks cases, ∀ l ∈ c.1.label, l.Typed t n := fun c hc => h c.1 (mem_cases hc)
  unfold emitSwitch
  by_cases hemp : cases.isEmpty = true
  · rw [if_pos hemp]
    have : cases = [] := by simpa using hemp
    subst this
    exact ⟨none, rfl, Or.inr ⟨by simp, Or.inr ⟨by simp, rfl⟩⟩⟩
  · rw [if_neg hemp]
    simp only [Bool.false_eq_true, if_false]
    by_cases hc : s.maxRanged = true
    · rw [if_pos hc]
      refine ⟨_, rfl, ?_⟩
      rcases ifChain_spec v (defaultCase (withBlocks cases)) hT with ⟨⟨c, b⟩, hm, l, hl, hx, eb⟩ | ⟨hno, eb⟩
      · rw [eb]
        exact target_case hm hl hx
      · rw [eb]
        refine target_defaultBlock ?_ (hde hc)
        intro c hc l hl
        obtain ⟨b, hb⟩ := with_mem hc
        exact hno (c, b) hb l hl
    · rw [if_neg hc]
      have ho := p2 (by simpa using hc)
      obtain ⟨hnd, hmem⟩ := llvmCases_spec hT (fun c hc => ho c.1 (mem_cases hc)) (by rw [withBlocks_fst]; exact apart_of_disjoint hd)
      unfold llvmSwitch
      rw [if_pos hnd]
      rcases hf : (llvmCases t (withBlocks cases)).find? (fun c => c.1 == v) with _ | ⟨x, b⟩
      · simp only [hf]
        refine ⟨_, rfl, target_default ?_ ?_ ?_⟩
        · intro c hc l hl hx
          obtain ⟨b, hb⟩ := with_mem hc
          have := List.find?_eq_none.1 hf (v, b) ((hmem v b).2 ⟨c, hb, l, hl, hx⟩)
          simp at this
        · intro e
          rw [e]
          rfl
        · intro c b e
          left
          rw [e]
          rfl
      · simp only [hf]
        refine ⟨b, rfl, ?_⟩
        have hm := List.mem_of_find?_eq_some hf
        have hxv : x = v := by simpa using List.find?_some hf
        subst hxv
        obtain ⟨c, hc, l, hl, hx⟩ := (hmem x b).1 hm
        exact target_case hc hl hx

example : (analyseSwitch defaults none false sample).isSome ∧
    ((List.range 256).map fun k => emitSwitch .I8 ⟨false, false⟩ sample (BitVec.ofNat 8 k)) =
      List.replicate 10 (some (some 1)) ++ List.replicate 90 (some (some 2)) ++ List.replicate 28 (some (some 3)) ++
      List.replicate 123 (some (some 2)) ++ [some (some 1)] ++ List.replicate 4 (some (some 2)) := by decide +kernel

/-- C28, dispatch of a switch marked `@jump`, partly: as above if every case has a body, the ranges go upwards, the
values span no more than the largest value of the type (else the table size wraps) and, for an enum, less than the
size limit (only checked for integers). -/
theorem C28_dispatch_jump_partial (t : TypeKind) (lim : Limits) (n : Option Nat) (cases : List Case) (plan : Plan) (v : Val t)
    (h : Typed t n cases) (hd : Disjoint cases) (ha : analyseSwitch lim n true cases = some (some plan))
    (ho : Ordered cases) (hde : DefaultEnds cases) (hbody : ∀ c ∈ cases, c.label ≠ none → c.body = true)
    (hlim : lim.jump.toNat ≤ 0x3FFF)
    (hw : ∀ c ∈ cases, ∀ l ∈ c.label, ∀ d ∈ cases, ∀ m ∈ d.label, m.hi - l.lo ≤ t.maxVal ∧ (n ≠ none → m.hi - l.lo < 0x3FFF)) :
    ∃ b, emitSwitch t plan cases v = some b ∧ Target cases (value t v) b := by
  have hspan : ∀ c ∈ cases, ∀ l ∈ c.label, ∀ d ∈ cases, ∀ m ∈ d.label, m.hi - l.lo ≤ t.maxVal ∧ m.hi - l.lo < 0x3FFF := by
    intro c hc l hl d hd m hm
    refine ⟨(hw c hc l hl d hd m hm).1, ?_⟩
    by_cases hn : n = none
    · subst hn
      have := accepted_span h ha (fun c hc l hl d hd m hm => (hw c hc l hl d hd m hm).1) ho c hc l hl d hd m hm
      omega
    · exact (hw c hc l hl d hd m hm).2 hn
  obtain ⟨s, e, _, _, hplan⟩ := accepted h ha
  obtain ⟨rfl, _⟩ := hplan rfl
  obtain ⟨r, e', _, hp⟩ := checkCases_spec lim ⟨false, 0#64, none, none, false⟩ (before := []) (by simp [Typed]) h
  rw [e] at e'
  cases e'
  obtain ⟨_, _, _, _, p5, p6, _⟩ := hp s rfl
  unfold emitSwitch
  by_cases hemp : cases.isEmpty = true
  · rw [if_pos hemp]
    have : cases = [] := by simpa using hemp
    subst this
    exact ⟨none, rfl, Or.inr ⟨by simp, Or.inr ⟨by simp, rfl⟩⟩⟩
  · rw [if_neg hemp]
    simp only [Bool.false_eq_true, if_false]
    by_cases hne : ∃ c ∈ cases, c.label ≠ none
    · have hj : (!(s.hasDefault && cases.length == 1)) = true := by
        rw [Bool.not_eq_true', Bool.and_eq_false_iff]
        rcases Bool.eq_false_or_eq_true s.hasDefault with hs | hs
        · right
          obtain ⟨c, hc, hcl⟩ := hne
          have hdef := p6.1 hs
          simp only [Bool.false_eq_true, false_or] at hdef
          obtain ⟨d, hd', hdl⟩ := hdef
          rw [beq_eq_false_iff_ne]
          intro hlen
          obtain ⟨x, rfl⟩ := List.length_eq_one_iff.1 hlen
          rw [List.mem_singleton] at hc hd'
          subst hc
          subst hd'
          exact hcl hdl
        · exact Or.inl hs
      rw [if_pos hj]
      exact jumpTable_spec v h ho (apart_of_disjoint hd) hbody hne hde hspan
    · have hnl : ∀ c ∈ cases, c.label = none := by
        intro c hc
        by_contra hcl
        exact hne ⟨c, hc, hcl⟩
      have hlen : cases.length = 1 := by
        rcases cases with _ | ⟨c, _ | ⟨d, cs⟩⟩
        · simp at hemp
        · rfl
        · have := p5 0 1 c d rfl rfl (hnl c (by simp)) (hnl d (by simp))
          omega
      obtain ⟨x, rfl⟩ := List.length_eq_one_iff.1 hlen
      have hx := hnl x (by simp)
      have hs : s.hasDefault = true := p6.2 (Or.inr ⟨x, by simp, hx⟩)
      rw [hs]
      simp only [List.length_singleton, beq_self_eq_true, Bool.and_self, Bool.not_true, Bool.false_eq_true, if_false]
      refine ⟨(defaultCase (withBlocks [x])).elim none (·.2), ?_, ?_⟩
      · simp [withBlocks, assignBlocks, llvmCases, hx, llvmSwitch]
      · refine target_default (by simp [hx]) ?_ ?_
        · intro e
          rw [e]
          rfl
        · intro c b e
          left
          rw [e]
          rfl

/-- The same cases with a body each. -/
private def sampleJump : List Case :=
  [⟨some (.int (mk .I8 (-5)) none), true⟩, ⟨some (.int (mk .I8 0) (some (mk .I8 9))), true⟩, ⟨none, true⟩,
    ⟨some (.int (mk .I8 100) (some (mk .I8 101))), true⟩]
example : analyseSwitch defaults none true sampleJump = some (some ⟨false, true⟩) ∧
    ((List.range 256).map fun k => emitSwitch .I8 ⟨false, true⟩ sampleJump (BitVec.ofNat 8 k)) =
      List.replicate 10 (some (some 1)) ++ List.replicate 90 (some (some 2)) ++ List.replicate 2 (some (some 3)) ++
      List.replicate 149 (some (some 2)) ++ [some (some 0)] ++ List.replicate 4 (some (some 2)) := by decide +kernel

/-! ## `nextcase` with a value -/

/-- C28: `nextcase value` with a constant goes to the first case containing it, and is an error when there is none. -/
theorem C28_nextcase (t : TypeKind) (n : Option Nat) (cases : List Case) (c : Const) (x : Int) (i : Nat)
    (hc : Denotes t n c x) (h : Typed t n cases) : ∃ r, nextcase c i cases = some r ∧ FirstContaining cases x i r := by
  induction cases generalizing i with
  | nil => exact ⟨none, rfl, by simp [FirstContaining]⟩
  | cons d cs ih =>
    obtain ⟨r, e, hr⟩ := ih (i + 1) fun d hd => h d (List.mem_cons_of_mem _ hd)
    rw [nextcase]
    have lift : (∀ l ∈ d.label, ¬ l.Contains x) → FirstContaining (d :: cs) x i r := by
      intro hd
      rcases r with _ | j
      · intro d' hd'
        rcases List.mem_cons.1 hd' with rfl | hd'
        · exact hd
        · exact hr d' hd'
      · obtain ⟨h1, ⟨d', l, g1, g2, g3⟩, h3⟩ := hr
        have hj : j - i = (j - (i + 1)) + 1 := by omega
        refine ⟨by omega, ⟨d', l, by rw [hj]; exact g1, g2, g3⟩, ?_⟩
        intro k d' l hk hd' hl
        cases k with
        | zero => cases hd'; exact hd l hl
        | succ k => exact h3 k d' l (by omega) hd' hl
    rcases hl : d.label with _ | l
    · exact ⟨r, e, lift (by simp [hl])⟩
    · obtain ⟨q, e', s'⟩ := in_range t n c x l hc (h d (List.mem_cons_self ..) l hl)
      simp only [e', Option.bind_eq_bind, Option.bind_some]
      cases q with
      | true =>
        refine ⟨some i, rfl, Nat.le_refl _, ⟨d, l, by simp, hl, s'.1 rfl⟩, ?_⟩
        intro k d' l hk
        omega
      | false =>
        refine ⟨r, e, lift ?_⟩
        intro m hm hx
        rw [hl] at hm
        cases hm
        simpa using s'.2 hx

example : nextcase (.integer (mk .I8 101)) 0 sample = some (some 3) := by decide +kernel
example : nextcase (.integer (mk .I8 99)) 0 sample = some none := by decide +kernel

/-! ## Where the code fails the claim -/

/-- C28 fails: a single value followed by a range starting below it and reaching it is accepted, for every type and
all such values; as LLVM switch it then has the value twice, which is not valid. -/
theorem C28_overlap_accepted (t : TypeKind) (lim : Limits) (x a b : CInt) (hx : x.type = t ∧ x.WF) (ha : a.type = t ∧ a.WF)
    (hb : b.type = t ∧ b.WF) (h1 : a.val < x.val) (h2 : x.val ≤ b.val) :
    ∃ plan, analyseSwitch lim none false [⟨some (.int x none), true⟩, ⟨some (.int a (some b)), true⟩] = some (some plan) ∧
    (plan.ifChain = false →
      ∀ v, emitSwitch t plan [⟨some (.int x none), true⟩, ⟨some (.int a (some b)), true⟩] v = none) := by
  have hT : Typed t none [⟨some (.int x none), true⟩, ⟨some (.int a (some b)), true⟩] := by
    intro c hc l hl
    simp only [List.mem_cons, List.not_mem_nil, or_false] at hc
    rcases hc with rfl | rfl <;> cases hl
    · exact ⟨rfl, hx.1, hx.2, by simp⟩
    · exact ⟨rfl, ha.1, ha.2, by intro c hc; cases hc; exact hb⟩
  obtain ⟨r, e, hn, _⟩ := checkCases_spec lim ⟨false, 0#64, none, none, false⟩ (before := []) (by simp [Typed]) hT
  have hr : r ≠ none := by
    refine hn ?_ (by simp) ?_ ?_
    · intro c hc l hl
      simp only [List.mem_cons, List.not_mem_nil, or_false] at hc
      rcases hc with rfl | rfl <;> cases hl
      · exact Int.le_refl _
      · simp only [Label.lo, Label.hi, Option.getD_some]
        omega
    · intro i j c d hi hj hc
      rcases i with _ | _ | i
      · cases hi; cases hc
      · cases hi; cases hc
      · cases hi
    · intro j c l hj hl d hd m hm
      rcases j with _ | _ | j
      · simp at hd
      · cases hj
        cases hl
        simp only [List.nil_append, List.take_succ_cons, List.take_zero, List.mem_singleton] at hd
        subst hd
        cases hm
        intro hc
        have := hc.1
        simp only [Label.lo] at this
        omega
      · cases hj
  rcases r with _ | s
  · exact absurd rfl hr
  · refine ⟨⟨s.maxRanged, false⟩, by simp [analyseSwitch, e], ?_⟩
    intro hm v
    have hm : s.maxRanged = false := hm
    have hin : constVal t x ∈ caseValues t (.int a (some b)) := by
      rw [case_values (n := none) (hT ⟨some (.int a (some b)), true⟩ (by simp) _ rfl) (by simp only [Label.lo, Label.hi, Option.getD_some]; omega),
        constVal_value t x hx.1 hx.2]
      exact ⟨Int.le_of_lt h1, h2⟩
    have hdup : ¬ ((llvmCases t (withBlocks [⟨some (.int x none), true⟩, ⟨some (.int a (some b)), true⟩])).map (·.1)).Nodup := by
      simp only [withBlocks, assignBlocks, List.zip_cons_cons, List.zip_nil_left, llvmCases, List.append_nil, List.map_append,
        List.map_map]
      rw [List.nodup_append]
      rintro ⟨_, _, hne⟩
      exact hne (constVal t x) (by simp [caseValues, Label.last, labelValues]) (constVal t x) (by simpa using hin) rfl
    simp only [emitSwitch, List.isEmpty_cons, Bool.false_eq_true, if_false, hm, llvmSwitch, if_neg hdup]

/-- `case 5: … case 3 .. 7: …` -/
private def overlap : List Case := [⟨some (.int (mk .I32 5) none), true⟩, ⟨some (.int (mk .I32 3) (some (mk .I32 7))), true⟩]
example : analyseSwitch defaults none false overlap = some (some ⟨false, false⟩) := by decide +kernel

/-- With `@jump` the same mistake writes outside the table: `case 5: case 3 .. 7:`, the highest value is not raised
when the lowest is lowered. -/
theorem C28_overlap_jump : analyseSwitch defaults none true overlap = some (some ⟨false, true⟩) ∧
    ∀ v, emitSwitch .I32 ⟨false, true⟩ overlap v = none := by
  refine ⟨by decide +kernel, fun v => ?_⟩
  have hb : tableBounds .I32 none (withBlocks overlap) = some (mk .I32 3, mk .I32 5) := by decide +kernel
  have hs : int_sub (mk .I32 5) (mk .I32 3) = some (mk .I32 2) := by decide +kernel
  have hf : fillTable .I32 (mk .I32 3) [none, none, none] [] (withBlocks overlap) = none := by decide +kernel
  have hl : (mk .I32 2).i.low.toNat = 2 := by decide +kernel
  have hh : (mk .I32 2).i.high = 0#64 := by decide +kernel
  have he : overlap.isEmpty = false := rfl
  simp [emitSwitch, he, jumpTable, hb, hs, hl, hh, hf]

/-- C28 fails for enums: `case B: case A .. C:` of an enum with the values A, B, C and D is taken to be exhaustive,
because the sizes of the cases add up to four; D is not handled. -/
theorem C28_not_exhaustive :
    analyseSwitch defaults (some 4) false [⟨some (.enum 1#32 none), true⟩, ⟨some (.enum 0#32 (some 2#32)), true⟩] =
      some (some ⟨false, false⟩) ∧
    ∀ c ∈ ([⟨some (.enum 1#32 none), true⟩, ⟨some (.enum 0#32 (some 2#32)), true⟩] : List Case), ∀ l ∈ c.label, ¬ l.Contains 3 := by
  refine ⟨by decide +kernel, ?_⟩
  intro c hc l hl
  simp only [List.mem_cons, List.not_mem_nil, or_false] at hc
  rcases hc with rfl | rfl <;> cases hl <;> simp [Label.Contains, Label.lo, Label.hi]

/-- After a range above the limit later ranges count as one value: this switch handles all of the 303 values once,
but is rejected as not exhaustive. -/
theorem C28_exhaustive_rejected :
    analyseSwitch defaults (some 303) false [⟨some (.enum 0#32 (some 299#32)), true⟩, ⟨some (.enum 300#32 (some 302#32)), true⟩] =
      some none := by decide +kernel

/-- After a range above the limit a range going downwards is accepted. -/
theorem C28_inverted_accepted :
    (analyseSwitch defaults none false [⟨some (.int (mk .I32 0) (some (mk .I32 999))), true⟩,
      ⟨some (.int (mk .I32 2000) (some (mk .I32 1500))), true⟩]).map Option.isSome = some true := by decide +kernel

/-- A default without body falls through to the next case in an LLVM switch, but leaves the switch in a chain of
comparisons or a jump table; which one is used depends on the size of the ranges. -/
theorem C28_default_fallthrough (t : TypeKind) (v : Val t) :
    let cases (a : CInt) (b : Option CInt) : List Case := [⟨none, false⟩, ⟨some (.int a b), true⟩]
    (∀ (a : CInt) (b : Option CInt), ¬ (Label.int a b).Contains (value t v) → (Label.int a b).Typed t none → a.val ≤ (b.getD a).val →
      emitSwitch t ⟨false, false⟩ (cases a b) v = some (some 1) ∧ emitSwitch t ⟨true, false⟩ (cases a b) v = some none) := by
  intro cases a b hno hT hle
  have hT' : Typed t none (cases a b) := by
    intro c hc l hl
    simp only [cases, List.mem_cons, List.not_mem_nil, or_false] at hc
    rcases hc with rfl | rfl <;> cases hl
    exact hT
  have hb : withBlocks (cases a b) = [(⟨none, false⟩, some 1), (⟨some (.int a b), true⟩, some 1)] := rfl
  constructor
  · have hnot : ∀ y b', (y, b') ∈ llvmCases t (withBlocks (cases a b)) → y ≠ v := by
      intro y b' hy he
      subst he
      rw [hb] at hy
      simp only [llvmCases, List.append_nil, List.mem_map] at hy
      obtain ⟨z, hz, hz'⟩ := hy
      cases hz'
      exact hno ((case_values (n := none) hT hle y).1 hz)
    have hnd : ((llvmCases t (withBlocks (cases a b))).map (·.1)).Nodup := by
      refine (llvmCases_spec (n := none) (fun c hc => hT' c.1 (mem_cases hc)) ?_ ?_).1
      · intro c hc l hl
        rw [hb] at hc
        simp only [List.mem_cons, List.not_mem_nil, or_false] at hc
        rcases hc with rfl | rfl <;> cases hl
        exact hle
      · rw [withBlocks_fst]
        simp [Apart, cases]
    have hf : (llvmCases t (withBlocks (cases a b))).find? (fun c => c.1 == v) = none := by
      rw [List.find?_eq_none]
      rintro ⟨y, b'⟩ hy
      simpa using hnot y b' hy
    have he : (cases a b).isEmpty = false := rfl
    simp only [emitSwitch, he, Bool.false_eq_true, if_false, llvmSwitch, if_pos hnd, hf]
    rfl
  · have he : (cases a b).isEmpty = false := rfl
    simp only [emitSwitch, he, Bool.false_eq_true, if_false, if_true]
    rcases ifChain_spec (n := none) v (defaultCase (withBlocks (cases a b))) (cs := withBlocks (cases a b))
      (fun c hc => hT' c.1 (mem_cases hc)) with ⟨⟨c, b'⟩, hm, l, hl, hx, _⟩ | ⟨_, e⟩
    · have hm := mem_cases hm
      simp only [cases, List.mem_cons, List.not_mem_nil, or_false] at hm
      rcases hm with rfl | rfl <;> cases hl
      exact absurd hx hno
    · rw [e]
      rfl

/-- With `@jump` a case without body jumps to a block that is not among the destinations declared to LLVM when only
the default has a body: `case 0: default: …`. -/
theorem C28_jump_fallthrough :
    analyseSwitch defaults none true [⟨some (.int (mk .I32 0) none), false⟩, ⟨none, true⟩] = some (some ⟨false, true⟩) ∧
    emitSwitch .I32 ⟨false, true⟩ [⟨some (.int (mk .I32 0) none), false⟩, ⟨none, true⟩] 0#32 = none := by
  constructor <;> decide +kernel

/-- With `@jump` over a signed type the size of the table wraps: `case -100: case 100:` of an `ichar` passes the
check of the size, and fails an assertion when generating code. -/
theorem C28_jump_wraps :
    let cases : List Case := [⟨some (.int (mk .I8 (-100)) none), true⟩, ⟨some (.int (mk .I8 100) none), true⟩]
    analyseSwitch defaults none true cases = some (some ⟨false, true⟩) ∧ ∀ v, emitSwitch .I8 ⟨false, true⟩ cases v = none := by
  intro cases
  refine ⟨by decide +kernel, fun v => ?_⟩
  have hb : tableBounds .I8 none (withBlocks cases) = some (mk .I8 (-100), mk .I8 100) := by decide +kernel
  have hs : int_sub (mk .I8 100) (mk .I8 (-100)) = some (mk .I8 (-56)) := by decide +kernel
  have hh : (mk .I8 (-56)).i.high ≠ 0#64 := by decide +kernel
  have he : cases.isEmpty = false := rfl
  simp [emitSwitch, he, jumpTable, hb, hs, hh]

end C3.Switch
