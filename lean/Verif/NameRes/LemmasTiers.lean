import Verif.NameRes.LemmasGlobal

/-!
# Lemmas: the order of the searches
-/

set_option autoImplicit false

namespace C3.NameRes

variable {P : Prog} {T : Tables} {order : List Nat}

theorem files_iff (fl : Filled P T order) (f : Nat) (sym : Name) (i : Nat) :
    T.files f sym = some i ↔ OfFile P f none sym i := by
  rw [fl.holds.files]
  constructor
  · rintro ⟨_, d, h1, h2, h3, h4⟩
    exact ⟨rfl, d, ⟨h1, h2, h3⟩, h4⟩
  · rintro ⟨_, d, ⟨h1, h2, h3⟩, h4⟩
    exact ⟨fl.mem h1, d, h1, h2, h3, h4⟩

theorem modules_iff (wf : WF P) (fl : Filled P T order) {f : Nat} {u : CUnit} (hu : P.units[f]? = some u) {um : Module}
    (hum : P.modules[u.module]? = some um) {path : Option Name} (hp : PathArg path) (sym : Name) (i : Nat) :
    (findInModule T u.module um path sym).1 = some i ↔ OfModule P f path sym i := by
  rw [findInModule_eq wf hp hum fl]
  constructor
  · rintro ⟨d, h1, h2, h3, h4⟩
    exact ⟨d, u, h1, h2, hu, h3, h4⟩
  · rintro ⟨d, u', h1, h2, hu', h3, h4⟩
    rw [hu] at hu'
    cases hu'
    exact ⟨d, h1, h2, h3, h4⟩

theorem findInModule_path (wf : WF P) {m : Nat} {mm : Module} (hm : P.modules[m]? = some mm) {p : Name} {B : List Name} (hB : IsPath p B)
    (sym : Name) : (findInModule T m mm (some p) sym).1 = if matchesSubpath mm.name p then T.modules m sym else none := by
  obtain ⟨A, hA⟩ := wf.path m mm hm
  unfold findInModule
  simp only
  by_cases hmatch : matchesSubpath mm.name p = true
  · have hlen : ¬p.length > mm.name.length := by
      have h := (matchesSubpath_iff hA hB).1 hmatch
      obtain ⟨c, rfl⟩ := h
      by_cases hc : c = []
      · subst hc
        rw [hA.text, hB.text]
        simp
      · rw [hA.text, hB.text, joinPath_append hc hB.nonempty]
        simp
        omega
    rw [if_neg hlen, if_neg (by simp [hmatch]), if_pos hmatch]
  · rw [if_neg hmatch]
    split
    · rfl
    · rw [if_pos (by simpa using hmatch)]

/-- The result of the imports, as it is reported. -/
def ofImports (x : Nat) : Option Nat → Outcome
  | none => .decl x
  | some y => .ambiguous x y

theorem ofImport_of {f : Nat} {u : CUnit} (hu : P.units[f]? = some u) {path : Option Name} {sym : Name} {x : Nat}
    (h : OfImport P f path sym x) : ∃ i ∈ u.imports, ∃ d, Named P sym x d ∧ d.vis = .pub ∧ P.moduleOf d = some i.module ∧ Fits P path d := by
  obtain ⟨_, d, u', m, h1, h2, hu', h3, ⟨i, hi, h4⟩, h5⟩ := h
  rw [hu] at hu'
  cases hu'
  exact ⟨i, hi, d, h1, h2, by rw [h4]; exact h3, h5⟩

/-- The imports, and then all declarations. -/
theorem imports_tiers (wf : WF P) (fl : Filled P T order) {f : Nat} {u : CUnit} (hu : P.units[f]? = some u) {path : Option Name}
    (hp : PathArg path) (sym : Name) (r : Res) (hf : r.ambiguous = none) :
    ∃ r', findInImports P T u path sym false r = some r' ∧
      (∀ x, r'.found = some x → ImpCand P f u path sym x ∧
          (∀ y, r'.ambiguous = some y → x ≠ y ∧ ImpCand P f u path sym y) ∧
          (r'.ambiguous = none → ∀ y, OfImport P f path sym y → y = x)) ∧
      (r'.found = none → r'.ambiguous = none ∧ ∀ y, ¬OfImport P f path sym y) := by
  obtain ⟨dec, r', h1, h2, _, h4, h5, _, h7⟩ := importsLoop_ok wf fl hu hp sym u.imports none r (fun _ h => h) (wf.importsOnce f u hu) (by simp)
  refine ⟨{ r' with found := dec }, by simp [findInImports, h1], ?_, ?_⟩
  · intro x hx
    simp only at hx
    refine ⟨h2 x hx, ?_, ?_⟩
    · intro y hy
      simp only at hy
      rcases h4 with h4 | ⟨x', y', a, b, c, e⟩
      · rw [h4, hf] at hy; cases hy
      · rw [hx] at a; cases a
        rw [hy] at b; cases b
        exact ⟨c, e⟩
    · intro hamb y hy
      obtain ⟨i, hi, d, a, b, c, e⟩ := ofImport_of hu hy
      exact h7 x hx hamb hy.1 i hi y d a b c e
  · intro hnone
    simp only at hnone ⊢
    refine ⟨?_, ?_⟩
    · rcases h4 with h4 | ⟨x', y', a, _⟩
      · rw [h4, hf]
      · rw [hnone] at a; cases a
    · intro y hy
      obtain ⟨i, hi, d, a, b, c, e⟩ := ofImport_of hu hy
      exact hy.1 (h5 hnone i hi y d a b c e)

/-- How a name that is not a local variable is resolved. -/
theorem resolve_tiers (wf : WF P) (fl : Filled P T order) {f : Nat} {u : CUnit} (hu : P.units[f]? = some u) {path : Option Name}
    (hp : PathArg path) (hstd : path ≠ some std) (locals : List Local) (sym : Name) (hloc : path = none → findLocal sym locals = none) :
    (∃ i, OfFile P f path sym i ∧ (∀ j, OfFile P f path sym j → j = i) ∧ resolve P T f locals path sym = some (.decl i)) ∨
    ((∀ j, ¬OfFile P f path sym j) ∧ ∃ i, OfModule P f path sym i ∧ (∀ j, OfModule P f path sym j → j = i) ∧
      resolve P T f locals path sym = some (.decl i)) ∨
    ((∀ j, ¬OfFile P f path sym j) ∧ (∀ j, ¬OfModule P f path sym j) ∧ ∃ x a, ImpCand P f u path sym x ∧
      resolve P T f locals path sym = some (ofImports x a) ∧ (∀ y, a = some y → x ≠ y ∧ ImpCand P f u path sym y) ∧
      (a = none → ∀ y, OfImport P f path sym y → y = x)) ∨
    ((∀ j, ¬OfFile P f path sym j) ∧ (∀ j, ¬OfModule P f path sym j) ∧ (∀ j, ¬OfImport P f path sym j) ∧
      ∃ G : Cur → Outcome, resolve P T f locals path sym = (foldAmb P {} (cands P f path sym order)).map G ∧
        ∀ c, foldAmb P {} (cands P f path sym order) = some c →
          (∀ x, c.decl = some x → G c = ofImports x c.ambiguous) ∧
          (c.decl = none → (∀ d, G c ≠ .decl d) ∧ (∀ d e, G c ≠ .ambiguous d e) ∧ ∀ i, G c ≠ .local_ i)) := by
  obtain ⟨um, hum, _⟩ := wf.unitModule f u hu
  have hmod := modules_iff wf fl hu hum hp sym
  have hout : ∀ r : Res, (∀ x, r.found = some x → outcome r = ofImports x r.ambiguous) ∧
      (r.found = none → (∀ d, outcome r ≠ .decl d) ∧ (∀ d e, outcome r ≠ .ambiguous d e) ∧ ∀ i, outcome r ≠ .local_ i) := by
    intro r
    constructor
    · intro x hx
      unfold outcome
      rw [hx]
      cases r.ambiguous <;> rfl
    · intro hx
      unfold outcome
      rw [hx]
      simp only
      cases r.priv with
      | some d => simp
      | none => cases r.maybe <;> simp
  cases path with
  | none =>
    have hl := hloc rfl
    have hmod' : ∀ i, T.modules u.module sym = some i ↔ OfModule P f none sym i := hmod
    unfold resolve
    simp only [resolveNoPath, hu, hl, Option.bind_eq_bind, Option.bind_some]
    cases hfile : T.files f sym with
    | some i =>
      left
      refine ⟨i, (files_iff fl f sym i).1 hfile, ?_, ?_⟩
      · intro j hj
        have := (files_iff fl f sym j).2 hj
        rw [hfile] at this
        exact (Option.some.inj this).symm
      · simp [outcome]
    | none =>
      have hno : ∀ j, ¬OfFile P f none sym j := by
        intro j hj
        have := (files_iff fl f sym j).2 hj
        rw [hfile] at this
        cases this
      right
      cases hm : T.modules u.module sym with
      | some i =>
        left
        refine ⟨hno, i, (hmod' i).1 hm, ?_, ?_⟩
        · intro j hj
          have := (hmod' j).2 hj
          rw [hm] at this
          exact (Option.some.inj this).symm
        · simp [outcome]
      | none =>
        have hnom : ∀ j, ¬OfModule P f none sym j := by
          intro j hj
          have := (hmod' j).2 hj
          rw [hm] at this
          cases this
        right
        obtain ⟨r', h1, h2, h3⟩ := imports_tiers wf fl hu hp sym {} rfl
        simp only [Option.isSome_none, Bool.false_eq_true, if_false, h1, Option.bind_some]
        cases hfound : r'.found with
        | some x =>
          left
          obtain ⟨g1, g2, g3⟩ := h2 x hfound
          refine ⟨hno, hnom, x, r'.ambiguous, g1, ?_, g2, g3⟩
          simp only [Option.isSome_some, if_true, Option.bind_some]
          rw [(hout r').1 x hfound]
        | none =>
          right
          obtain ⟨g1, g2⟩ := h3 hfound
          obtain ⟨F, hF, hFc⟩ := findInGlobal_eq wf fl hu hp sym r' hfound g1
          refine ⟨hno, hnom, g2, fun c => outcome (F c), ?_, ?_⟩
          · simp only [Option.isSome_none, Bool.false_eq_true, if_false]
            rw [hF]
            cases foldAmb P {} (cands P f none sym order) <;> rfl
          · intro c hc
            obtain ⟨e1, e2⟩ := hFc c hc
            refine ⟨fun x hx => ?_, fun hx => (hout (F c)).2 (e1.trans hx)⟩
            show outcome (F c) = _
            rw [(hout (F c)).1 x (e1.trans hx), e2]
  | some p =>
    right
    have hno : ∀ j, ¬OfFile P f (some p) sym j := fun j hj => by cases hj.1
    obtain ⟨B, hB⟩ := hp p rfl
    have hmod' : ∀ i, (if matchesSubpath um.name p then T.modules u.module sym else none) = some i ↔ OfModule P f (some p) sym i := by
      intro i
      rw [← hmod i, findInModule_path wf hum hB]
    have hs : p ≠ std := fun h => hstd (by rw [h])
    unfold resolve
    simp only [resolvePath, hu, hum, Option.bind_eq_bind, Option.bind_some]
    rw [if_neg hs]
    by_cases hown : (matchesSubpath um.name p && (T.modules u.module sym).isSome) = true
    · left
      rw [if_pos hown]
      simp only [Bool.and_eq_true] at hown
      obtain ⟨i, hi⟩ := Option.isSome_iff_exists.1 hown.2
      refine ⟨hno, i, (hmod' i).1 (by rw [if_pos hown.1, hi]), ?_, ?_⟩
      · intro j hj
        have := (hmod' j).2 hj
        rw [if_pos hown.1, hi] at this
        exact (Option.some.inj this).symm
      · simp [hi, outcome]
    · have hnom : ∀ j, ¬OfModule P f (some p) sym j := by
        intro j hj
        have := (hmod' j).2 hj
        split at this
        · rename_i hmt
          rw [hmt, this] at hown
          simp at hown
        · cases this
      right
      rw [if_neg hown]
      obtain ⟨r', h1, h2, h3⟩ := imports_tiers wf fl hu hp sym
        (if matchesSubpath um.name p = true then { ({} : Res) with pathFound := true } else {}) (by split <;> rfl)
      have h1' : findInImports P T u (some p) sym false
          (if matchesSubpath um.name p = true then
            { found := none, ambiguous := none, priv := ({} : Res).priv, maybe := ({} : Res).maybe, pathFound := true }
          else { ({} : Res) with ambiguous := none, pathFound := false, found := none }) = some r' := h1
      rw [h1']
      simp only [Option.bind_some]
      cases hfound : r'.found with
      | some x =>
        left
        obtain ⟨g1, g2, g3⟩ := h2 x hfound
        refine ⟨hno, hnom, x, r'.ambiguous, g1, ?_, g2, g3⟩
        simp only [Option.isSome_some, if_true, Option.bind_some, hfound, Option.isNone_some, Bool.false_and, Bool.false_eq_true, if_false]
        rw [(hout r').1 x hfound]
      | none =>
        right
        obtain ⟨g1, g2⟩ := h3 hfound
        obtain ⟨F, hF, hFc⟩ := findInGlobal_eq wf fl hu hp sym r' hfound g1
        refine ⟨hno, hnom, g2, fun c => if ((F c).found.isNone && (F c).maybe.isNone && (F c).priv.isNone && !(F c).pathFound) = true
          then .noModule else outcome (F c), ?_, ?_⟩
        · simp only [Option.isSome_none, Bool.false_eq_true, if_false]
          rw [hF]
          cases foldAmb P {} (cands P f (some p) sym order) with
          | none => rfl
          | some c =>
            simp only [Option.map_some, Option.bind_some]
            split <;> rfl
        · intro c hc
          obtain ⟨e1, e2⟩ := hFc c hc
          refine ⟨fun x hx => ?_, fun hx => ?_⟩
          · have hs : (F c).found = some x := e1.trans hx
            simp only
            rw [if_neg (by simp [hs]), (hout (F c)).1 x hs, e2]
          · simp only
            split
            · simp
            · exact (hout (F c)).2 (e1.trans hx)

end C3.NameRes
