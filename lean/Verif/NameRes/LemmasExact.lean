import Verif.NameRes.LemmasTiers
import Verif.NameRes.LemmasPass

/-!
# Lemmas: what is found, and when
-/

set_option autoImplicit false

namespace C3.NameRes

variable {P : Prog} {T : Tables} {order : List Nat}

theorem ofFile_accessible (wf : WF P) {f : Nat} {path : Option Name} {sym : Name} {i : Nat} (h : OfFile P f path sym i) :
    ∃ d, Named P sym i d ∧ Accessible P f d ∧ Fits P path d := by
  obtain ⟨rfl, d, hN, hf⟩ := h
  obtain ⟨u, hu⟩ := wf.declFile i d hN.decl
  obtain ⟨mm, hm, _⟩ := wf.unitModule d.file u hu
  exact ⟨d, hN, ⟨u, u.module, mm, by rw [← hf]; exact hu, by simp [Prog.moduleOf, hu], hm, .inl ⟨rfl, fun _ => hf⟩⟩, by simp [Fits]⟩

theorem ofModule_candidate (wf : WF P) {f : Nat} {path : Option Name} {sym : Name} {i : Nat} (h : OfModule P f path sym i) :
    Candidate P f path sym i := by
  obtain ⟨d, u, hN, hv, hu, hm, hF⟩ := h
  obtain ⟨mm, hmm, _⟩ := wf.unitModule f u hu
  exact ⟨d, hN, hv, ⟨u, u.module, mm, hu, hm, hmm, .inl ⟨rfl, fun h => absurd h hv⟩⟩, hF⟩

theorem mem_cands (fl : Filled P T order) {f : Nat} {path : Option Name} {sym : Name} {i : Nat} :
    i ∈ cands P f path sym order ↔ Candidate P f path sym i := by
  simp only [cands, List.mem_filter, decide_eq_true_eq]
  exact ⟨fun h => h.2, fun h => ⟨by obtain ⟨d, hN, _⟩ := h; exact fl.mem hN.decl, h⟩⟩

theorem foldAmb_ne {l : List Nat} {c c' : Cur} (h : foldAmb P c l = some c') (hn : l.Nodup) (hd : ∀ y, c.decl = some y → y ∉ l)
    (ha : ∀ y, c.ambiguous = some y → c.decl.isSome = true ∧ c.decl ≠ some y ∧ y ∉ l) :
    ∀ y, c'.ambiguous = some y → c'.decl.isSome = true ∧ c'.decl ≠ some y := by
  induction l generalizing c with
  | nil =>
    simp only [foldAmb, Option.some.injEq] at h
    subst h
    exact fun y hy => ⟨(ha y hy).1, (ha y hy).2.1⟩
  | cons x l ih =>
    simp only [foldAmb, Option.bind_eq_bind, Option.bind_eq_some_iff] at h
    obtain ⟨c1, h1, h2⟩ := h
    obtain ⟨hx, hn'⟩ := List.nodup_cons.1 hn
    refine ih h2 hn' ?_ ?_
    · intro y hy
      rcases (resolveAmbiguity_some h1).2.1 y hy with h | rfl
      · exact fun hm => hd y h (by simp [hm])
      · exact hx
    · intro y hy
      unfold resolveAmbiguity at h1
      cases hc : c.decl with
      | none =>
        simp only [hc, Option.some.injEq] at h1
        subst h1
        have := (ha y hy).1
        simp [hc] at this
      | some o =>
        have hox : o ≠ x := fun e => hd o hc (by simp [e])
        simp only [hc, Option.bind_eq_bind, Option.bind_eq_some_iff] at h1
        obtain ⟨b, _, h1⟩ := h1
        by_cases hb : b = true
        · rw [if_pos hb] at h1
          cases h1
          cases hy
        · rw [if_neg hb] at h1
          by_cases hcamb : c.ambiguous.isSome = true
          · rw [if_pos hcamb] at h1
            cases h1
            obtain ⟨g1, g2, g3⟩ := ha y hy
            exact ⟨g1, g2, fun hm => g3 (by simp [hm])⟩
          · rw [if_neg hcamb] at h1
            simp only [Option.bind_eq_some_iff] at h1
            obtain ⟨k, _, h1⟩ := h1
            by_cases hk : k = true
            · rw [if_pos hk] at h1
              cases h1
              exact absurd (by rw [hy]; rfl) hcamb
            · rw [if_neg hk] at h1
              cases h1
              simp only [Option.some.injEq] at hy
              subst hy
              exact ⟨rfl, by simpa using hox, hx⟩

/-- What comes out, in all cases: one that may be used, or two, or an error if there is none. -/
theorem resolve_cases (wf : WF P) (fl : Filled P T order) {f : Nat} {u : CUnit} (hu : P.units[f]? = some u) {path : Option Name}
    (hp : PathArg path) (hstd : path ≠ some std) (locals : List Local) (sym : Name) (hloc : path = none → findLocal sym locals = none)
    (o : Outcome) (ho : resolve P T f locals path sym = some o) :
    (∃ i, o = .decl i ∧ (OfFile P f path sym i ∨ Candidate P f path sym i)) ∨
    (∃ i j, o = .ambiguous i j ∧ i ≠ j ∧ Candidate P f path sym i ∧ Candidate P f path sym j) ∨
    ((∀ i, o ≠ .decl i) ∧ (∀ i j, o ≠ .ambiguous i j) ∧ (∀ i, o ≠ .local_ i) ∧
      ∀ i, ¬OfFile P f path sym i ∧ ¬Candidate P f path sym i) := by
  rcases resolve_tiers wf fl hu hp hstd locals sym hloc with ⟨i, h1, _, h3⟩ | ⟨_, i, h1, _, h3⟩ | ⟨_, _, x, a, h1, h3, h4, _⟩ |
    ⟨hnf, hnm, hni, G, h1, h2⟩
  · rw [h3] at ho
    cases ho
    exact .inl ⟨i, rfl, .inl h1⟩
  · rw [h3] at ho
    cases ho
    exact .inl ⟨i, rfl, .inr (ofModule_candidate wf h1)⟩
  · rw [h3] at ho
    cases ho
    cases a with
    | none => exact .inl ⟨x, rfl, .inr h1.1⟩
    | some y =>
      obtain ⟨g1, g2⟩ := h4 y rfl
      exact .inr (.inl ⟨x, y, rfl, g1, h1.1, g2.1⟩)
  · rw [h1] at ho
    simp only [Option.map_eq_some_iff] at ho
    obtain ⟨c, hc, rfl⟩ := ho
    obtain ⟨g1, g2⟩ := h2 c hc
    obtain ⟨f1, f2, f3⟩ := foldAmb_some hc
    cases hd : c.decl with
    | none =>
      obtain ⟨e1, e2, e3⟩ := g2 hd
      refine .inr (.inr ⟨e1, e2, e3, fun i => ⟨hnf i, fun hi => ?_⟩⟩)
      have := f1 (.inl (List.ne_nil_of_mem ((mem_cands fl).2 hi)))
      simp [hd] at this
    | some x =>
      rw [g1 x hd]
      have hx : Candidate P f path sym x := by
        rcases f2 x hd with h | h
        · cases h
        · exact (mem_cands fl).1 h
      cases ha : c.ambiguous with
      | none => exact .inl ⟨x, rfl, .inr hx⟩
      | some y =>
        have hy : Candidate P f path sym y := by
          rcases f3 y ha with h | h
          · cases h
          · exact (mem_cands fl).1 h
        have hne := (foldAmb_ne hc (fl.nodup.sublist List.filter_sublist) (by simp) (by simp) y ha).2
        rw [hd] at hne
        exact .inr (.inl ⟨x, y, rfl, fun e => hne (by rw [e]), hx, hy⟩)

theorem cands_some (fl : Filled P T order) {f : Nat} {path : Option Name} {sym : Name} :
    ∀ i ∈ cands P f path sym order, (P.decls[i]?).isSome = true := by
  intro i hi
  obtain ⟨d, hN, _⟩ := (mem_cands fl).1 hi
  simp [hN.decl]

/-- There is an outcome. -/
theorem resolve_isSome (wf : WF P) (fl : Filled P T order) (fo : FoldOk P) {f : Nat} {u : CUnit} (hu : P.units[f]? = some u)
    {path : Option Name} (hp : PathArg path) (hstd : path ≠ some std) (locals : List Local) (sym : Name)
    (hloc : path = none → findLocal sym locals = none) : ∃ o, resolve P T f locals path sym = some o := by
  rcases resolve_tiers wf fl hu hp hstd locals sym hloc with ⟨i, _, _, h3⟩ | ⟨_, i, _, _, h3⟩ | ⟨_, _, x, a, _, h3, _, _⟩ |
    ⟨_, _, _, G, h1, _⟩
  · exact ⟨_, h3⟩
  · exact ⟨_, h3⟩
  · exact ⟨_, h3⟩
  · obtain ⟨c, hc⟩ := foldAmb_total wf fo (l := cands P f path sym order) (c := {}) (cands_some fl) (by simp)
    exact ⟨G c, by rw [h1, hc]; rfl⟩

theorem resolve_local {f : Nat} {u : CUnit} (hu : P.units[f]? = some u) {locals : List Local} {sym : Name} {id : Nat}
    (h : findLocal sym locals = some id) : resolve P T f locals none sym = some (.local_ id) := by
  simp [resolve, resolveNoPath, hu, h]

theorem autoFlag_iff {i : Nat} : autoFlag P i = true ↔ IsBuiltin P i := by
  unfold autoFlag IsBuiltin
  cases h : P.decls[i]? with
  | none => simp
  | some d => simp

/-- Exactly what the rules say, where no weak alias and no `@public` import is about. -/
theorem resolve_chosen (wf : WF P) (fl : Filled P T order) {f : Nat} {u : CUnit} (hu : P.units[f]? = some u) {path : Option Name}
    (hp : PathArg path) (hstd : path ≠ some std) (locals : List Local) (sym : Name) (hloc : path = none → findLocal sym locals = none)
    (hweak : ∀ i d, Named P sym i d → d.kind = .typedef → d.weak = false) (hpub : ∀ i ∈ u.imports, i.privAsPublic = false) (i : Nat) :
    resolve P T f locals path sym = some (.decl i) ↔ Chosen P f path sym i := by
  have himp : ∀ x, ImpCand P f u path sym x → OfImport P f path sym x := by
    rintro x ⟨⟨d', hN', _, _, hF⟩, d, imp, hN, hi, hm, hv⟩
    have hdd : d' = d := Option.some.inj (hN'.decl.symm.trans hN.decl)
    subst hdd
    have hb := hpub imp hi
    have h1 : d'.vis = .pub := by
      cases hx : d'.vis with
      | pub => rfl
      | priv => rw [hv (.inl (by simp [hx]))] at hb; cases hb
      | loc => rw [hv (.inl (by simp [hx]))] at hb; cases hb
    have h2 : path ≠ none := fun h => by
      rw [hv (.inr h)] at hb
      cases hb
    exact ⟨h2, d', u, imp.module, hN, h1, hu, hm, ⟨imp, hi, rfl⟩, hF⟩
  unfold Chosen
  rcases resolve_tiers wf fl hu hp hstd locals sym hloc with ⟨x, h1, h2, h3⟩ | ⟨hnf, x, h1, h2, h3⟩ | ⟨hnf, hnm, x, a, h1, h3, h4, h5⟩ |
    ⟨hnf, hnm, hni, G, h1, h2⟩
  · rw [h3]
    constructor
    · intro h
      cases h
      exact .inl h1
    · rintro (h | ⟨h, _⟩)
      · rw [h2 i h]
      · exact absurd h1 (h x)
  · rw [h3]
    constructor
    · intro h
      cases h
      exact .inr ⟨hnf, .inl h1⟩
    · rintro (h | ⟨_, h | ⟨h, _⟩⟩)
      · exact absurd h (hnf i)
      · rw [h2 i h]
      · exact absurd h1 (h x)
  · rw [h3]
    have hx := himp x h1
    cases a with
    | none =>
      have h5 := h5 rfl
      constructor
      · intro h
        cases h
        exact .inr ⟨hnf, .inr ⟨hnm, .inl ⟨hx, h5⟩⟩⟩
      · rintro (h | ⟨_, h | ⟨_, h | ⟨h, _⟩⟩⟩)
        · exact absurd h (hnf i)
        · exact absurd h (hnm i)
        · rw [h5 i h.1]; rfl
        · exact absurd hx (h x)
    | some y =>
      obtain ⟨g1, g2⟩ := h4 y rfl
      have hy := himp y g2
      constructor
      · intro h
        cases h
      · rintro (h | ⟨_, h | ⟨_, h | ⟨h, _⟩⟩⟩)
        · exact absurd h (hnf i)
        · exact absurd h (hnm i)
        · exact absurd ((h.2 x hx).trans (h.2 y hy).symm) g1
        · exact absurd hx (h x)
  · have hsimple : ∀ j ∈ cands P f path sym order, Simple P j := by
      intro j hj
      have hc := (mem_cands fl).1 hj
      obtain ⟨d, hN, hv, ⟨u', m, mm, hu', hm, hmm, hcase⟩, hF⟩ := hc
      rw [hu] at hu'
      cases hu'
      have hg : mm.generic = none := by
        rcases hcase with ⟨rfl, _⟩ | ⟨_, hg, _⟩
        · exact absurd ⟨d, u, hN, hv, hu, hm, hF⟩ (hnm j)
        · exact hg
      refine ⟨d, hN.decl, by simp [inInstance, hm, hmm, hg], ?_⟩
      by_cases hk : d.kind = .typedef
      · exact .inr (hweak j d hN hk)
      · exact .inl hk
    have hf := foldAmb_pick _ hsimple
    rw [h1, hf]
    obtain ⟨g1, g2⟩ := h2 _ hf
    have hpick := pick_iff (P := P) (fl.nodup.sublist List.filter_sublist : (cands P f path sym order).Nodup) i
    have hG : (Option.map G (some (pick P (cands P f path sym order))) = some (.decl i)) ↔
        ((pick P (cands P f path sym order)).decl = some i ∧ (pick P (cands P f path sym order)).ambiguous = none) := by
      rw [Option.map_some, Option.some.injEq]
      cases hd : (pick P (cands P f path sym order)).decl with
      | none => simp [(g2 hd).1 i]
      | some x =>
        rw [g1 x hd]
        cases ha : (pick P (cands P f path sym order)).ambiguous with
        | none => simp [ofImports]
        | some y => simp [ofImports]
    rw [hG, hpick]
    simp only [mem_cands fl, autoFlag_iff]
    constructor
    · rintro (h | h)
      · exact .inr ⟨hnf, .inr ⟨hnm, .inr ⟨hni, .inl h⟩⟩⟩
      · exact .inr ⟨hnf, .inr ⟨hnm, .inr ⟨hni, .inr ⟨h.1, fun j hj => h.2 j hj.1 hj.2⟩⟩⟩⟩
    · rintro (h | ⟨_, h | ⟨_, h | ⟨_, h | h⟩⟩⟩)
      · exact absurd h (hnf i)
      · exact absurd h (hnm i)
      · exact absurd h.1 (hni i)
      · exact .inl h
      · exact .inr ⟨h.1, fun j hj hb => h.2 j ⟨hj, hb⟩⟩

end C3.NameRes
