import Verif.NameRes.LemmasTable

/-!
# Lemmas: the searches
-/

set_option autoImplicit false

namespace C3.NameRes

variable {P : Prog} {T : Tables} {order : List Nat}

/-- The path before a name is one, if there is one. -/
def PathArg (path : Option Name) : Prop := ∀ p, path = some p → ∃ B, IsPath p B

theorem pathOk_eq (wf : WF P) {path : Option Name} (hp : PathArg path) {i : Nat} {d : Decl} (hd : P.decls[i]? = some d) :
    ∃ r, pathOk P path d = some r ∧ (r = true ↔ Fits P path d) := by
  obtain ⟨m, mm, hm, hmm, _⟩ := moduleOf_eq wf hd
  unfold pathOk
  simp only [hm, hmm, Option.bind_eq_bind, Option.bind_some]
  cases path with
  | none => exact ⟨true, rfl, by simp [Fits]⟩
  | some p =>
    obtain ⟨B, hB⟩ := hp p rfl
    obtain ⟨A, hA⟩ := wf.path m mm hmm
    refine ⟨_, rfl, ?_⟩
    rw [matchesSubpath_iff hA hB]
    constructor
    · rintro h p' hp'
      cases hp'
      exact ⟨m, mm, A, B, hm, hmm, hA, hB, h⟩
    · intro h
      obtain ⟨m', mm', A', B', h1, h2, h3, h4, h5⟩ := h p rfl
      rw [hm] at h1; cases h1
      rw [hmm] at h2; cases h2
      rw [hA.inj h3, hB.inj h4]
      exact h5

theorem findInModule_eq (wf : WF P) {path : Option Name} (hp : PathArg path) {m : Nat} {mm : Module} (hm : P.modules[m]? = some mm)
    (fl : Filled P T order) (sym : Name) (x : Nat) :
    (findInModule T m mm path sym).1 = some x ↔
      ∃ d, Named P sym x d ∧ d.vis ≠ .loc ∧ P.moduleOf d = some m ∧ Fits P path d := by
  have htab : T.modules m sym = some x ↔ ∃ d, Named P sym x d ∧ d.vis ≠ .loc ∧ P.moduleOf d = some m := by
    rw [fl.holds.modules]
    constructor
    · rintro ⟨_, d, h1, h2, h3, h4, h5⟩
      exact ⟨d, ⟨h1, h2, h4⟩, h3, h5⟩
    · rintro ⟨d, ⟨h1, h2, h4⟩, h3, h5⟩
      exact ⟨fl.mem h1, d, h1, h2, h3, h4, h5⟩
  unfold findInModule
  cases path with
  | none =>
    simp only
    rw [htab]
    simp [Fits]
  | some p =>
    simp only
    obtain ⟨B, hB⟩ := hp p rfl
    obtain ⟨A, hA⟩ := wf.path m mm hm
    have hfit : ∀ d, P.moduleOf d = some m → (Fits P (some p) d ↔ matchesSubpath mm.name p = true) := by
      intro d hd
      rw [matchesSubpath_iff hA hB]
      constructor
      · intro h
        obtain ⟨m', mm', A', B', h1, h2, h3, h4, h5⟩ := h p rfl
        rw [hd] at h1; cases h1
        rw [hm] at h2; cases h2
        rw [hA.inj h3, hB.inj h4]
        exact h5
      · rintro h p' hp'
        cases hp'
        exact ⟨m, mm, A, B, hd, hm, hA, hB, h⟩
    by_cases hmatch : matchesSubpath mm.name p = true
    · have hlen : ¬p.length > mm.name.length := by
        have h := (matchesSubpath_iff hA hB).1 hmatch
        obtain ⟨c, rfl⟩ := h
        by_cases hc : c = []
        · subst hc
          rw [hA.text, hB.text]
          simp
        · rw [hA.text, hB.text, joinPath_append hc hB.nonempty]
          simp
          omega
      rw [if_neg hlen, if_neg (by simp [hmatch])]
      simp only
      rw [htab]
      constructor
      · rintro ⟨d, h1, h2, h3⟩
        exact ⟨d, h1, h2, h3, (hfit d h3).2 hmatch⟩
      · rintro ⟨d, h1, h2, h3, _⟩
        exact ⟨d, h1, h2, h3⟩
    · have hnone : ¬∃ d, Named P sym x d ∧ d.vis ≠ .loc ∧ P.moduleOf d = some m ∧ Fits P (some p) d := by
        rintro ⟨d, _, _, h3, h4⟩
        exact hmatch ((hfit d h3).1 h4)
      split
      · simp only [reduceCtorEq, false_iff]
        exact hnone
      · rw [if_pos (by simpa using hmatch)]
        simp only [reduceCtorEq, false_iff]
        exact hnone

theorem accessible_of_import (wf : WF P) {f : Nat} {u : CUnit} (hu : P.units[f]? = some u) {i : Import} (hi : i ∈ u.imports) {d : Decl}
    (hm : P.moduleOf d = some i.module) (hv : d.vis ≠ .loc) (hp : d.vis ≠ .pub → i.privAsPublic = true) : Accessible P f d := by
  obtain ⟨hne, mm, hmm, hg⟩ := wf.imports f u i hu hi
  refine ⟨u, i.module, mm, hu, hm, hmm, .inr ⟨hne, hg, ?_⟩⟩
  cases hx : d.vis with
  | pub => exact .inl ⟨rfl, .inr (.inr ⟨i, hi, .inl rfl⟩)⟩
  | priv => exact .inr ⟨rfl, i, hi, hp (by simp [hx]), .inl rfl⟩
  | loc => exact absurd hx hv

/-- A candidate of a module that is imported by name. -/
def ImpCand (P : Prog) (f : Nat) (u : CUnit) (path : Option Name) (sym : Name) (x : Nat) : Prop :=
  Candidate P f path sym x ∧
    ∃ d i, Named P sym x d ∧ i ∈ u.imports ∧ P.moduleOf d = some i.module ∧ (d.vis ≠ .pub ∨ path = none → i.privAsPublic = true)

/-- The loop over the imports. -/
theorem importsLoop_ok (wf : WF P) (fl : Filled P T order) {f : Nat} {u : CUnit} (hu : P.units[f]? = some u) {path : Option Name}
    (hp : PathArg path) (sym : Name) (is : List Import) :
    ∀ (decl : Option Nat) (r : Res), (∀ i ∈ is, i ∈ u.imports) → is.Pairwise (fun i j => i.module ≠ j.module) →
      (∀ x, decl = some x → ImpCand P f u path sym x ∧
        ∃ d, P.decls[x]? = some d ∧ ∀ i ∈ is, P.moduleOf d ≠ some i.module) →
      ∃ dec r', importsLoop P T path sym false is decl r = some (dec, r') ∧
        (∀ x, dec = some x → ImpCand P f u path sym x) ∧
        (∀ x, decl = some x → dec = some x) ∧
        (r'.ambiguous = r.ambiguous ∨ ∃ x y, dec = some x ∧ r'.ambiguous = some y ∧ x ≠ y ∧ ImpCand P f u path sym y) ∧
        (dec = none → ∀ i ∈ is, ∀ x d, Named P sym x d → d.vis = .pub → P.moduleOf d = some i.module → Fits P path d → path = none) ∧
        (r.ambiguous.isSome = true → r'.ambiguous.isSome = true) ∧
        (∀ x, dec = some x → r'.ambiguous = none → path ≠ none →
          ∀ i ∈ is, ∀ y d, Named P sym y d → d.vis = .pub → P.moduleOf d = some i.module → Fits P path d → y = x) := by
  induction is with
  | nil =>
    intro decl r _ _ hc
    exact ⟨decl, r, rfl, fun x hx => (hc x hx).1, fun _ h => h, .inl rfl, by simp, id, by simp⟩
  | cons i is ih =>
    intro decl r hsub hpw hcur
    rw [List.pairwise_cons] at hpw
    obtain ⟨_, mm, hmm, hgen⟩ := wf.imports f u i hu (hsub i (by simp))
    -- going on without taking anything of this import
    have hskip : ∀ r1 : Res, r1.ambiguous = r.ambiguous →
        (∀ x d, Named P sym x d → d.vis = .pub → P.moduleOf d = some i.module → Fits P path d → path = none) →
        ∃ dec r', importsLoop P T path sym false is decl r1 = some (dec, r') ∧
          (∀ x, dec = some x → ImpCand P f u path sym x) ∧
          (∀ x, decl = some x → dec = some x) ∧
          (r'.ambiguous = r.ambiguous ∨ ∃ x y, dec = some x ∧ r'.ambiguous = some y ∧ x ≠ y ∧ ImpCand P f u path sym y) ∧
          (dec = none → ∀ j ∈ i :: is, ∀ x d, Named P sym x d → d.vis = .pub → P.moduleOf d = some j.module → Fits P path d →
            path = none) ∧
          (r.ambiguous.isSome = true → r'.ambiguous.isSome = true) ∧
          (∀ x, dec = some x → r'.ambiguous = none → path ≠ none →
            ∀ j ∈ i :: is, ∀ y d, Named P sym y d → d.vis = .pub → P.moduleOf d = some j.module → Fits P path d → y = x) := by
      intro r1 hr1 hnot
      obtain ⟨dec, r', h1, h2, h3, h4, h5, h6, h7⟩ := ih decl r1 (fun j hj => hsub j (by simp [hj])) hpw.2 (by
        intro x hx
        obtain ⟨ha, d, hd, hb⟩ := hcur x hx
        exact ⟨ha, d, hd, fun j hj => hb j (by simp [hj])⟩)
      refine ⟨dec, r', h1, h2, h3, by rw [← hr1]; exact h4, ?_, by rw [← hr1]; exact h6, ?_⟩
      · intro hdec j hj
        rcases List.mem_cons.1 hj with rfl | hj
        · exact hnot
        · exact h5 hdec j hj
      · intro x hx hamb hpath j hj y d a b c e
        rcases List.mem_cons.1 hj with rfl | hj
        · exact absurd (hnot y d a b c e) hpath
        · exact h7 x hx hamb hpath j hj y d a b c e
    rw [importsLoop]
    simp only [hmm, Option.bind_eq_bind, Option.bind_some]
    by_cases hg : mm.isGeneric ≠ false
    · rw [if_pos hg]
      refine hskip r rfl ?_
      intro x d hN _ hmod _
      obtain ⟨m', mm', h1, h2, h3⟩ := moduleOf_eq wf hN.decl
      rw [hmod] at h1
      cases h1
      rw [hmm] at h2
      cases h2
      exact absurd h3 hg
    · rw [if_neg hg]
      by_cases h0 : (path.isNone && (decl.isSome || !i.privAsPublic)) = true
      · rw [if_pos h0]
        refine hskip r rfl ?_
        intro x d _ _ _ _
        cases path with
        | none => rfl
        | some p => simp at h0
      · rw [if_neg h0]
        have hfind := findInModule_eq wf hp hmm fl sym
        cases hf : (findInModule T i.module mm path sym).1 with
        | none =>
          simp only
          refine hskip _ rfl ?_
          intro x d hN hv hmod hfit
          have := (hfind x).2 ⟨d, hN, by simp [hv], hmod, hfit⟩
          rw [hf] at this
          cases this
        | some found =>
          obtain ⟨d, hN, hv, hmod, hfit⟩ := (hfind found).1 hf
          have huniq : ∀ x e, Named P sym x e → e.vis ≠ .loc → P.moduleOf e = some i.module → Fits P path e → x = found := by
            intro x e h1 h2 h3 h4
            have := (hfind x).2 ⟨e, h1, h2, h3, h4⟩
            rw [hf] at this
            exact (Option.some.inj this).symm
          have hnotpub : d.vis ≠ .pub →
              ∀ x e, Named P sym x e → e.vis = .pub → P.moduleOf e = some i.module → Fits P path e → path = none := by
            intro hnp x e hNe hve hme hfe
            have := huniq x e hNe (by simp [hve]) hme hfe
            subst this
            have he : d = e := Option.some.inj (hN.decl.symm.trans hNe.decl)
            subst he
            exact absurd hve hnp
          simp only [hN.decl, Option.bind_some]
          rw [if_neg hv]
          by_cases hA : (decide (d.vis ≠ .pub) && decl.isSome) = true
          · rw [if_pos hA]
            exact hskip _ rfl (hnotpub (by simp at hA; exact hA.1))
          · rw [if_neg hA]
            by_cases hB : (decide (d.vis ≠ .pub) && !i.privAsPublic) = true
            · rw [if_pos hB]
              exact hskip { r with pathFound := _, priv := some found } rfl (hnotpub (by simp at hB; exact hB.1))
            · rw [if_neg hB]
              have hpriv : d.vis ≠ .pub → i.privAsPublic = true := by
                intro hpub
                simpa [hpub] using hB
              have hcand : ImpCand P f u path sym found := by
                refine ⟨⟨d, hN, hv, accessible_of_import wf hu (hsub i (by simp)) hmod hv hpriv, hfit⟩,
                  d, i, hN, hsub i (by simp), hmod, ?_⟩
                rintro (h | h)
                · exact hpriv h
                · rw [h] at h0
                  simp only [Option.isNone_none, Bool.true_and, Bool.or_eq_true, not_or] at h0
                  simpa using h0.2
              cases decl with
              | none =>
                simp only
                obtain ⟨dec, r', h1, h2, h3, h4, h5, h6, h7⟩ := ih (some found) _ (fun j hj => hsub j (by simp [hj])) hpw.2 (by
                  intro x hx
                  cases hx
                  refine ⟨hcand, d, hN.decl, fun j hj => ?_⟩
                  rw [hmod]
                  intro h
                  exact hpw.1 j hj (Option.some.inj h))
                have hdec := h3 found rfl
                refine ⟨dec, r', h1, h2, by simp, by simpa using h4, by simp [hdec], h6, ?_⟩
                intro x hx hamb hpath j hj y e a b c g
                rw [hdec] at hx
                cases hx
                rcases List.mem_cons.1 hj with rfl | hj
                · exact huniq y e a (by simp [b]) c g
                · exact h7 found hdec hamb hpath j hj y e a b c g
              | some cur =>
                cases path with
                | none => simp at h0
                | some p =>
                  simp only [Option.isNone_some, Bool.false_eq_true, if_false]
                  obtain ⟨hcc, dc, hdc, hnm⟩ := hcur cur rfl
                  obtain ⟨dec, r', h1, h2, h3, h4, h5, h6, h7⟩ := ih (some cur) { r with
                      pathFound := r.pathFound || (findInModule T i.module mm (some p) sym).2, ambiguous := some found }
                    (fun j hj => hsub j (by simp [hj])) hpw.2 (by
                    intro x hx
                    cases hx
                    exact ⟨hcc, dc, hdc, fun j hj => hnm j (by simp [hj])⟩)
                  have hdec := h3 cur rfl
                  have hsome := h6 rfl
                  refine ⟨dec, r', h1, h2, by rintro x hx; cases hx; exact hdec, ?_, by simp [hdec], fun _ => hsome, ?_⟩
                  · right
                    rcases h4 with h4 | h4
                    · refine ⟨cur, found, hdec, h4, ?_, hcand⟩
                      rintro rfl
                      rw [hN.decl] at hdc
                      cases hdc
                      exact hnm i (by simp) hmod
                    · exact h4
                  · intro x hx hamb
                    rw [hamb] at hsome
                    cases hsome

end C3.NameRes
