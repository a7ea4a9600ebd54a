import Verif.NameRes.PropsPath

/-!
# C64: a name stands only for what the file may use; C65: what it may use is found
-/

set_option autoImplicit false

namespace C3.NameRes

variable {P : Prog} {T : Tables} {order : List Nat}

theorem resolve_unit {f : Nat} {locals : List Local} {path : Option Name} {sym : Name} {o : Outcome}
    (h : resolve P T f locals path sym = some o) : ∃ u, P.units[f]? = some u := by
  cases hu : P.units[f]? with
  | some u => exact ⟨u, rfl⟩
  | none =>
    cases path with
    | none => simp [resolve, resolveNoPath, hu] at h
    | some p => simp [resolve, resolvePath, hu] at h

theorem resolve_std {f : Nat} {u : CUnit} (hu : P.units[f]? = some u) (locals : List Local) (sym : Name) :
    resolve P T f locals (some std) sym = some .notFound := by
  simp [resolve, resolvePath, hu, outcome]

theorem resolve_noLocal {f : Nat} {locals : List Local} {path : Option Name} {sym : Name} {o : Outcome}
    (h : resolve P T f locals path sym = some o) (ho : ∀ id, o ≠ .local_ id) : path = none → findLocal sym locals = none := by
  rintro rfl
  obtain ⟨u, hu⟩ := resolve_unit h
  cases hl : findLocal sym locals with
  | none => rfl
  | some id =>
    rw [resolve_local hu hl] at h
    exact absurd (Option.some.inj h).symm (ho id)

/-- **C64** A name, with or without a path, stands only for a declaration of that name which the file may use, and which is in a module
that the path fits. -/
theorem C64_sound (wf : WF P) (fl : Filled P T order) {f : Nat} {locals : List Local} {path : Option Name} (hp : PathArg path) {sym : Name}
    {i : Nat} (h : resolve P T f locals path sym = some (.decl i)) : ∃ d, Named P sym i d ∧ Accessible P f d ∧ Fits P path d := by
  obtain ⟨u, hu⟩ := resolve_unit h
  have hstd : path ≠ some std := by
    rintro rfl
    rw [resolve_std hu] at h
    cases h
  rcases resolve_cases wf fl hu hp hstd locals sym (resolve_noLocal h (by simp)) _ h with ⟨j, hj, hc⟩ | ⟨j, k, hj, _⟩ | ⟨h1, _⟩
  · cases hj
    rcases hc with hc | ⟨d, h1, _, h3, h4⟩
    · exact ofFile_accessible wf hc
    · exact ⟨d, h1, h3, h4⟩
  · cases hj
  · exact absurd rfl (h1 i)

/-- **C64** What is `@local` is seen in its own file only, and what is `@private` in its own module, or through an import that says
`@public`. -/
theorem C64_private (wf : WF P) (fl : Filled P T order) {f : Nat} {u : CUnit} (hu : P.units[f]? = some u) {locals : List Local}
    {path : Option Name} (hp : PathArg path) {sym : Name} {i : Nat} (h : resolve P T f locals path sym = some (.decl i)) {d : Decl}
    (hd : P.decls[i]? = some d) :
    (d.vis = .loc → d.file = f) ∧
      (d.vis = .priv → P.moduleOf d = some u.module ∨ ∃ imp ∈ u.imports, imp.privAsPublic = true ∧ ∃ m, P.moduleOf d = some m ∧ imp.Reaches P m) := by
  obtain ⟨d', hN, ⟨u', m, mm, hu', hm, hmm, hc⟩, _⟩ := C64_sound wf fl hp h
  have : d' = d := Option.some.inj (hN.decl.symm.trans hd)
  subst this
  rw [hu] at hu'
  cases hu'
  rcases hc with ⟨rfl, hl⟩ | ⟨_, _, ⟨hv, _⟩ | ⟨hv, imp, hi, hpp, hr⟩⟩
  · exact ⟨hl, fun _ => .inl hm⟩
  · exact ⟨fun h => (by rw [hv] at h; cases h), fun h => (by rw [hv] at h; cases h)⟩
  · exact ⟨fun h => (by rw [hv] at h; cases h), fun _ => .inr ⟨imp, hi, hpp, m, hm, hr⟩⟩

/-- **C64** Where two declarations are reported as ambiguous, both may be used, and they are different ones. -/
theorem C64_ambiguous (wf : WF P) (fl : Filled P T order) {f : Nat} {locals : List Local} {path : Option Name} (hp : PathArg path)
    {sym : Name} {i j : Nat} (h : resolve P T f locals path sym = some (.ambiguous i j)) :
    i ≠ j ∧ Candidate P f path sym i ∧ Candidate P f path sym j := by
  obtain ⟨u, hu⟩ := resolve_unit h
  have hstd : path ≠ some std := by
    rintro rfl
    rw [resolve_std hu] at h
    cases h
  rcases resolve_cases wf fl hu hp hstd locals sym (resolve_noLocal h (by simp)) _ h with ⟨k, hj, _⟩ | ⟨k, l, hj, h2⟩ | ⟨_, h2, _⟩
  · cases hj
  · cases hj
    exact h2
  · exact absurd rfl (h2 i j)

/-- For example `http::send`, which is `@private`, through an import of `net::http` that is `@public`. -/
theorem demo_send : resolve demo demoTables 0 [] (some "http".toList) "send".toList = some (.decl 4) := by decide +kernel

theorem pathArg_http : PathArg (some "http".toList) := fun p h => by
  cases h
  exact ⟨["http".toList], isPath_of_check (by decide +kernel)⟩

example : ∃ d, Named demo "send".toList 4 d ∧ Accessible demo 0 d ∧ Fits demo (some "http".toList) d :=
  C64_sound demo_wf demo_filled pathArg_http demo_send

example : demo.moduleOf { name := "send".toList, kind := .value, file := 3, vis := .priv } = some 0 ∨
    ∃ imp ∈ [({ module := 1 } : Import), { module := 4, privAsPublic := true }], imp.privAsPublic = true ∧
      ∃ m, demo.moduleOf { name := "send".toList, kind := .value, file := 3, vis := .priv } = some m ∧ imp.Reaches demo m :=
  (C64_private demo_wf demo_filled (f := 0) rfl pathArg_http demo_send rfl).2 rfl

/-- **C65** The search comes to an end, with a declaration, an ambiguity or an error; where there is anything that the file declares under
the name, or may use under the name and path, it is not an error that it does not exist. -/
theorem C65_found (wf : WF P) (fl : Filled P T order) (fo : FoldOk P) {f : Nat} {u : CUnit} (hu : P.units[f]? = some u)
    {path : Option Name} (hp : PathArg path) (hstd : path ≠ some std) (locals : List Local) (sym : Name)
    (hloc : path = none → findLocal sym locals = none) :
    ∃ o, resolve P T f locals path sym = some o ∧
      ((∃ i, OfFile P f path sym i ∨ Candidate P f path sym i) ↔ ((∃ i, o = .decl i) ∨ ∃ i j, o = .ambiguous i j)) := by
  obtain ⟨o, ho⟩ := resolve_isSome wf fl fo hu hp hstd locals sym hloc
  refine ⟨o, ho, ?_⟩
  rcases resolve_cases wf fl hu hp hstd locals sym hloc o ho with ⟨i, rfl, h⟩ | ⟨i, j, rfl, _, h, _⟩ | ⟨h1, h2, _, h4⟩
  · exact ⟨fun _ => .inl ⟨i, rfl⟩, fun _ => ⟨i, h⟩⟩
  · exact ⟨fun _ => .inr ⟨i, j, rfl⟩, fun _ => ⟨i, .inr h⟩⟩
  · constructor
    · rintro ⟨i, h | h⟩
      · exact absurd h (h4 i).1
      · exact absurd h (h4 i).2
    · rintro (⟨i, h⟩ | ⟨i, j, h⟩)
      · exact absurd h (h1 i)
      · exact absurd h (h2 i j)

/-- **C65** If just one declaration comes into question, it is the one. -/
theorem C65_only (wf : WF P) (fl : Filled P T order) (fo : FoldOk P) {f : Nat} {u : CUnit} (hu : P.units[f]? = some u)
    {path : Option Name} (hp : PathArg path) (hstd : path ≠ some std) (locals : List Local) (sym : Name)
    (hloc : path = none → findLocal sym locals = none) {i : Nat} (h : Only (fun i => OfFile P f path sym i ∨ Candidate P f path sym i) i) :
    resolve P T f locals path sym = some (.decl i) := by
  obtain ⟨o, ho⟩ := resolve_isSome wf fl fo hu hp hstd locals sym hloc
  rcases resolve_cases wf fl hu hp hstd locals sym hloc o ho with ⟨j, rfl, hj⟩ | ⟨j, k, rfl, hne, hj, hk⟩ | ⟨_, _, _, h4⟩
  · rw [ho, h.2 j hj]
  · exact absurd ((h.2 j (.inr hj)).trans (h.2 k (.inr hk)).symm) hne
  · rcases h.1 with h1 | h1
    · exact absurd h1 (h4 i).1
    · exact absurd h1 (h4 i).2

/-- For example `hash`, of which `old` also has one that `app` does not import. -/
theorem demo_only : Only (fun i => OfFile demo 0 none "hash".toList i ∨ Candidate demo 0 none "hash".toList i) 3 := by
  refine ⟨.inr ⟨_, ⟨rfl, rfl, rfl⟩, by decide, demo_hash, by simp [Fits]⟩, ?_⟩
  have hnamed : ∀ j d, Named demo "hash".toList j d → j = 3 ∨ j = 5 := by
    intro j d hN
    have hlt : j < 8 := (List.getElem?_eq_some_iff.1 hN.decl).1
    have hn := hN.name
    have hd := hN.decl
    have : ∀ j < 8, ∀ d, demo.decls[j]? = some d → d.name = "hash".toList → j = 3 ∨ j = 5 := by
      intro j hj d hd hn
      have h := (by decide +kernel : ∀ j < 8, ((demo.decls[j]?).map (·.name)) = some "hash".toList → j = 3 ∨ j = 5) j hj
      rw [hd] at h
      exact h (by simp [hn])
    exact this j hlt d hd hn
  have hno : ¬Accessible demo 0 { name := "hash".toList, kind := .value, file := 4, vis := .pub } := by
    rintro ⟨u, m, mm, hu, hm, hmm, hc⟩
    cases hu
    cases hm
    cases hmm
    have hpath : ∀ A, HasPath demo 5 A → A = ["old".toList] := fun A h => h.inj (demo_path (m := 5) rfl rfl (isPath_of_check (by decide +kernel)))
    have hpa : ∀ A, HasPath demo 0 A → A = ["app".toList] := fun A h => h.inj (demo_path (m := 0) rfl rfl (isPath_of_check (by decide +kernel)))
    have hpl : ∀ A, HasPath demo 1 A → A = ["lib".toList] := fun A h => h.inj demo_lib
    have hpn : ∀ A, HasPath demo 4 A → A = ["net".toList, "http".toList] := fun A h => h.inj (demo_path (m := 4) rfl rfl (isPath_of_check (by decide +kernel)))
    rcases hc with ⟨h, _⟩ | ⟨_, _, ⟨_, h⟩ | ⟨h, _⟩⟩
    · exact absurd h (by decide)
    · rcases h with ⟨A, B, hA, hB, h⟩ | ⟨A, hA, h⟩ | ⟨imp, hi, h⟩
      · rw [hpath A hA, hpa B hB] at h
        exact absurd h (by decide)
      · rw [hpath A hA] at h
        exact absurd h (by decide)
      · simp only [List.mem_cons, List.not_mem_nil, or_false] at hi
        rcases hi with rfl | rfl
        · rcases h with h | ⟨_, A, B, hA, hB, h⟩
          · exact absurd h (by decide)
          · rw [hpl A hA, hpath B hB] at h
            exact absurd h (by decide)
        · rcases h with h | ⟨_, A, B, hA, hB, h⟩
          · exact absurd h (by decide)
          · rw [hpn A hA, hpath B hB] at h
            exact absurd h (by decide)
    · cases h
  intro j hj
  rcases hj with ⟨_, d, hN, hf⟩ | ⟨d, hN, _, ha, _⟩
  · rcases hnamed j d hN with rfl | rfl
    · rfl
    · have hd := Option.some.inj hN.decl
      rw [← hd] at hf
      exact absurd hf (by decide)
  · rcases hnamed j d hN with rfl | rfl
    · rfl
    · have hd := Option.some.inj hN.decl
      rw [← hd] at ha
      exact absurd ha hno

example : resolve demo demoTables 0 [] none "hash".toList = some (.decl 3) :=
  C65_only demo_wf demo_filled demo_foldOk (f := 0) rfl (fun _ h => by cases h) (by simp) [] _ (fun _ => rfl) demo_only

/-- **C65** is violated for the path `std`: nothing at all is found with it. -/
theorem C65_std (P : Prog) (T : Tables) (f : Nat) (locals : List Local) (sym : Name) (o : Outcome)
    (h : resolve P T f locals (some "std".toList) sym = some o) : o = .notFound := by
  obtain ⟨u, hu⟩ := resolve_unit h
  have := h.symm.trans (resolve_std (P := P) (T := T) hu locals sym)
  exact Option.some.inj this

/-- Although a file may declare things in `module std`. -/
def demoStd : Prog where
  modules := [{ name := "std".toList, top := some 0 }]
  units := [{ module := 0 }]
  decls := [{ name := "x".toList, kind := .value, file := 0, vis := .pub }]

example : WF demoStd ∧ (∃ T, Filled demoStd T [0]) ∧ OfModule demoStd 0 (some "std".toList) "x".toList 0 := by
  refine ⟨wf_of_check (L := [["std".toList]]) (by decide +kernel) (by decide +kernel),
    ⟨_, filled_of_check (List.Perm.refl _) (by decide +kernel)⟩, _, _, ⟨rfl, rfl, rfl⟩, by decide, rfl, rfl, ?_⟩
  intro p hp
  cases hp
  exact ⟨0, _, ["std".toList], ["std".toList], rfl, rfl, isPath_of_check (by decide +kernel), isPath_of_check (by decide +kernel), List.suffix_refl _⟩

end C3.NameRes
