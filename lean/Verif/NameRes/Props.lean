import Verif.NameRes.PropsRes

/-!
# C66: which of several declarations a name stands for
-/

set_option autoImplicit false

namespace C3.NameRes

variable {P : Prog} {T : Tables} {order : List Nat}

/-- **C66** A name without a path stands for the innermost local variable of that name, whatever else is declared. -/
theorem C66_local {f : Nat} {u : CUnit} (hu : P.units[f]? = some u) {inner outer : List Local} {sym : Name} {id : Nat}
    (hi : ∀ l ∈ inner, l.name ≠ sym) : resolve P T f (inner ++ .plain sym id :: outer) none sym = some (.local_ id) := by
  apply resolve_local hu
  induction inner with
  | nil => simp [findLocal, Local.name]
  | cons l inner ih =>
    have hstep : findLocal sym ((l :: inner) ++ .plain sym id :: outer) = findLocal sym (inner ++ .plain sym id :: outer) := by
      rw [List.cons_append, findLocal.eq_def]
      simp only
      rw [if_neg (hi l (by simp))]
    rw [hstep]
    exact ih (fun m hm => hi m (by simp [hm]))

example : resolve demo demoTables 0 [.plain "n".toList 3, .plain "main".toList 2, .plain "main".toList 1] none "main".toList =
    some (.local_ 2) := C66_local (inner := [.plain "n".toList 3]) (f := 0) rfl (by decide)

/-- **C66** (partial) A name that is not a local variable stands for what the rules say: what the file declares, else what its module
declares, else (with a path) the only one that the modules imported declare as public, else the only one of those that may be used, or the
only builtin among them.  Missing: names of weak aliases, files with `@public` imports, and the path `std`; the rules do not hold for
these, see below. -/
theorem C66_rules_partial (wf : WF P) (fl : Filled P T order) {f : Nat} {u : CUnit} (hu : P.units[f]? = some u) {path : Option Name}
    (hp : PathArg path) (hstd : path ≠ some std) (locals : List Local) (sym : Name) (hloc : path = none → findLocal sym locals = none)
    (hweak : ∀ i d, Named P sym i d → d.kind = .typedef → d.weak = false) (hpub : ∀ i ∈ u.imports, i.privAsPublic = false) (i : Nat) :
    resolve P T f locals path sym = some (.decl i) ↔ Chosen P f path sym i :=
  resolve_chosen wf fl hu hp hstd locals sym hloc hweak hpub i

/-- **C66** (partial) It does not depend on the order in which the declarations were registered.  Missing: as before. -/
theorem C66_order_partial {T' : Tables} {order' : List Nat} (wf : WF P) (fl : Filled P T order) (fl' : Filled P T' order') {f : Nat}
    {u : CUnit} (hu : P.units[f]? = some u) {path : Option Name} (hp : PathArg path) (hstd : path ≠ some std) (locals : List Local)
    (sym : Name) (hloc : path = none → findLocal sym locals = none)
    (hweak : ∀ i d, Named P sym i d → d.kind = .typedef → d.weak = false) (hpub : ∀ i ∈ u.imports, i.privAsPublic = false) (i : Nat) :
    resolve P T f locals path sym = some (.decl i) ↔ resolve P T' f locals path sym = some (.decl i) :=
  (C66_rules_partial wf fl hu hp hstd locals sym hloc hweak hpub i).trans
    (C66_rules_partial wf fl' hu hp hstd locals sym hloc hweak hpub i).symm

/-- A file of `app` that imports `a::lib` and `b::lib`, where `b::lib` declares `x` and `y`, both declare `z`, and `app` declares `y`. -/
def demoLibs (i j : Import) : Prog where
  modules := [
    { name := "app".toList, top := some 0 },
    { name := "a".toList, top := some 1 },
    { name := "a::lib".toList, parent := some 1, top := some 1 },
    { name := "b".toList, top := some 3 },
    { name := "b::lib".toList, parent := some 3, top := some 3 }]
  units := [{ module := 0, imports := [i, j] }, { module := 2 }, { module := 4 }]
  decls := [
    { name := "x".toList, kind := .value, file := 1, vis := .priv },
    { name := "x".toList, kind := .value, file := 2, vis := .pub },
    { name := "y".toList, kind := .value, file := 2, vis := .pub },
    { name := "z".toList, kind := .value, file := 1, vis := .pub },
    { name := "z".toList, kind := .value, file := 2, vis := .pub },
    { name := "y".toList, kind := .value, file := 0, vis := .pub }]

def demoLibsPaths : List (List Name) := [["app".toList], ["a".toList], ["a".toList, "lib".toList], ["b".toList], ["b".toList, "lib".toList]]

def demoLibsTables (i j : Import) : Tables := tablesOf (demoLibs i j) (List.range 6)

theorem pathArg_lib : PathArg (some "lib".toList) := fun p h => by
  cases h
  exact ⟨["lib".toList], isPath_of_check (by decide +kernel)⟩

/-- For example `lib::x` is `b::lib::x`, as `a::lib::x` is `@private`. -/
example : Chosen (demoLibs { module := 2 } { module := 4 }) 0 (some "lib".toList) "x".toList 1 :=
  (C66_rules_partial (T := demoLibsTables { module := 2 } { module := 4 }) (order := List.range 6) (f := 0) (u := { module := 0, imports := [{ module := 2 }, { module := 4 }] })
    (wf_of_check (L := demoLibsPaths) (by decide +kernel) (by decide +kernel)) (filled_of_check (List.Perm.refl _) (by decide +kernel)) rfl
    pathArg_lib (by decide) [] _ (fun h => by cases h)
    (fun i d hN hk => by
      have : ∀ d ∈ (demoLibs { module := 2 } { module := 4 }).decls, d.kind = .typedef → d.weak = false := by decide +kernel
      exact this d (List.mem_of_getElem? hN.decl) hk)
    (by decide) 1).1 (by decide +kernel)

/-- **C66** is violated by `@public` imports: without a path, the first such import which declares the name wins, and no ambiguity is
reported.  The two programs differ only in the order of the imports in a file. -/
theorem C66_public_imports_order :
    let a : Import := { module := 2, privAsPublic := true }
    let b : Import := { module := 4, privAsPublic := true }
    (WF (demoLibs a b) ∧ Filled (demoLibs a b) (demoLibsTables a b) (List.range 6) ∧
      resolve (demoLibs a b) (demoLibsTables a b) 0 [] none "z".toList = some (.decl 3)) ∧
    (WF (demoLibs b a) ∧ Filled (demoLibs b a) (demoLibsTables b a) (List.range 6) ∧
      resolve (demoLibs b a) (demoLibsTables b a) 0 [] none "z".toList = some (.decl 4)) :=
  ⟨⟨wf_of_check (L := demoLibsPaths) (by decide +kernel) (by decide +kernel), filled_of_check (List.Perm.refl _) (by decide +kernel),
    by decide +kernel⟩,
    ⟨wf_of_check (L := demoLibsPaths) (by decide +kernel) (by decide +kernel), filled_of_check (List.Perm.refl _) (by decide +kernel),
    by decide +kernel⟩⟩

/-- **C66** is violated by `@public` imports with a path as well: the `@private` declaration of such an import makes a name ambiguous if
the import comes first, and is passed over if it comes second. -/
theorem C66_public_imports_path :
    let a : Import := { module := 2, privAsPublic := true }
    let b : Import := { module := 4 }
    (WF (demoLibs a b) ∧ Filled (demoLibs a b) (demoLibsTables a b) (List.range 6) ∧
      resolve (demoLibs a b) (demoLibsTables a b) 0 [] (some "lib".toList) "x".toList = some (.ambiguous 0 1)) ∧
    (WF (demoLibs b a) ∧ Filled (demoLibs b a) (demoLibsTables b a) (List.range 6) ∧
      resolve (demoLibs b a) (demoLibsTables b a) 0 [] (some "lib".toList) "x".toList = some (.decl 1)) :=
  ⟨⟨wf_of_check (L := demoLibsPaths) (by decide +kernel) (by decide +kernel), filled_of_check (List.Perm.refl _) (by decide +kernel),
    by decide +kernel⟩,
    ⟨wf_of_check (L := demoLibsPaths) (by decide +kernel) (by decide +kernel), filled_of_check (List.Perm.refl _) (by decide +kernel),
    by decide +kernel⟩⟩

/-- A file of `app` that imports `a`, `b` and `c`: `a` and `b` have a weak alias `T`, of different types, and `c` has the type `T` which
that of `a` is an alias of. -/
def demoWeak : Prog where
  modules := [{ name := "app".toList, top := some 0 }, { name := "a".toList, top := some 1 }, { name := "b".toList, top := some 2 },
    { name := "c".toList, top := some 3 }]
  units := [{ module := 0, imports := [{ module := 1 }, { module := 2 }, { module := 3 }] }, { module := 1 }, { module := 2 }, { module := 3 }]
  decls := [
    { name := "T".toList, kind := .typedef, file := 1, vis := .pub, weak := true, type := .typedef 0, aliased := some (.other 1) },
    { name := "T".toList, kind := .typedef, file := 2, vis := .pub, weak := true, type := .typedef 1, aliased := some (.other 2) },
    { name := "T".toList, kind := .typ, file := 3, vis := .pub, type := .other 1 }]

theorem demoWeak_wf : WF demoWeak :=
  wf_of_check (L := [["app".toList], ["a".toList], ["b".toList], ["c".toList]]) (by decide +kernel) (by decide +kernel)

theorem demoWeak_cand {j : Nat} (hj : j < 3) : Candidate demoWeak 0 none "T".toList j := by
  match j, hj with
  | 0, _ => exact ⟨_, ⟨rfl, rfl, rfl⟩, by decide, ⟨_, 1, _, rfl, rfl, rfl, .inr ⟨by decide, rfl, .inl ⟨rfl, .inr (.inr ⟨{ module := 1 }, by decide, .inl rfl⟩)⟩⟩⟩, by simp [Fits]⟩
  | 1, _ => exact ⟨_, ⟨rfl, rfl, rfl⟩, by decide, ⟨_, 2, _, rfl, rfl, rfl, .inr ⟨by decide, rfl, .inl ⟨rfl, .inr (.inr ⟨{ module := 2 }, by decide, .inl rfl⟩)⟩⟩⟩, by simp [Fits]⟩
  | 2, _ => exact ⟨_, ⟨rfl, rfl, rfl⟩, by decide, ⟨_, 3, _, rfl, rfl, rfl, .inr ⟨by decide, rfl, .inl ⟨rfl, .inr (.inr ⟨{ module := 3 }, by decide, .inl rfl⟩)⟩⟩⟩, by simp [Fits]⟩

theorem demoWeak_resolve {order : List Nat} {T : Tables} (fl : Filled demoWeak T order) (h3 : ∀ j ∈ order, j < 3) {c : Cur} {x : Nat}
    (hc : foldAmb demoWeak {} order = some c) (hd : c.decl = some x) :
    resolve demoWeak T 0 [] none "T".toList = some (ofImports x c.ambiguous) := by
  have hcands : cands demoWeak 0 none "T".toList order = order := by
    unfold cands
    rw [List.filter_eq_self]
    intro j hj
    simpa using demoWeak_cand (h3 j hj)
  have hfile : ∀ j d, Named demoWeak "T".toList j d → d.file ≠ 0 := fun j d hN =>
    (by decide +kernel : ∀ d ∈ demoWeak.decls, d.file ≠ 0) d (List.mem_of_getElem? hN.decl)
  rcases resolve_tiers demoWeak_wf fl (f := 0) (path := none) rfl (fun _ h => by cases h) (by simp) [] "T".toList (fun _ => rfl) with
    ⟨i, ⟨_, d, hN, hf⟩, _⟩ | ⟨_, i, ⟨d, u, hN, _, hu, hm, _⟩, _⟩ | ⟨_, _, y, a, ⟨_, d, imp, hN, hi, hm, hv⟩, _⟩ | ⟨_, _, _, G, h1, h2⟩
  · exact absurd hf (hfile i d hN)
  · cases hu
    exact absurd hm ((by decide +kernel : ∀ d ∈ demoWeak.decls, demoWeak.moduleOf d ≠ some 0) d (List.mem_of_getElem? hN.decl))
  · exact absurd (hv (.inr rfl)) (by
      have : ∀ i ∈ [({ module := 1 } : Import), { module := 2 }, { module := 3 }], i.privAsPublic ≠ true := by decide
      exact this imp hi)
  · rw [hcands] at h1 h2
    rw [h1, hc, Option.map_some, (h2 c hc).1 x hd]

theorem foldWeak_zero : foldWeak demoWeak 0 = some (.other 1) := by rw [foldWeak]; rfl
theorem foldWeak_one : foldWeak demoWeak 1 = some (.other 2) := by rw [foldWeak]; rfl

/-- **C66** is violated by weak aliases: whether a name is ambiguous depends on the order in which the modules are registered. -/
theorem C66_weak_order :
    WF demoWeak ∧ FoldOk demoWeak ∧
    (Filled demoWeak (tablesOf demoWeak [0, 1, 2]) [0, 1, 2] ∧
      resolve demoWeak (tablesOf demoWeak [0, 1, 2]) 0 [] none "T".toList = some (.decl 2)) ∧
    (Filled demoWeak (tablesOf demoWeak [0, 2, 1]) [0, 2, 1] ∧
      resolve demoWeak (tablesOf demoWeak [0, 2, 1]) 0 [] none "T".toList = some (.ambiguous 2 1)) := by
  have fl1 : Filled demoWeak (tablesOf demoWeak [0, 1, 2]) [0, 1, 2] := filled_of_check (by decide +kernel) (by decide +kernel)
  have fl2 : Filled demoWeak (tablesOf demoWeak [0, 2, 1]) [0, 2, 1] := filled_of_check (by decide +kernel) (by decide +kernel)
  have p10 : firstIsPreferred demoWeak 1 0 = some false := by
    simp only [firstIsPreferred, foldWeak_zero, foldWeak_one]
    decide +kernel
  have p01 : firstIsPreferred demoWeak 0 1 = some false := by
    simp only [firstIsPreferred, foldWeak_zero, foldWeak_one]
    decide +kernel
  have p20 : firstIsPreferred demoWeak 2 0 = some true := by
    simp only [firstIsPreferred, foldWeak_zero, foldWeak_one]
    decide +kernel
  have p12 : firstIsPreferred demoWeak 1 2 = some false := by
    simp only [firstIsPreferred, foldWeak_zero, foldWeak_one]
    decide +kernel
  have p21 : firstIsPreferred demoWeak 2 1 = some false := by
    simp only [firstIsPreferred, foldWeak_zero, foldWeak_one]
    decide +kernel
  refine ⟨demoWeak_wf, foldOk_of_check (by decide +kernel), ⟨fl1, ?_⟩, ⟨fl2, ?_⟩⟩
  · exact demoWeak_resolve fl1 (by decide) (c := ⟨some 2, none⟩) (by simp [foldAmb, resolveAmbiguity, p10, p01, p20]) rfl
  · exact demoWeak_resolve fl2 (by decide) (c := ⟨some 2, some 1⟩) (by simp [foldAmb, resolveAmbiguity, p12, p21, p20]) rfl

end C3.NameRes
