import Verif.NameRes.Spec
import Verif.NameRes.LemmasPath

/-!
# Lemmas: programs that are written out

How to see that a program that is written out is as it should be.
-/

set_option autoImplicit false

namespace C3.NameRes

/-- Is `x` an identifier? -/
def okIdent (x : Name) : Bool := x ≠ [] && !x.contains ':'

/-- Do the modules have these paths, and the parents and top modules that go with them? -/
def checkModules (ms : List Module) (L : List (List Name)) : Bool :=
  L.Nodup && ms.length == L.length &&
    (ms.zip L).all fun x =>
      x.1.name == joinPath x.2 && x.2 ≠ [] && x.2.all okIdent &&
        (if x.2.dropLast = [] then x.1.parent == none
          else match x.1.parent with
            | none => false
            | some p => L[p]? == some x.2.dropLast) &&
        (match x.1.top with
          | none => false
          | some t => L[t]? == some (x.2.take 1))

theorem hierarchy_of_check {ms : List Module} {L : List (List Name)} (h : checkModules ms L = true) : Hierarchy ms := by
  unfold checkModules at h
  simp only [Bool.and_eq_true, decide_eq_true_eq, beq_iff_eq, List.all_eq_true] at h
  obtain ⟨⟨hn, hl⟩, h⟩ := h
  have hget : ∀ (m : Nat) (mm : Module), ms[m]? = some mm → ∃ A, L[m]? = some A ∧ IsPath mm.name A ∧
      (if A.dropLast = [] then mm.parent = none else ∃ p, mm.parent = some p ∧ L[p]? = some A.dropLast) ∧
      ∃ t, mm.top = some t ∧ L[t]? = some (A.take 1) := by
    intro m mm hm
    have hlt := (List.getElem?_eq_some_iff.1 hm).1
    obtain ⟨A, hA⟩ : ∃ A, L[m]? = some A := ⟨_, List.getElem?_eq_getElem (hl ▸ hlt)⟩
    have hz : (ms.zip L)[m]? = some (mm, A) := List.getElem?_zip_eq_some.2 ⟨hm, hA⟩
    obtain ⟨⟨⟨⟨h1, h2⟩, h3⟩, h4⟩, h5⟩ := h (mm, A) (List.mem_of_getElem? hz)
    refine ⟨A, hA, ⟨h1, h2, ?_⟩, ?_, ?_⟩
    · intro x hx
      have := h3 x hx
      simp only [okIdent, Bool.and_eq_true, decide_eq_true_eq, Bool.not_eq_true', List.contains_eq_mem, decide_eq_false_iff_not] at this
      exact this
    · by_cases hd : A.dropLast = []
      · rw [if_pos hd] at h4 ⊢
        simpa using h4
      · rw [if_neg hd] at h4 ⊢
        cases hp : mm.parent with
        | none => simp [hp] at h4
        | some p => simp only [hp, beq_iff_eq] at h4; exact ⟨p, rfl, h4⟩
    · cases ht : mm.top with
      | none => simp [ht] at h5
      | some t => simp only [ht, beq_iff_eq] at h5; exact ⟨t, rfl, h5⟩
  have hback : ∀ (m : Nat) (A : List Name), L[m]? = some A → ∃ mm, ms[m]? = some mm ∧ IsPath mm.name A := by
    intro m A hA
    have hlt := (List.getElem?_eq_some_iff.1 hA).1
    obtain ⟨mm, hm⟩ : ∃ mm, ms[m]? = some mm := ⟨_, List.getElem?_eq_getElem (hl ▸ hlt)⟩
    obtain ⟨A', hA', hp, _⟩ := hget m mm hm
    rw [hA] at hA'
    cases hA'
    exact ⟨mm, hm, hp⟩
  refine ⟨?_, ?_, ?_, ?_⟩
  · intro m mm hm
    obtain ⟨A, _, hA, _⟩ := hget m mm hm
    exact ⟨A, hA⟩
  · intro m n mm nn hm hn' hmn
    obtain ⟨A, h1, hA, _⟩ := hget m mm hm
    obtain ⟨B, h2, hB, _⟩ := hget n nn hn'
    rw [hmn] at hA
    have := hA.inj hB
    subst this
    have h1' := List.getElem?_eq_some_iff.1 h1
    have h2' := List.getElem?_eq_some_iff.1 h2
    rcases Nat.lt_trichotomy m n with hlt | heq | hlt
    · exact absurd (h1'.2.trans h2'.2.symm) (List.pairwise_iff_getElem.1 hn m n h1'.1 h2'.1 hlt)
    · exact heq
    · exact absurd (h2'.2.trans h1'.2.symm) (List.pairwise_iff_getElem.1 hn n m h2'.1 h1'.1 hlt)
  · intro m mm segs x hm hp
    obtain ⟨A, _, hA, h4, _⟩ := hget m mm hm
    have := hA.inj hp
    subst this
    rw [List.dropLast_concat] at h4
    by_cases hs : segs = []
    · rw [if_pos hs] at h4
      exact ⟨fun _ => h4, fun h => absurd hs h⟩
    · rw [if_neg hs] at h4
      refine ⟨fun h => absurd h hs, fun _ => ?_⟩
      obtain ⟨p, g1, g2⟩ := h4
      obtain ⟨pm, g3, g4⟩ := hback p _ g2
      exact ⟨p, pm, g1, g3, g4⟩
  · intro m mm x segs hm hp
    obtain ⟨A, _, hA, _, t, h5, h6⟩ := hget m mm hm
    have := hA.inj hp
    subst this
    obtain ⟨tm, g3, g4⟩ := hback t _ h6
    exact ⟨t, tm, h5, g3, by rw [g4.text]; rfl⟩

/-- Is the rest as it should be? -/
def checkProg (P : Prog) : Bool :=
  (P.modules.all fun m => match m.generic with
    | none => true
    | some t => match P.modules[t]? with
      | none => false
      | some tm => tm.generic == none && tm.isGeneric) &&
  (P.units.all fun u =>
    (match P.modules[u.module]? with
      | none => false
      | some mm => !mm.isGeneric) &&
    (u.imports.all fun i => i.module != u.module && (match P.modules[i.module]? with
      | none => false
      | some mm => mm.generic == none)) &&
    decide (u.imports.Pairwise (fun i j => i.module ≠ j.module))) &&
  (P.decls.all fun d => (P.units[d.file]?).isSome)

theorem wf_of_check {P : Prog} {L : List (List Name)} (h1 : checkModules P.modules L = true) (h2 : checkProg P = true) : WF P := by
  unfold checkProg at h2
  simp only [Bool.and_eq_true, List.all_eq_true, decide_eq_true_eq] at h2
  obtain ⟨⟨hg, hu⟩, hd⟩ := h2
  refine ⟨hierarchy_of_check h1, ?_, ?_, ?_, ?_, ?_⟩
  · intro m mm t hm ht
    have := hg mm (List.mem_of_getElem? hm)
    rw [ht] at this
    simp only at this
    cases htm : P.modules[t]? with
    | none => simp [htm] at this
    | some tm =>
      simp only [htm, Bool.and_eq_true, beq_iff_eq] at this
      exact ⟨tm, rfl, this.1, this.2⟩
  · intro f u hf
    have := (hu u (List.mem_of_getElem? hf)).1.1
    cases htm : P.modules[u.module]? with
    | none => simp [htm] at this
    | some tm =>
      simp only [htm, Bool.not_eq_true'] at this
      exact ⟨tm, rfl, this⟩
  · intro f u i hf hi
    have := (hu u (List.mem_of_getElem? hf)).1.2 i hi
    simp only [bne_iff_ne] at this
    refine ⟨this.1, ?_⟩
    cases htm : P.modules[i.module]? with
    | none => simp [htm] at this
    | some tm =>
      simp only [htm, beq_iff_eq] at this
      exact ⟨tm, rfl, this.2⟩
  · intro f u hf
    exact (hu u (List.mem_of_getElem? hf)).2
  · intro i d hi
    exact Option.isSome_iff_exists.1 (hd d (List.mem_of_getElem? hi))

/-- The tables of a program that is written out. -/
def tablesOf (P : Prog) (order : List Nat) : Tables := (registerAll P order Tables.empty).getD Tables.empty

theorem filled_of_check {P : Prog} {order : List Nat} (h1 : order.Perm (List.range P.decls.length))
    (h2 : (registerAll P order Tables.empty).isSome = true) : Filled P (tablesOf P order) order := by
  refine ⟨h1, ?_⟩
  obtain ⟨T, hT⟩ := Option.isSome_iff_exists.1 h2
  rw [tablesOf, hT]
  rfl

theorem foldOk_of_check {P : Prog} (h : P.decls.all (fun d => !d.weak || (match d.aliased with
    | some (.other _) => true
    | _ => false)) = true) : FoldOk P := by
  intro i d hi
  have := List.all_eq_true.1 h d (List.mem_of_getElem? hi)
  rw [foldWeak]
  simp only [hi, Option.bind_eq_bind, Option.bind_some]
  by_cases hw : d.weak = true
  · rw [if_pos hw]
    rw [hw] at this
    cases ha : d.aliased with
    | none => simp [ha] at this
    | some t =>
      cases t with
      | typedef j => simp [ha] at this
      | other k => simp
  · rw [if_neg hw]
    rfl

/-- A file of `app` that imports `lib` and, as `@public`, `net::http`; `lib::impl` is in `lib`, and `old` is not imported. -/
def demo : Prog where
  modules := [
    { name := "app".toList, top := some 0 },
    { name := "lib".toList, top := some 1 },
    { name := "lib::impl".toList, parent := some 1, top := some 1 },
    { name := "net".toList, top := some 3 },
    { name := "net::http".toList, parent := some 3, top := some 3 },
    { name := "old".toList, top := some 5 }]
  units := [{ module := 0, imports := [{ module := 1 }, { module := 4, privAsPublic := true }] }, { module := 1 }, { module := 2 }, { module := 4 },
    { module := 5 }]
  decls := [
    { name := "main".toList, kind := .value, file := 0, vis := .pub },
    { name := "open".toList, kind := .value, file := 1, vis := .pub },
    { name := "open".toList, kind := .value, file := 2, vis := .pub },
    { name := "hash".toList, kind := .value, file := 2, vis := .pub },
    { name := "send".toList, kind := .value, file := 3, vis := .priv },
    { name := "hash".toList, kind := .value, file := 4, vis := .pub },
    { name := "seed".toList, kind := .value, file := 2, vis := .priv },
    { name := "main".toList, kind := .value, file := 1, vis := .loc }]

def demoPaths : List (List Name) :=
  [["app".toList], ["lib".toList], ["lib".toList, "impl".toList], ["net".toList], ["net".toList, "http".toList], ["old".toList]]

theorem demo_wf : WF demo := wf_of_check (L := demoPaths) (by decide +kernel) (by decide +kernel)

def demoTables : Tables := tablesOf demo (List.range 8)

theorem demo_filled : Filled demo demoTables (List.range 8) := filled_of_check (List.Perm.refl _) (by decide +kernel)

theorem demo_foldOk : FoldOk demo := foldOk_of_check (by decide +kernel)

theorem isPath_of_check {s : Name} {segs : List Name} (h : (s == joinPath segs && segs ≠ [] && segs.all okIdent) = true) : IsPath s segs := by
  simp only [Bool.and_eq_true, decide_eq_true_eq, beq_iff_eq, List.all_eq_true] at h
  refine ⟨h.1.1, h.1.2, fun x hx => ?_⟩
  have := h.2 x hx
  simp only [okIdent, Bool.and_eq_true, decide_eq_true_eq, Bool.not_eq_true', List.contains_eq_mem, decide_eq_false_iff_not] at this
  exact this

end C3.NameRes
